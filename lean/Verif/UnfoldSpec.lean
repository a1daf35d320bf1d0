import Verif.Supported
import Verif.DataSpec
import Verif.DocSpec
/-!
# The unfolding of an object graph

A tree says what can be seen of a value by following elements, entries and attributes, without asking whether two of the objects met
are the same object.  Nothing here mentions the encoder or the decoder.
-/
namespace JP.Unfold
open JP

inductive Tree
  | none
  | bool (b : Bool)
  | int (i : Int)
  | float (f : UInt64)
  | str (s : Str)
  | bytes (b : Bytes)
  | bytearray (b : Bytes)
  /-- a class itself -/
  | type (n : Str)
  /-- a function that is found by its name -/
  | func (n : Str)
  | module (n : Str)
  | list (xs : List Tree)
  | tuple (xs : List Tree)
  | set (xs : List Tree)
  | dict (kvs : List (Str × Tree))
  /-- an instance: its class and its attributes -/
  | inst (c : Str) (kvs : List (Str × Tree))

/-- an object of class `c` that holds nothing but attributes in its `__dict__` -/
structure Object (info : ClassInfo) (c : Str) (i : Inst) : Prop where
  cls : i.cls = c
  info : i.info = info
  dictCell : i.dictCell = none
  items : i.items = []
  elems : i.elems = []
  factory : i.factory = none
  exclude : i.exclude = []

mutual
/-- In heap `h`, the unfolding of `v` is the tree.  `as` lists the lists, dicts and instances that are met, in the order in which they
begin, each as often as it is met. -/
def Is (cls : Str → ClassInfo) (h : Heap) (v : Val) : Tree → List Addr → Prop
  | .none, as => v = .none ∧ as = []
  | .bool b, as => v = .bool b ∧ as = []
  | .int i, as => v = .int i ∧ as = []
  | .float f, as => v = .float f ∧ as = []
  | .str s, as => v = .str s ∧ as = []
  | .bytes b, as => ∃ n, v = .bytes n b ∧ as = []
  | .bytearray b, as => ∃ n, v = .bytearray n b ∧ as = []
  | .type n, as => v = .type n ∧ as = []
  | .func n, as => v = .func n ∧ as = []
  | .module n, as => v = .module n ∧ as = []
  | .list xs, as => ∃ a vs bs, v = .ref a ∧ h[a]? = some (.list vs) ∧ Are cls h vs xs bs ∧ as = a :: bs
  | .tuple xs, as => ∃ n vs, v = .tuple n vs ∧ Are cls h vs xs as
  | .set xs, as => ∃ n vs, v = .set n vs ∧ Are cls h vs xs as
  | .dict kvs, as => ∃ a es bs, v = .ref a ∧ h[a]? = some (.dict (es.map (fun kv : Str × Val => (.str kv.1, kv.2)))) ∧ EntriesAre cls h es kvs bs ∧ as = a :: bs
  | .inst c kvs, as => ∃ a i bs, v = .ref a ∧ h[a]? = some (.inst i) ∧ Object (cls c) c i ∧ EntriesAre cls h i.attrs kvs bs ∧ as = a :: bs
def Are (cls : Str → ClassInfo) (h : Heap) (vs : List Val) : List Tree → List Addr → Prop
  | [], as => vs = [] ∧ as = []
  | x :: xs, as => ∃ v vs' bs cs, vs = v :: vs' ∧ Is cls h v x bs ∧ Are cls h vs' xs cs ∧ as = bs ++ cs
def EntriesAre (cls : Str → ClassInfo) (h : Heap) (es : List (Str × Val)) : List (Str × Tree) → List Addr → Prop
  | [], as => es = [] ∧ as = []
  | (k, x) :: xs, as => ∃ v es' bs cs, es = (k, v) :: es' ∧ Is cls h v x bs ∧ EntriesAre cls h es' xs cs ∧ as = bs ++ cs
end

/-- a class whose objects are written by their attributes and made anew by `__new__` without arguments; both sides know it and have no
handler for it -/
structure ClassOk (w : World) (env : UEnv) (c : Str) : Prop where
  data : DataClass (env.classInfo c)
  plain : (env.classInfo c).base = .plain
  hasDict : (env.classInfo c).hasDict = true
  new : (env.classInfo c).newAccepts 0 = true
  loads : env.loadclass c ≠ none
  unhandled : w.handler c = none
  unhandled' : env.handler c = none
  text : StrOk c

/-- an attribute name that comes back: not one of the tags, not `default_factory`, not starting with two underscores -/
def AttrOk (keys : Bool) (k : Str) : Prop := NameOk keys k ∧ StrOk k ∧ k ≠ p!"default_factory" ∧ startsWith k p!"__" = false

mutual
/-- scalars, bytes, classes, functions, modules, and tuples of them -/
def Atomic : Val → Prop
  | .none | .bool _ | .int _ | .float _ | .str _ | .bytes _ _ | .type _ | .func _ | .module _ => True
  | .tuple _ xs => AtomicL xs
  | _ => False
def AtomicL : List Val → Prop
  | [] => True
  | x :: xs => Atomic x ∧ AtomicL xs
end

mutual
/-- the scalar, the bytes, the class, the function, the module or the tuple of these that the tree is -/
def Tree.atom : Tree → Option Val
  | .none => some .none
  | .bool b => some (.bool b)
  | .int i => some (.int i)
  | .float f => some (.float f)
  | .str s => some (.str s)
  | .bytes b => some (.bytes 0 b)
  | .type n => some (.type n)
  | .func n => some (.func n)
  | .module n => some (.module n)
  | .tuple xs => (atomL xs).map (.tuple 0)
  | _ => Option.none
def atomL : List Tree → Option (List Val)
  | [] => some []
  | x :: xs => match x.atom, atomL xs with
    | some k, some ks => some (k :: ks)
    | _, _ => Option.none
end

/-- elements of a set: scalars, bytes, classes, functions, modules and tuples of them, no two of them equal -/
def Members (xs : List Tree) : Prop :=
  (∀ x ∈ xs, x.atom ≠ Option.none) ∧ xs.Pairwise (fun x y => ∀ k l, x.atom = some k → y.atom = some l → pyEq k l = false)

mutual
/-- names and keys that come back, and texts and numbers that JSON can tell -/
def Tree.Ok (w : World) (env : UEnv) : Tree → Prop
  | .none | .bool _ | .int _ | .bytes _ | .bytearray _ => True
  | .float f => FloatOk f
  | .str s => StrOk s
  | .type n => env.loadclass n = some (.type n) ∧ StrOk n
  | .func n => env.loadclass n = some (.func n) ∧ StrOk n
  | .module n => env.loadmodule (n ++ 47 :: n) = .ok (some (.module n)) ∧ StrOk (n ++ 47 :: n)
  | .list xs => OkL w env xs
  | .tuple xs => OkL w env xs
  | .set xs => OkL w env xs ∧ Members xs
  | .dict kvs => (kvs.map (·.1)).Nodup ∧ (∀ kv ∈ kvs, NameOk env.keys kv.1 ∧ StrOk kv.1) ∧ OkKv w env kvs
  | .inst c kvs => ClassOk w env c ∧ (kvs.map (·.1)).Nodup ∧ (∀ kv ∈ kvs, AttrOk env.keys kv.1) ∧ OkKv w env kvs
def OkL (w : World) (env : UEnv) : List Tree → Prop
  | [] => True
  | x :: xs => x.Ok w env ∧ OkL w env xs
def OkKv (w : World) (env : UEnv) : List (Str × Tree) → Prop
  | [] => True
  | (_, x) :: xs => x.Ok w env ∧ OkKv w env xs
end

mutual
/-- what is written for the tree -/
def Tree.doc (cfg : PCfg) : Tree → Json
  | .none => .null
  | .bool b => .bool b
  | .int i => .int i
  | .float f => .float f
  | .str s => .str s
  | .bytes b => if cfg.useBase85 then .obj [(p!"py/b85", .str (b85encode b))] else .obj [(p!"py/b64", .str (b64encode b))]
  | .bytearray b => .obj [(p!"py/bytea", if cfg.useBase85 then .obj [(p!"py/b85", .str (b85encode b))] else .obj [(p!"py/b64", .str (b64encode b))])]
  | .type n => .obj [(p!"py/type", .str n)]
  | .func n => .obj [(p!"py/function", .str n)]
  | .module n => .obj [(p!"py/mod", .str (n ++ 47 :: n))]
  | .list xs => .arr (docL cfg xs)
  | .tuple xs => .obj [(p!"py/tuple", .arr (docL cfg xs))]
  | .set xs => .obj [(p!"py/set", .arr (docL cfg xs))]
  | .dict kvs => .obj (docKv cfg kvs)
  | .inst c kvs => .obj ((p!"py/object", .str c) :: docKv cfg kvs)
def docL (cfg : PCfg) : List Tree → List Json
  | [] => []
  | x :: xs => x.doc cfg :: docL cfg xs
def docKv (cfg : PCfg) : List (Str × Tree) → List (Str × Json)
  | [] => []
  | (k, x) :: xs => (k, x.doc cfg) :: docKv cfg xs
end

mutual
/-- how many levels the tree has -/
def Tree.depth : Tree → Nat
  | .list xs => depthL xs + 1
  | .tuple xs => depthL xs + 1
  | .set xs => depthL xs + 1
  | .dict kvs => depthKv kvs + 1
  | .inst _ kvs => depthKv kvs + 1
  | _ => 0
def depthL : List Tree → Nat
  | [] => 0
  | x :: xs => max x.depth (depthL xs)
def depthKv : List (Str × Tree) → Nat
  | [] => 0
  | (_, x) :: xs => max x.depth (depthKv xs)
end

/-- scalars, bytes, bytearrays, classes, functions and modules that are found by their name, tuples, sets of all these but bytearrays, lists, dicts with string keys, and objects that hold nothing but attributes -/
def Seen (w : World) (env : UEnv) : Val → Prop
  | .none | .bool _ | .int _ | .bytes _ _ | .bytearray _ _ | .tuple _ _ => True
  | .float f => FloatOk f
  | .str s => StrOk s
  | .type n => env.loadclass n = some (.type n) ∧ StrOk n
  | .func n => env.loadclass n = some (.func n) ∧ StrOk n
  | .module n => env.loadmodule (n ++ 47 :: n) = .ok (some (.module n)) ∧ StrOk (n ++ 47 :: n)
  | .set _ xs => (∀ x ∈ xs, Atomic x) ∧ xs.Pairwise (fun x y => pyEq x y = false)
  | .ref a => ∃ o, w.heap[a]? = some o ∧ match o with
    | .list _ => True
    | .dict kvs => ∃ es : List (Str × Val), kvs = es.map (fun kv : Str × Val => (.str kv.1, kv.2)) ∧ (es.map (·.1)).Nodup ∧ ∀ kv ∈ es, NameOk env.keys kv.1 ∧ StrOk kv.1
    | .inst i => ClassOk w env i.cls ∧ Object (env.classInfo i.cls) i.cls i ∧ (i.attrs.map (·.1)).Nodup ∧ ∀ kv ∈ i.attrs, AttrOk env.keys kv.1
    | _ => False
  | _ => False

end JP.Unfold
