import Verif.Unpickler
import Verif.JsonSpec
import Verif.GraphSpec
/-!
# Which object graphs the round-trip theorems cover

Conditions on the object graph and on the environment, independent of the encoder and the decoder.
-/
namespace JP

/-- the values an instance refers to -/
def Inst.parts (i : Inst) : List Val :=
  i.attrs.map (·.2) ++ i.items.map (·.1) ++ i.items.map (·.2) ++ i.elems
  ++ [i.newargs, i.newargsEx.1, i.newargsEx.2, i.initargs, i.exemplar]
  ++ (match i.state with | .ok v => [v] | .error _ => [])
  ++ (match i.reduce with | .tup xs => xs | .str (some v) => [v] | _ => [])
  ++ i.factory.toList ++ i.dirAttrs.map (·.2) ++ i.hfields.map (·.2)
  ++ (match i.dictCell with | some d => [.ref d] | none => [])

/-- the values an object refers to -/
def Obj.parts : Obj → List Val
  | .list xs => xs
  | .dict kvs => kvs.map (·.1) ++ kvs.map (·.2)
  | .inst i => i.parts
  | _ => []

/-- the object in cell `b` can be reached from the value -/
inductive Reach (h : Heap) : Val → Addr → Prop
  | self (a : Addr) : Reach h (.ref a) a
  | cell {a b : Addr} {o : Obj} {x : Val} : h[a]? = some o → x ∈ o.parts → Reach h x b → Reach h (.ref a) b
  | tuple {i : Nat} {xs : List Val} {x : Val} {b : Addr} : x ∈ xs → Reach h x b → Reach h (.tuple i xs) b
  | set {i : Nat} {xs : List Val} {x : Val} {b : Addr} : x ∈ xs → Reach h x b → Reach h (.set i xs) b

/-- the cell `b` is named in the value itself -/
inductive Mentions : Val → Addr → Prop
  | self (a : Addr) : Mentions (.ref a) a
  | tuple {i : Nat} {xs : List Val} {x : Val} {b : Addr} : x ∈ xs → Mentions x b → Mentions (.tuple i xs) b
  | set {i : Nat} {xs : List Val} {x : Val} {b : Addr} : x ∈ xs → Mentions x b → Mentions (.set i xs) b

/-- `__getstate__` of the object in cell `a`, whose class has no `__setstate__`, returned the object in cell `d` -/
def StateOf (h : Heap) (env : UEnv) (a d : Addr) : Prop :=
  ∃ i, h[a]? = some (.inst i) ∧ env.handler i.cls = none ∧ i.info.reduces = false ∧ i.info.hasSetstate = false ∧
    savedState h i = some (.ref d)

/-- what the object refers to is not the state of another object -/
def Keeps (h : Heap) (env : UEnv) (a : Addr) (o : Obj) : Prop :=
  ∀ x ∈ o.parts, ∀ d, Mentions x d → ∀ a', StateOf h env a' d → a' = a ∧ x = .ref d

mutual
/-- a dict key without identity: scalars other than NaN, bytes, classes and functions found by name, and
tuples of such values -/
def ValueKey (env : UEnv) : Val → Prop
  | .none | .bool _ | .int _ | .bytes _ _ => True
  | .str s => StrOk s
  | .float f => floatIsNan f = false
  | .tuple _ xs => ValueKeys env xs
  | .type n => StrOk n ∧ env.loadclass n = some (.type n)
  | .func n => StrOk n ∧ env.loadclass n = some (.func n)
  | _ => False
def ValueKeys (env : UEnv) : List Val → Prop
  | [] => True
  | x :: xs => ValueKey env x ∧ ValueKeys env xs
end

mutual
/-- classes, functions and modules can be found by name; set members are hashable and distinct -/
def ValOk (h : Heap) (env : UEnv) : Val → Prop
  | .none | .bool _ | .int _ | .float _ | .str _ | .bytes _ _ | .bytearray _ _ | .ref _ => True
  | .tuple _ xs => ValsOk h env xs
  | .set _ xs => ValsOk h env xs ∧ hashables h xs = true ∧ xs.Pairwise (fun x y => pyEq x y = false)
  | .type n => env.loadclass n = some (.type n)
  | .func n => env.loadclass n = some (.func n)
  | .module n => env.loadmodule (n ++ 47 :: n) = .ok (some (.module n))
  | .lambda _ => False
def ValsOk (h : Heap) (env : UEnv) : List Val → Prop
  | [] => True
  | x :: xs => ValOk h env x ∧ ValsOk h env xs
end

/-- a string that can be written as a key of a JSON object without being mistaken for something else -/
def NameOk (keys : Bool) (s : Str) : Prop :=
  s ∉ Tags.all ∧ (keys = true → startsWith s Tags.JSON_KEY = false)

/-- a string key that equals a reserved tag or starts with `json://`: with `keys=True` it is escaped -/
def Collides (k : Val) : Prop :=
  ∃ s, k = .str s ∧ (startsWith s Tags.JSON_KEY = true ∨ Tags.isReserved s = true)

/-- a supported dict key; with `keys=False` only strings -/
def KeyOk (env : UEnv) : Val → Prop
  | .str s => NameOk env.keys s ∨ (env.keys = true ∧ Collides (.str s) ∧ StrOk s)
  | k => env.keys = true ∧ ValueKey env k

/-- with `keys=True`, no string key that is written as it is comes after one that is escaped.  (The decoder
reads the escaped keys last, so the references in the values of a dict in another order may be misread: see C03.) -/
def EscapedLast (kvs : List (Val × Val)) : Prop :=
  (kvs.map (·.1)).Pairwise (fun k k' => Collides k → isStrV k' = true → Collides k')

theorem NameOk.noCollision {s : Str} (h : NameOk true s) : ¬ Collides (.str s) := by
  rintro ⟨t, e, ht⟩
  injection e with e
  subst e
  rcases ht with ht | ht
  · rw [h.2 rfl] at ht; cases ht
  · have hsub : ∀ t ∈ Tags.RESERVED, t ∈ Tags.all := by decide
    exact h.1 (hsub _ (by simpa [Tags.isReserved, List.contains_eq_mem] using ht))

theorem escapedLast_of {kvs : List (Val × Val)} (h : ∀ kv ∈ kvs, ¬ Collides kv.1) : EscapedLast kvs := by
  unfold EscapedLast
  rw [List.pairwise_map]
  exact List.Pairwise.imp_of_mem (fun {a b} ha _ _ hc => absurd hc (h a ha)) (List.pairwise_of_forall (R := fun _ _ => True) (fun _ _ => trivial))

/-- supported entries of a dict: supported keys, all different, and supported values -/
def EntriesOk (h : Heap) (env : UEnv) (kvs : List (Val × Val)) : Prop :=
  (∀ kv ∈ kvs, KeyOk env kv.1 ∧ ValOk h env kv.2) ∧
  (kvs.map (·.1)).Pairwise (fun k k' => pyEq k k' = false) ∧ (env.keys = true → EscapedLast kvs)

/-- supported attributes: different names, not starting with two underscores, and supported values -/
def AttrsOk (h : Heap) (env : UEnv) (attrs : List (Str × Val)) : Prop :=
  (∀ kv ∈ attrs, NameOk env.keys kv.1 ∧ kv.1 ≠ p!"default_factory" ∧ startsWith kv.1 p!"__" = false ∧
    ValOk h env kv.2) ∧
  (attrs.map (·.1)).Nodup

/-- the default factory is passed to the constructor as an additional argument -/
def Inst.extraArgs (i : Inst) : Nat := if i.factory.isSome then 1 else 0

/-- supported constructor arguments of the instance `i` in cell `a`: a tuple from which the instance
itself cannot be reached; keyword arguments have string keys and must not be empty -/
inductive CtorOk (h : Heap) (env : UEnv) (a : Addr) (i : Inst) : Prop
  | noArgs : i.info.hasNewargs = false → i.info.hasNewargsEx = false → i.info.hasInitargs = false →
      i.info.base ≠ .tuple → (i.info.base = .list ∨ i.info.base = .set → i.info.numFields = none) →
      i.info.newAccepts i.extraArgs = true → CtorOk h env a i
  | newargs {l : Nat} {xs : List Val} : i.info.hasNewargs = true → i.info.hasNewargsEx = false →
      i.info.hasInitargs = false → i.newargs = .tuple l xs → ValsOk h env xs → ¬ Reach h i.newargs a →
      i.info.newAccepts (xs.length + i.extraArgs) = true → CtorOk h env a i
  | newargsEx {l : Nat} {xs : List Val} {d : Addr} {kvs : List (Val × Val)} : i.info.hasNewargsEx = true →
      i.info.hasInitargs = false → i.newargsEx = (.tuple l xs, .ref d) → h[d]? = some (.dict kvs) → kvs ≠ [] → kvs.all Unpickler.isStrKey = true →
      ValsOk h env xs → ¬ Reach h i.newargsEx.1 a → ¬ Reach h i.newargsEx.2 a →
      i.info.newAccepts (xs.length + i.extraArgs) = true → CtorOk h env a i
  | initargs {l : Nat} {xs : List Val} : i.info.hasInitargs = true → i.info.hasNewargs = false →
      i.info.hasNewargsEx = false → i.initargs = .tuple l xs → ValsOk h env xs → ¬ Reach h i.initargs a →
      i.info.newAccepts (xs.length + i.extraArgs) = true → CtorOk h env a i

/-- no `__getstate__`, or one that returns a falsy value -/
def NoState (h : Heap) (i : Inst) : Prop :=
  i.info.ownGetstate = true → ∃ st, i.state = .ok st ∧ truthy h st = false

/-- the default factory, if any, is a class that can be found by name -/
def FactoryOk (env : UEnv) (i : Inst) : Prop :=
  ∀ f, i.factory = some f → ∃ n, f = .type n ∧ env.loadclass n = some (.type n)

/-- supported contents of an instance -/
inductive BodyOk (h : Heap) (env : UEnv) (i : Inst) : Prop
  /-- an ordinary object with a `__dict__` -/
  | attrs : i.info.base = .plain → i.info.isIterator = false → i.info.hasDict = true →
      NoState h i → AttrsOk h env i.attrs → BodyOk h env i
  /-- an object without attributes -/
  | empty : i.info.base = .plain → i.info.isIterator = false → i.info.hasDict = false → i.info.hasSlots = false →
      NoState h i → i.attrs = [] → BodyOk h env i
  /-- an object with slots, of which some are set; `attrs` lists them in the order of `slots` -/
  | slots : i.info.base = .plain → i.info.isIterator = false → i.info.hasDict = false → i.info.hasSlots = true →
      NoState h i → AttrsOk h env i.attrs → i.attrs ≠ [] → i.info.slots.Nodup →
      (∀ k ∈ i.info.slots, startsWith k p!"__" = false) →
      i.attrs.map (·.1) = i.info.slots.filter (fun k => (i.attrs.map (·.1)).contains k) → BodyOk h env i
  /-- an instance of a list subclass -/
  | list : i.info.base = .list → NoState h i → AttrsOk h env i.attrs → (i.info.hasDict = false → i.attrs = []) →
      ValsOk h env i.elems → BodyOk h env i
  /-- an instance of a set subclass -/
  | set : i.info.base = .set → NoState h i → AttrsOk h env i.attrs → (i.info.hasDict = false → i.attrs = []) →
      ValsOk h env i.elems → hashables h i.elems = true → i.elems.Pairwise (fun x y => pyEq x y = false) → BodyOk h env i
  /-- an instance of a dict subclass, possibly with a default factory -/
  | dict : i.info.base = .dict → NoState h i → EntriesOk h env i.items →
      (∀ kv ∈ i.items, kv.1 ≠ .str p!"__dict__") →
      (∀ kv ∈ i.items, kv.1 = .str p!"default_factory" → i.factory ≠ none) → FactoryOk env i →
      (∀ kv ∈ i.attrs, NameOk env.keys kv.1 ∧ ValOk h env kv.2) → (i.attrs.map (·.1)).Nodup →
      (i.info.hasDict = false ∨ i.eqOwnDict = true → i.attrs = []) → BodyOk h env i
  /-- an instance of a tuple subclass without attributes, rebuilt from `__getnewargs__`: a namedtuple takes
  its elements as arguments, other tuple subclasses take one tuple -/
  | tuple {l : Nat} {xs : List Val} : i.info.base = .tuple → NoState h i → i.attrs = [] → i.info.hasNewargs = true →
      i.info.hasNewargsEx = false → i.newargs = .tuple l xs →
      (i.info.numFields.isSome = true → i.elems = xs) →
      (i.info.numFields = none → ∃ l', xs = [.tuple l' i.elems]) → BodyOk h env i
  /-- an object with `__getstate__` and `__setstate__` -/
  | state {st : Val} : i.info.base ≠ .tuple → i.info.ownGetstate = true → i.state = .ok st → truthy h st = true →
      i.info.hasSetstate = true → ValOk h env st → i.factory = none → BodyOk h env i
  /-- an object with `__getstate__`, which returns a dict of attributes, and without `__setstate__` -/
  | stateDict {d : Addr} {kvs : List (Str × Val)} : i.info.base = .plain → i.info.hasDict = true → i.info.ownGetstate = true →
      i.state = .ok (.ref d) → i.info.hasSetstate = false → h[d]? = some (.dict (kvs.map (fun kv => (.str kv.1, kv.2)))) → kvs ≠ [] →
      AttrsOk h env kvs → (i.info.hasNewargsEx = true → i.newargsEx.2 ≠ .ref d) → BodyOk h env i

/-- fields that only make sense for some classes are empty for the others -/
structure Inst.Tidy (i : Inst) : Prop where
  dictCell : i.dictCell = none
  exclude : i.exclude = []
  items : i.info.base ≠ .dict → i.items = []
  elems : i.info.base = .plain ∨ i.info.base = .dict → i.elems = []
  factory : i.info.base ≠ .dict → i.factory = none
  errs : i.errs = {}

/-- a supported instance of a class without handler or reduce value -/
structure InstOk (h : Heap) (env : UEnv) (a : Addr) (i : Inst) : Prop where
  tidy : i.Tidy
  load : env.loadclass i.cls = some (.type i.cls)
  info : env.classInfo i.cls = i.info
  noHandler : env.handler i.cls = none
  noReduce : i.info.reduces = false
  ctor : CtorOk h env a i
  body : BodyOk h env i

/-- a date or time: its fields are the state, the time zone if it has one, and its class -/
structure DateOk (env : UEnv) (i : Inst) : Prop where
  handler : env.handler i.cls = some .datetime
  name : StrOk i.cls
  fields : ∃ l b rest, i.hfields = (p!"state", .bytes l b) :: (rest ++ [(p!"class", .type i.cls)]) ∧ ∀ kv ∈ rest, kv.1 = p!"tzinfo"

/-- an object whose class has a handler that writes the object's fields and reads them back; the object
cannot be reached from its own fields -/
structure HandledOk (h : Heap) (env : UEnv) (a : Addr) (i : Inst) : Prop where
  noError : i.errs.handler = none
  info : env.classInfo i.cls = i.info
  handler : env.handler i.cls = some .record ∨ (env.handler i.cls = some .opaque ∧ i.hfields = []) ∨ DateOk env i
  names : ∀ kv ∈ i.hfields, kv.1 ∉ Tags.all ∧ ValOk h env kv.2
  nodup : (i.hfields.map (·.1)).Nodup
  noReach : ∀ kv ∈ i.hfields, ¬ Reach h kv.2 a

/-- the object can be rebuilt by calling `f(*args)` -/
inductive CallOk (env : UEnv) (i : Inst) : Val → Val → Prop
  /-- `copyreg.__newobj__(cls, *args)` -/
  | newobj {n : Str} {l : Nat} {xs : List Val} : (n.reverse.takeWhile (· != 46)).reverse = p!"__newobj__" →
      env.classInfo i.cls = i.info → i.info.newAccepts xs.length = true →
      CallOk env i (.func n) (.tuple l (.type i.cls :: xs))
  | type {l : Nat} {xs : List Val} : (i.cls.reverse.takeWhile (· != 46)).reverse ≠ p!"__newobj__" →
      env.classInfo i.cls = i.info → (i.info.callAccepts xs.length || i.info.newAccepts xs.length) = true →
      CallOk env i (.type i.cls) (.tuple l xs)
  /-- a function that returns such objects -/
  | func {n : Str} {l : Nat} {xs : List Val} : (n.reverse.takeWhile (· != 46)).reverse ≠ p!"__newobj__" →
      (env.classInfo n).base = i.info.base → (env.classInfo n).finish = i.info.finish →
      (env.classInfo n).callAccepts xs.length = true → CallOk env i (.func n) (.tuple l xs)

/-- the value is not an instance of a subclass of a builtin container, whose truth value depends on its contents -/
def NoSub (h : Heap) (v : Val) : Prop := ∀ a i, v = .ref a → h[a]? = some (.inst i) → i.info.base = .plain

/-- an object with a reduce tuple, from which the object itself cannot be reached, and which says what to do with the state and the
items in a way that the class supports -/
structure ReduceOk (h : Heap) (env : UEnv) (a : Addr) (i : Inst) : Prop where
  noHandler : env.handler i.cls = none
  reduces : i.info.reduces = true
  recipe : ∃ f args rest, i.reduce = .tup (f :: args :: rest) ∧ rest.length ≤ 4 ∧ ValsOk h env (f :: args :: rest) ∧
    CallOk env i f args ∧ (∀ x ∈ f :: args :: rest, ¬ Reach h x a) ∧
    (truthy h (rest.getD 0 .none) = true → i.info.ownGetstate = true → i.info.hasSetstate = false → i.info.base = .dict) ∧
    (∀ x ∈ rest, NoSub h x) ∧ ∃ ops, Steps h i.info.finish (_root_.JP.recipe p!"py/newobj" (f :: args :: rest)) ops

/-- a supported object -/
inductive CellOk (h : Heap) (env : UEnv) (a : Addr) : Obj → Prop
  | list {xs : List Val} : ValsOk h env xs → CellOk h env a (.list xs)
  | dict {kvs : List (Val × Val)} : EntriesOk h env kvs → CellOk h env a (.dict kvs)
  | inst {i : Inst} : InstOk h env a i → CellOk h env a (.inst i)
  | handled {i : Inst} : HandledOk h env a i → CellOk h env a (.inst i)
  | reduced {i : Inst} : ReduceOk h env a i → CellOk h env a (.inst i)

/-- every object reachable from the value is supported, and no state that is turned into attributes belongs to two objects -/
def SupportedAt (h : Heap) (env : UEnv) (v : Val) : Prop :=
  ValOk h env v ∧ ∀ a, Reach h v a → ∃ o, h[a]? = some o ∧ CellOk h env a o ∧ Keeps h env a o

/-- the graph is supported, and its root is not the state of one of its objects -/
def Supported (h : Heap) (env : UEnv) (v : Val) : Prop :=
  SupportedAt h env v ∧ ∀ d, Mentions v d → ∀ a, ¬ StateOf h env a d

/-- The options with which a document is written and read again: references enabled, no depth limit, the
same `keys` option and handlers on both sides, and a JSON backend that reads back what it wrote (C41). -/
structure Matching (w : World) (cfg : PCfg) (env : UEnv) : Prop where
  unpicklable : cfg.unpicklable = true
  makeRefs : cfg.makeRefs = true
  maxDepth : cfg.maxDepth = none
  keys : cfg.keys = env.keys
  v1 : env.v1 = false
  handler : ∀ c, w.handler c = env.handler c
  loads : ∀ j, j.Writable → env.loads (w.dumps j) = some j

end JP
