import Verif.SampleProgram
import Verif.GraphSpec
import Verif.LoadClass
/-!
# Instances of the properties, evaluated

Each entry of `checks` is an instance of the property with that number, for a concrete input that meets the hypotheses of its
theorems, as a computation on the model.  They say nothing that the theorems do not say; they serve to find out which properties
an edit of the model makes false (see `seeded/LOG.jsonl`), independently of how they are proved.  Only the model and `GraphSpec` are imported.
-/
namespace JP.Checks
open JP Sample

/-! ### comparing graphs -/

/-- what is to be compared of an object: names and numbers, and values -/
structure Shape where
  tags : List Str
  vals : List Val

def opTags : Op → List Str
  | .setstate _ => [p!"setstate"]
  | .setDict _ => [p!"setDict"]
  | .setattr k _ => [p!"setattr", k]
  | .setter _ _ => [p!"setter"]
  | .extend xs => p!"extend" :: xs.map (fun _ => p!"x")
  | .append _ => [p!"append"]
  | .setitem _ _ => [p!"setitem"]

def opVals : Op → List Val
  | .setstate v | .setDict v | .setattr _ v | .append v => [v]
  | .setter f v => [f, v]
  | .extend xs => xs
  | .setitem k v => [k, v]

/-- the steps that a reduce tuple in the six-element form asks for (the cases of `Steps`) -/
def stepsOf (h : Heap) (c : ClassInfo) (vals : List Val) : List Op :=
  match vals with
  | [_, _, st, ls, ds, g] =>
    (if truthy h st then
      match g with
      | .none => if c.hasSetstate then [.setstate st] else if c.hasDict then [.setDict st]
        else match st with
          | .ref d => match h[d]? with
            | some (.dict kvs) => kvs.map (fun kv => match kv.1 with | .str s => .setattr s kv.2 | _ => .setattr [] kv.2)
            | _ => []
          | _ => []
      | _ => [.setter g st]
    else []) ++
    (match ls with
      | .tuple _ xs => if xs.isEmpty then [] else if c.canExtend then [.extend xs] else xs.map .append
      | _ => []) ++
    (match ds with
      | .tuple _ ps => ps.map (fun p => match p with | .tuple _ [k, v] => .setitem k v | _ => .setitem .none .none)
      | _ => [])
  | _ => []

def recipeShape (vals : List Val) (ops : List Op) : Shape :=
  ⟨p!"reduced" :: ops.flatMap opTags, vals ++ ops.flatMap opVals⟩

def fieldsShape (h : Heap) (order : List (Val × Val) → List (Val × Val)) (i : Inst) : Shape :=
  let as := order (instAttrs h i)
  let items := order i.items
  ⟨[p!"fields", i.cls, [as.length], [items.length], [i.elems.length]],
    as.map (·.1) ++ as.map (·.2) ++ items.map (·.1) ++ items.map (·.2) ++ i.elems ++ [i.factory.getD .none]⟩

/-- what has to be found again -/
def source (p : Program) (order : List (Val × Val) → List (Val × Val)) (h : Heap) : Obj → Shape
  | .list xs => ⟨[p!"list"], xs⟩
  | .dict kvs => ⟨[p!"dict"], (order kvs).map (·.1) ++ (order kvs).map (·.2)⟩
  | .inst i =>
    if dhas i.cls p.handlers then ⟨p!"handled" :: i.cls :: i.hfields.map (·.1), i.hfields.map (·.2)⟩
    else match i.info.reduces, i.reduce with
      | true, .tup xs => recipeShape (recipe p!"py/newobj" xs) (stepsOf h i.info (recipe p!"py/newobj" xs))
      | _, _ => match savedState h i with
        | some st => if i.info.hasSetstate then ⟨[p!"state", i.cls], [st]⟩
          else fieldsShape h order { cls := i.cls, attrs := (savedAttrs h i).map (fun kv => match kv.1 with | .str s => (s, kv.2) | _ => ([], kv.2)) }
        | none => fieldsShape h order i
  | _ => ⟨[p!"proxy"], []⟩

/-- what is found -/
def target (h : Heap) : Obj → Shape
  | .list xs => ⟨[p!"list"], xs⟩
  | .dict kvs => ⟨[p!"dict"], kvs.map (·.1) ++ kvs.map (·.2)⟩
  | .inst i =>
    match i.reduce with
    | .tup vals => recipeShape vals i.ops
    | _ => if i.hfields.isEmpty then
        (match i.state with
        | .ok .none => fieldsShape h id i
        | .ok st => ⟨[p!"state", i.cls], [st]⟩
        | .error _ => ⟨[p!"error"], []⟩)
      else ⟨p!"handled" :: i.cls :: i.hfields.map (·.1), i.hfields.map (·.2)⟩
  | _ => ⟨[p!"placeholder"], []⟩

/-- the pairs of parts of two values, if they are of the same kind -/
def pairs : Val → Val → Option (List (Val × Val))
  | .tuple _ xs, .tuple _ ys => if xs.length == ys.length then some (xs.zip ys) else none
  | .set _ xs, .set _ ys => if xs.length == ys.length then some (xs.zip ys) else none
  | .bytes _ a, .bytes _ b => if a == b then some [] else none
  | .bytearray _ a, .bytearray _ b => if a == b then some [] else none
  | a, b => if a = b then some [] else none

/-- the two graphs are isomorphic -/
def iso (src tgt : Obj → Shape) (h h' : Heap) : Nat → List (Val × Val) → List (Addr × Addr) → Bool
  | 0, _, _ => false
  | _, [], _ => true
  | n + 1, (.ref a, .ref b) :: r, R =>
    if R.contains (a, b) then iso src tgt h h' n r R
    else if R.any (fun p => p.1 == a || p.2 == b) then false
    else match h[a]?, h'[b]? with
      | some o, some o' =>
        let s := src o
        let t := tgt o'
        s.tags == t.tags && s.vals.length == t.vals.length && iso src tgt h h' n (s.vals.zip t.vals ++ r) ((a, b) :: R)
      | _, _ => false
  | n + 1, (x, y) :: r, R => match pairs x y with
    | some l => iso src tgt h h' n (l ++ r) R
    | none => false

/-- `decode(encode(v))` is isomorphic to `v` -/
def tripIso (p : Program) (h : Heap) (cfg : PCfg) (v : Val := .ref 0) : Bool :=
  match p.trip h cfg 60 v with
  | some (x, h') => iso (source p (writeOrder cfg.keys) h) (target h') h h' 1000 [(v, x)] []
  | none => false

/-! ### graphs -/

def prog2 : Program where
  infos := [(p!"m.A", {}), (p!"m.S", infoS), (p!"m.P", { shortName := p!"P", hasDict := false, hasSlots := true, slots := [p!"__u", p!"v"] }),
    (p!"m.I", { hasInitargs := true }), (p!"m.X", { hasNewargsEx := true }), (p!"m.Dd", { base := .dict }), (p!"m.T", { base := .set }),
    (p!"m.N", { reduces := true }), (p!"m.E", { reduces := true, hasExtend := true }), (p!"m.Sl", { reduces := true, hasDict := false, slots := [p!"a"] }),
    (p!"m.G", { ownGetstate := true, hasSetstate := true })]
  funcs := [p!"copyreg.__newobj__", p!"m.f", p!"m.set"]

/-- shared sets, slots with a private name, a defaultdict with an entry of that name, and objects with reduce tuples of all forms -/
def graph2 : Heap := [
  .list [.set 1 [.int 2], .set 1 [.int 2], .ref 1, .ref 2, .ref 3, .ref 4, .ref 5, .ref 6, .ref 7, .ref 8, .ref 10, .ref 12, .bytes 20 [0, 255, 7]],
  .inst { cls := p!"m.P", info := { shortName := p!"P", hasDict := false, hasSlots := true, slots := [p!"__u", p!"v"] }, attrs := [(p!"_P__u", .ref 0), (p!"v", .int 1)] },
  .inst { cls := p!"m.I", info := { hasInitargs := true }, initargs := .tuple 2 [.int 1, .str p!"x"], attrs := [(p!"a", .ref 2)] },
  .inst { cls := p!"m.Dd", info := { base := .dict }, items := [(.str p!"default_factory", .int 9), (.str p!"k", .ref 3)], factory := some (.type p!"m.A") },
  .inst { cls := p!"m.A", attrs := [(p!"x", .int 1), (p!"y", .ref 0), (p!"e", .ref 9)] },
  .dict [],
  .inst { cls := p!"m.N", info := { reduces := true }, reduce := .tup [.func p!"copyreg.__newobj__", .tuple 3 [.type p!"m.N", .int 4], .ref 9] },
  .inst { cls := p!"m.E", info := { reduces := true, hasExtend := true }, reduce := .tup [.type p!"m.E", .tuple 4 [], .none, .tuple 5 [.ref 5, .int 3]] },
  .inst { cls := p!"m.Sl", info := { reduces := true, hasDict := false, slots := [p!"a"] }, reduce := .tup [.type p!"m.Sl", .tuple 6 [], .ref 11, .none, .none, .none] },
  .dict [(.str p!"a", .int 1)],
  .inst { cls := p!"m.N", info := { reduces := true }, reduce := .tup [.type p!"m.N", .tuple 7 [], .ref 9, .none, .none, .func p!"m.set"] },
  .dict [(.str p!"a", .ref 5)],
  .inst { cls := p!"m.G", info := { ownGetstate := true, hasSetstate := true }, state := .ok (.int 0), attrs := [] }]

/-! ### documents -/

mutual
/-- some object of the document has one of these keys -/
def hasKey (f : Str → Bool) : Json → Bool
  | .arr xs => hasKeyL f xs
  | .obj kvs => hasKeyKv f kvs
  | _ => false
def hasKeyL (f : Str → Bool) : List Json → Bool
  | [] => false
  | x :: xs => hasKey f x || hasKeyL f xs
def hasKeyKv (f : Str → Bool) : List (Str × Json) → Bool
  | [] => false
  | (k, x) :: xs => f k || hasKey f x || hasKeyKv f xs
end

mutual
/-- the levels of a document -/
def height : Json → Nat
  | .arr xs => heightL xs + 1
  | .obj kvs => heightKv kvs + 1
  | _ => 0
def heightL : List Json → Nat
  | [] => 0
  | x :: xs => max (height x) (heightL xs)
def heightKv : List (Str × Json) → Nat
  | [] => 0
  | (_, x) :: xs => max (height x) (heightKv xs)
end

def flat (p : Program) (h : Heap) (cfg : PCfg) (v : Val := .ref 0) : Option Json :=
  match Pickler.flattenTop (p.world h) cfg 60 v true {} with
  | some (.ok j, _) => some j
  | _ => none

def raises (p : Program) (h : Heap) (cfg : PCfg) (v : Val := .ref 0) : Option Exc :=
  match Pickler.flattenTop (p.world h) cfg 60 v true {} with
  | some (.error e, _) => some e
  | _ => none

/-- what decoding a document gives, and the log -/
def decoded (env : UEnv) (j : Json) : Option (Except Exc Val × UState) := Unpickler.restoreTop env 60 j true {}

def isOk {α ε : Type} : Except α ε → Bool
  | .ok _ => true
  | .error _ => false

def plainDoc : Json := .obj [(p!"a", .arr [.null, .bool true, .int (-7), .float 3, .str p!"x", .obj []]), (p!"json", .obj [(p!"b", .arr [])])]
def plainGraph : Heap := [
  .dict [(.str p!"a", .ref 1), (.str p!"json", .ref 3)], .list [.none, .bool true, .int (-7), .float 3, .str p!"x", .ref 2], .dict [],
  .dict [(.str p!"b", .ref 4)], .list []]

def anyTag (s : Str) : Bool := startsWith s p!"py/"
def isId (s : Str) : Bool := s == p!"py/id"

/-- a chain of lists of that length -/
def chain (n : Nat) : Heap := (List.range n).map (fun k => .list [.ref (k + 1)]) ++ [.list []]

def failing : Heap := [.list [.ref 1, .int 5], .inst { cls := p!"m.G", info := infoG, state := .error .valueError }]
def interrupted : Heap := [.list [.ref 1, .int 5], .inst { cls := p!"m.G", info := infoG, state := .error .keyboardInterrupt }]
def safe : PCfg := { failSafe := some (fun _ => .ok (.str p!"failed")) }
def iter : Heap := [.list [.ref 1], .inst { cls := p!"m.It", info := { isIterator := true }, elems := [.int 1, .int 2, .int 3] }]

/-- the same result and no objects left, whatever the state -/
def reusable (h : Heap) : Bool :=
  let used : PState := { depth := 3, objs := [.addr 0], seen := [.int 1], flattened := [] }
  match Pickler.flattenTop (program.world h) {} 60 (.ref 0) true {}, Pickler.flattenTop (program.world h) {} 60 (.ref 0) true used with
  | some (.ok j, s), some (.ok j', s') => j == j' && s.objs.isEmpty && s'.objs.isEmpty && s.seen.isEmpty && s.depth == -1
  | _, _ => false

def uReusable (env : UEnv) (j : Json) : Bool :=
  let used : UState := { objs := [.int 1, .int 2], idx := [(.addr 3, 0)], proxies := [(0, .idx 0, 0)] }
  match Unpickler.restoreTop env 60 j true {}, Unpickler.restoreTop env 60 j true used with
  | some (.ok x, s), some (.ok x', s') => x == x' && s.heap.length == s'.heap.length
  | some (.error e, _), some (.error e', _) => e == e'
  | _, _ => false

def listOf (r : Option (Except Exc Val × UState)) : Option (List Val) := match r with
  | some (.ok (.ref a), s) => match s.heap[a]? with
    | some (.list xs) => some xs
    | _ => none
  | _ => none

/-- the elements of the decoded list: placeholders are `some none` -/
def resolved (j : Json) : Bool := match decoded program.env j with
  | some (.ok (.ref a), s) => match s.heap[a]? with
    | some (.list xs) => xs.all (fun x => match x with
      | .ref b => match s.heap[b]? with
        | some (.proxy _) | some (.idproxy _) => false
        | _ => true
      | _ => true)
    | _ => false
  | _ => false

def isEval : Event → Bool
  | .eval _ => true
  | _ => false

/-- the references of a document are smaller than the number of objects -/
def maxId : Json → Option Int
  | j => (go j).foldl (fun a b => match a with | none => some b | some a => some (max a b)) none
where
  go : Json → List Int
    | .arr xs => goL xs
    | .obj kvs => goKv kvs
    | _ => []
  goL : List Json → List Int
    | [] => []
    | x :: xs => go x ++ goL xs
  goKv : List (Str × Json) → List Int
    | [] => []
    | (k, .int n) :: xs => (if k == p!"py/id" then [n] else []) ++ goKv xs
    | (_, x) :: xs => go x ++ goKv xs

/-- instances and containers with cycles, without bytes, classes or constructor arguments -/
def cyclic : Heap := [
  .list [.ref 1, .ref 1, .ref 2, .ref 3, .ref 4],
  .inst { cls := p!"m.C", attrs := [(p!"x", .ref 0), (p!"me", .ref 1)] },
  .dict [(.str p!"a", .ref 1), (.str p!"b", .ref 2)],
  .inst { cls := p!"m.L", info := infoL, elems := [.int 1, .ref 3], attrs := [(p!"y", .ref 2)] },
  .inst { cls := p!"m.D", info := infoD, items := [(.str p!"k", .ref 4)], attrs := [(p!"z", .ref 1)] }]

/-- no list or dict contains itself -/
def instCycles : Heap := [
  .list [.ref 1, .ref 1, .ref 2, .ref 3],
  .inst { cls := p!"m.C", attrs := [(p!"x", .ref 2), (p!"me", .ref 1)] },
  .inst { cls := p!"m.G", info := infoG, state := .ok (.tuple 9 [.ref 1]) },
  .inst { cls := p!"m.L", info := infoL, elems := [.int 1, .ref 1], attrs := [(p!"y", .ref 1)] }]

def excluding : Heap := [
  .inst { cls := p!"m.C", attrs := [(p!"x", .int 1), (p!"secret", .int 2)], exclude := [p!"secret"] }]

def badName : UEnv := { program.env with onMissing := .error }

def missingDocs : List Json := [
  .obj [(p!"py/object", .str p!"no.Such"), (p!"x", .int 1)],
  .arr [.int 1, .obj [(p!"py/object", .str p!"no.Such"), (p!"py/state", .int 1)]],
  .obj [(p!"a", .obj [(p!"py/reduce", .arr [.obj [(p!"py/object", .str p!"no.Such")], .obj [(p!"py/tuple", .arr [])]])])]]

def malformed : List Json :=
  [p!"py/tuple", p!"py/set", p!"py/id", p!"py/iterator", p!"py/b64", p!"py/b85"].flatMap (fun t =>
    [.null, .bool true, .int 99, .int (-99), .float 1, .str p!"\xff", .str [0xd800], .arr [.arr [], .obj []], .obj [(p!"a", .null)]].map (fun x => .arr [.obj [(t, x)]]))

def firstKeys (r : Option (Except Exc Val × UState)) : Option (List Val) := match r with
  | some (.ok (.ref a), s) => match s.heap[a]? with
    | some (.dict kvs) => some (kvs.map (·.1))
    | _ => none
  | _ => none

def shared : Heap := [.list [.ref 1, .ref 1, .ref 2, .ref 2], .list [], .inst { cls := p!"m.Color", info := { isEnum := true, hasDict := true }, attrs := [(p!"v", .int 1)] }]

/-- a state of which everything, or something, is excluded; and without the excluded entries -/
def exState (own : Bool) (x : Val) : Heap := [
  .list [.ref 1, .ref 3],
  .inst { cls := p!"m.C", info := { ownGetstate := own }, attrs := [(p!"b", .int 3)], state := .ok (.ref 2), exclude := [p!"a"] },
  .dict [(.str p!"a", x)],
  .inst { cls := p!"m.C", attrs := [(p!"a", x), (p!"b", .int 4)], exclude := [p!"a"] }]

/-- a string reduce value for the object in cell 2, and a slots object that has it as an attribute; its `__getstate__` raises -/
def deepError (e : Exc) : Heap := [
  .inst { cls := p!"m.A", info := { reduces := true, hasDict := false }, reduce := .str (some (.ref 2)) },
  .inst { cls := p!"m.S", info := { hasDict := false, hasSlots := true, slots := [p!"x", p!"y"] }, attrs := [(p!"x", .ref 2), (p!"y", .int 1)] },
  .inst { cls := p!"m.B", info := { ownGetstate := true }, state := .error e }]

def rich (hx : Int) (st : Val) (na : Val) : Heap := [
  .list [.ref 1, .ref 2, .ref 3],
  .inst { cls := p!"m.H", info := { ownGetstate := true, reduces := true }, hfields := [(p!"h", .int 1)], reduce := .tup [.int hx], state := .ok st },
  .inst { cls := p!"m.N", info := { hasNewargs := true, hasNewargsEx := true, ownGetstate := true }, newargsEx := (.tuple 0 [], .ref 4), newargs := na, state := .ok (.int 5), attrs := [(p!"a", .int hx)] },
  .inst { cls := p!"m.R", info := { reduces := true, ownGetstate := true, hasSetstate := true }, reduce := .tup [.func p!"m.f", .tuple 1 []], state := .ok st },
  .dict []]

def prog3 : Program := { program with handlers := [(p!"m.H", .record)] }

def textKeys : World := { program.world [.dict [(.int 1, .str p!"a"), (.none, .int 2), (.str p!"1", .int 3), (.int 2, .int 4)]] with
  repr := fun v => match v with | .int 1 => .ok p!"1" | _ => .error .valueError
  pystr := fun _ => .ok p!"two" }

/-- property, instance, result -/
def checks : List (String × String × Bool) := [
  ("C01", "sample graph", tripIso program graph {}),
  ("C01", "sample graph, keys", tripIso program graph { keys := true }),
  ("C01", "sample graph, base85", tripIso program graph { useBase85 := true }),
  ("C01", "second graph", tripIso prog2 graph2 {}),
  ("C01", "second graph, keys", tripIso prog2 graph2 { keys := true }),
  ("C01", "cycles", tripIso program cyclic {}),
  ("C02", "keys of all kinds", tripIso program keyed { keys := true }),
  ("C03", "colliding keys", tripIso program colliding { keys := true }),
  ("C04", "unpicklable=False", (flat program instCycles { unpicklable := false }).isSome),
  ("C04", "make_refs=False", (flat program cyclic { makeRefs := false }).isSome),
  ("C04", "max_depth", (flat program cyclic { unpicklable := false, maxDepth := some 3 }).isSome),
  ("C05", "references in range", ((flat program cyclic {}).bind maxId).any (fun n => 0 ≤ n && n < 6)),
  ("C06", "encode", flat program plainGraph {} == some plainDoc && flat program plainGraph { keys := true } == some plainDoc
    && flat program plainGraph { unpicklable := false } == some plainDoc),
  ("C06", "decode", tripIso program plainGraph {}),
  ("C06", "json:// is an ordinary key", tripIso program [.dict [(.str p!"json://7", .int 2)]] {}),
  ("C07", "no tags", (flat program instCycles { unpicklable := false }).any (fun j => !hasKey anyTag j)),
  ("C08", "make_refs=False", (flat program cyclic { makeRefs := false }).any (fun j => !hasKey isId j)),
  ("C08", "unpicklable=False", (flat program instCycles { unpicklable := false }).any (fun j => !hasKey isId j)),
  ("C08", "unpicklable=False, shared", (flat program shared { unpicklable := false }).any (fun j => !hasKey isId j)),
  ("C08", "make_refs=False, shared", (flat program shared { makeRefs := false }).any (fun j => !hasKey isId j)),
  ("C09", "used Pickler", reusable graph),
  ("C10", "used Unpickler", uReusable program.env (.arr [.arr [], .obj [(p!"py/id", .int 1)]]) && uReusable program.env (.arr [.obj [(p!"py/id", .int 9)]])),
  ("C11", "base64", tripIso program [.list [.bytes 1 [0, 1, 254, 255, 65], .bytearray 2 [255]]] {}),
  ("C11", "base85", tripIso program [.list [.bytes 1 [0, 1, 254, 255, 65], .bytearray 2 [255]]] { useBase85 := true }),
  ("C13", "depth 0 to 3", (List.range 4).all (fun d => (flat program (chain 6) { maxDepth := some d }).any (fun j => height j == d))),
  ("C14", "ValueError absorbed", flat program failing safe == some (.arr [.str p!"failed", .int 5])),
  ("C14", "KeyboardInterrupt propagates", raises program interrupted safe == some .keyboardInterrupt),
  ("C15", "two items", flat program iter { maxIter := some 2 } == some (.arr [.obj [(p!"py/object", .str p!"m.It"), (p!"py/iterator", .arr [.int 1, .int 2])]])),
  ("C16", "no eval", (decoded program.env (.arr [.obj [(p!"py/repr", .str p!"m/m")]])).any (fun r => r.2.log.all (fun e => !isEval e))),
  ("C16", "eval with safe=False", (decoded { program.env with safe := false } (.arr [.obj [(p!"py/repr", .str p!"m/m")]])).any (fun r => r.2.log.any isEval)),
  ("C17", "reported", missingDocs.all (fun j => match decoded badName j with | some (.error .classNotFound, _) => true | _ => false)),
  ("C17", "callback", missingDocs.all (fun j => match decoded { program.env with onMissing := .callback } j with
    | some (_, s) => s.log.contains (.missing p!"no.Such")
    | _ => false)),
  ("C24", "excluded", (flat program excluding {}).any (fun j => !hasKey (· == p!"secret") j && hasKey (· == p!"x") j)),
  ("C25", "dict with a reserved key", (flat program [.dict [(.str p!"py/object", .str p!"m.C")]] {}).any (fun j => !hasKey anyTag j)),
  ("C25", "attribute with a reserved name", (flat program [.inst { cls := p!"m.C", attrs := [(p!"py/state", .int 1)] }] {}).any (fun j => !hasKey (· == p!"py/state") j)),
  ("C28", "malformed payloads", malformed.all (fun j => (decoded program.env j).any (fun r => isOk r.1))),
  ("C31", "no arguments", flat program [.inst { cls := p!"m.N", info := { reduces := true }, reduce := .tup [.func p!"m.f", .none, .none] }] {} ==
    some (.obj [(p!"py/reduce", .arr [.obj [(p!"py/function", .str p!"m.f")], .null])])),
  ("C31", "refused arguments", [(Json.str p!"py/newobj", [Json.obj [(p!"py/type", .str p!"m.C")], .int 1]), (.obj [(p!"py/type", .str p!"m.C")], [.int 1]), (.obj [(p!"py/function", .str p!"m.f")], [.int 1])].all
    (fun t => [false, true].all (fun b => (decoded { program.env with classInfo := fun _ => { infoC with newAccepts := fun _ => b, callAccepts := fun _ => b } }
      (.obj [(p!"py/reduce", .arr [t.1, .obj [(p!"py/tuple", .arr t.2)]])])).any (fun r => isOk r.1 == b && (b || match r.1 with | .error .typeError => true | _ => false))))),
  ("C31", "newobj", tripIso prog2 graph2 {} (.ref 6)),
  ("C31", "trailing None", tripIso prog2 graph2 {} (.ref 8)),
  ("C31", "inner None", tripIso prog2 graph2 {} (.ref 7)),
  ("C32", "order of keys", firstKeys (decoded program.env (.obj [(p!"b", .int 1), (p!"a", .int 2), (p!"c", .int 3)])) ==
    some [.str p!"b", .str p!"a", .str p!"c"]),
  ("C36", "kept alive", match Pickler.flatten (program.world [.list [.ref 1], .list []]) {} 9 (.ref 0) { depth := 0 } with
    | some (_, s) => s.seen.contains (.ref 0) && s.seen.contains (.ref 1)
    | _ => false),
  ("C38", "forward references", resolved (.arr [.obj [(p!"py/id", .int 1)], .arr [], .obj [(p!"py/id", .int 2)], .arr []]) &&
    listOf (decoded program.env (.arr [.obj [(p!"py/id", .int 2)], .arr [], .arr []])) == some [.ref 3, .ref 2, .ref 3]),
  ("C38", "never appears", listOf (decoded program.env (.arr [.obj [(p!"py/id", .int 7)], .int 1])) == some [.none, .int 1]),
  ("C38", "no placeholder as __dict__", (decoded prog2.env (.arr [.obj [(p!"py/object", .str p!"m.Dd"), (p!"__dict__", .obj [(p!"py/id", .int 2)])], .arr []])).any
    (fun r => isOk r.1 && r.2.heap.all (fun o => match o with | .inst i => i.items.isEmpty && i.attrs.isEmpty | _ => true))),
  ("C40", "keyword arguments", [(Json.obj [], false), (.arr [], true), (.obj [(p!"json://1", .int 1)], true), (.obj [(p!"a", .int 1)], false)].all (fun t =>
    (decoded { prog2.env with keys := true } (.arr [.obj [(p!"py/object", .str p!"m.X"), (p!"py/newargsex", .arr [.arr [.int 1], t.1])]])).any
      (fun r => isOk r.1 && r.2.heap.all (fun o => match o with | .inst i => i.viaCall == t.2 | _ => true)))),
  ("C40", "state", tripIso program graph {} (.ref 4)),
  ("C40", "state becomes attributes", tripIso program graph {} (.ref 12)),
  ("C45", "second graph", tripIso prog2 graph2 {} (.ref 10)),
  ("C47", "ValueError raised", raises program (deepError .valueError) {} == some .valueError && raises program (deepError .valueError) {} (.ref 1) == some .valueError),
  ("C47", "three exceptions", flat program (deepError .typeError) {} (.ref 2) == some .null &&
    flat program (deepError .keyError) {} == some (.obj [(p!"py/object", .str p!"m.A")]) &&
    flat program (deepError .attributeError) {} (.ref 1) == some (.obj [(p!"py/object", .str p!"m.S"), (p!"y", .int 1)])),
  ("C48", "no influence", flat program (exState true (.int 1)) {} == flat program (exState true (.str p!"x")) {} && (flat program (exState true (.int 1)) {}).isSome),
  ("C48", "empty state", flat program (exState true (.int 1)) {} == flat program (exState false (.int 1)) {}),
  ("C49", "no influence", flat prog3 (rich 1 (.int 1) (.tuple 2 [])) {} == flat prog3 (rich 2 (.str p!"x") (.tuple 2 [.int 1])) {} &&
    (flat prog3 (rich 1 (.int 1) (.tuple 2 [])) {}).isSome),
  ("C50", "text of keys", (match Pickler.flattenTop textKeys {} 9 (.ref 0) true {} with
    | some (.ok j, _) => j == .obj [(p!"1", .int 3), (p!"null", .int 2), (p!"two", .int 4)]
    | _ => false))]

theorem all_hold : checks.all (fun c => c.2.2) = true := by decide +kernel

end JP.Checks
