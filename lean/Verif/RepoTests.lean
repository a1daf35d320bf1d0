import Verif.SampleProgram
import Verif.LoadClass
import Verif.Properties
import Verif.Registry
import Verif.Dispatch
/-!
# The repository's own tests, evaluated on the model

`/repo/tests` states what jsonpickle is expected to do on particular inputs.  Each entry of `tests` is one of these tests, with
the name that it has there: the objects are written down as a heap of the model, the calls are those of the test, and the entry is
the conjunction of what the test asserts.  `all_pass` says that the model gives what the tests expect.  They were read, not run:
this is evidence that the model describes the code, independent of the properties.  Left out are tests of what is outside the model
(see `DESIGN.md`), and tests that use random data.
-/
namespace JP.RepoTests
open JP Sample

/-! ### the test modules -/

/-- the classes of `jsonpickle_test.py`, `object_test.py` and `collections_test.py` that are used below, and some builtin ones -/
def tp : Program where
  infos := [
    (p!"builtins.object", {}), (p!"builtins.int", {}), (p!"builtins.list", {}), (p!"builtins.NoneType", {}),
    (p!"jsonpickle_test.Thing", {}), (p!"jsonpickle_test.Capture", {}),
    (p!"jsonpickle_test.ThingWithProps", { ownGetstate := true, hasSetstate := true }),
    (p!"jsonpickle_test.UserDict", { base := .dict }),
    (p!"jsonpickle_test.Outer.Middle", {}), (p!"jsonpickle_test.Outer.Middle.Inner", {}),
    (p!"jsonpickle_test.MySlots", { shortName := p!"MySlots", hasDict := false, hasSlots := true, slots := [p!"alpha", p!"__beta"] }),
    (p!"jsonpickle_test.ListLike", { hasAppend := true }),
    (p!"jsonpickle_test.PickleProtocol2Thing", { hasNewargs := true }),
    (p!"jsonpickle_test.PickleProtocol2ChildThing", { hasNewargs := true }),
    (p!"jsonpickle_test.PickleProtocol2GetState", { hasNewargs := true, ownGetstate := true }),
    (p!"jsonpickle_test.PickleProtocol2GetSetState", { hasNewargs := true, ownGetstate := true, hasSetstate := true }),
    (p!"jsonpickle_test.PickleProtocol2ReduceTuple", { reduces := true }),
    (p!"jsonpickle_test.PickleProtocol2ReduceTupleSetState", { reduces := true, hasSetstate := true }),
    (p!"jsonpickle_test.PickleProtocol2ReduceTupleFunc", { reduces := true }),
    (p!"jsonpickle_test.PickleProtocol2ReduceNewobj", { reduces := true }),
    (p!"jsonpickle_test.PickleProtocol2ReduceListitemsAppend", { reduces := true, hasAppend := true }),
    (p!"jsonpickle_test.PickleProtocol2ReduceDictitems", { reduces := true, hasSetitem := true }),
    (p!"jsonpickle_test.Protocol5StateSetter", { reduces := true }),
    (p!"object_test.ListSubclass", { base := .list }), (p!"object_test.SetSubclass", { base := .set }),
    (p!"object_test.DictSubclass", { base := .dict }),
    (p!"object_test.GetstateDict", { base := .dict, ownGetstate := true, hasSetstate := true }),
    (p!"object_test.GetstateReturnsList", { ownGetstate := true, hasSetstate := true }),
    (p!"object_test.GetstateOnly", { ownGetstate := true }), (p!"object_test.BadClass", { ownGetstate := true }),
    (p!"object_test.ThingWithSlots", { hasDict := false, hasSlots := true, slots := [p!"a", p!"b"] }),
    (p!"object_test.ThingWithInheritedSlots", { hasDict := false, hasSlots := true, slots := [p!"c", p!"a", p!"b"] }),
    (p!"object_test.SlotsThing", { hasDict := false, hasSlots := true, slots := [p!"foo", p!"secret"] }),
    (p!"object_test.SlotsGetstateThing", { hasDict := false, hasSlots := true, slots := [p!"foo", p!"secret"], ownGetstate := true }),
    (p!"object_test.ThingWithExclusion", {}), (p!"object_test.ThingWithExcludeSubclass", {}),
    (p!"object_test.ThingWithFunctionRefs", {}), (p!"object_test.IntKeysObject", { ownGetstate := true }),
    (p!"object_test.IntEnumTest", { isEnum := true, reduces := true }),
    (p!"object_test.ThingWithSelfAsDefaultFactory", { base := .dict }),
    (p!"object_test.NamedTuple", { base := .tuple, hasDict := false, hasNewargs := true, numFields := some 3 }),
    (p!"collections.defaultdict", { base := .dict }),
    (p!"collections_test.Group", {}), (p!"collections_test.C", {}), (p!"collections_test.D", {}),
    (p!"handler_test.CustomObject", {})]
  made := [(p!"jsonpickle_test.protocol_2_reduce_tuple_func", {})]
  funcs := [p!"jsonpickle_test.protocol_2_reduce_tuple_func", p!"jsonpickle_test.__newobj__", p!"jsonpickle_test.protocol_5_state_setter",
    p!"object_test.func", p!"builtins.dir"]
  handlers := [(p!"handler_test.CustomObject", .record)]

/-- `Thing(name)` with further attributes -/
def thing (name : Str) (child : Val := .none) (more : List (Str × Val) := []) : JP.Obj :=
  .inst { cls := p!"jsonpickle_test.Thing", attrs := [(p!"name", .str name), (p!"child", child)] ++ more }

/-- an instance of a class of the test modules -/
def mk (cls : Str) (f : Inst → Inst := id) : JP.Obj := .inst (f { cls := cls, info := (dget cls tp.infos).getD {} })

/-- `", ".join(texts)` -/
def commas : List Str → Str
  | [] => []
  | [x] => x
  | x :: y :: r => x ++ p!", " ++ commas (y :: r)

/-- `repr(v)`, for the objects of the tests; of a list that contains itself only the beginning is right -/
def repr (h : Heap) : Nat → Val → Str
  | 0, _ => p!"..."
  | n + 1, v => match v with
    | .none => p!"None"
    | .bool b => if b then p!"True" else p!"False"
    | .int i => JsonText.intText i
    | .str s => 39 :: s ++ [39]
    | .tuple _ [x] => p!"(" ++ repr h n x ++ p!",)"
    | .tuple _ xs => p!"(" ++ commas (xs.map (repr h n)) ++ p!")"
    | .ref a => match h[a]? with
      | some (.list xs) => p!"[" ++ commas (xs.map (repr h n)) ++ p!"]"
      | some (.inst i) => match dget p!"name" i.attrs with
        | some (.str s) => p!"Thing(\"" ++ s ++ p!"\")"
        | _ => p!"<object>"
      | _ => p!"{}"
    | _ => p!"<object>"

def world (h : Heap) : World := { tp.world h with repr := fun v => .ok (repr h 4 v) }

/-! ### calls and observations -/

/-- `Pickler(…).flatten(v)` -/
def flat (h : Heap) (v : Val := .ref 0) (cfg : PCfg := {}) : Option Json :=
  match Pickler.flattenTop (world h) cfg 60 v true {} with
  | some (.ok j, _) => some j
  | _ => none

/-- a Python object: a value and the heap -/
abbrev Py := Val × Heap

/-- `Unpickler(…).restore(j)` -/
def restored (j : Json) (env : UEnv := tp.env) : Option Py :=
  match Unpickler.restoreTop env 60 j true {} with
  | some (.ok x, u) => some (x, u.heap)
  | _ => none

/-- `unpickler.restore(pickler.flatten(v))` -/
def cycle (h : Heap) (v : Val := .ref 0) (cfg : PCfg := {}) : Option Py :=
  (flat h v cfg).bind (fun j => restored j (tp.env cfg.keys))

/-- `decode(encode(v, …), …)` -/
def trip (h : Heap) (v : Val := .ref 0) (cfg : PCfg := {}) : Option Py :=
  match Api.encode (world h) cfg 60 v true {} with
  | some (.ok text, _) => match Api.decode (tp.env cfg.keys) 60 text true true {} with
    | some (.ok x, u) => some (x, u.heap)
    | _ => none
  | _ => none

/-- `x.name`, `x[n]`, `x[key]`, and the key of that number -/
inductive Acc
  | a (name : Str)
  | i (n : Nat)
  | k (key : Val)
  | key (n : Nat)

def vget (k : Val) : List (Val × Val) → Option Val
  | [] => none
  | (k', v) :: r => if pyEq k' k then some v else vget k r

def acc1 (h : Heap) : Val → Acc → Option Val
  | .tuple _ xs, .i n => xs[n]?
  | .ref a, s => match h[a]?, s with
    | some (.list xs), .i n => xs[n]?
    | some (.dict kvs), .k k => vget k kvs
    | some (.dict kvs), .key n => (kvs[n]?).map (·.1)
    | some (.inst i), .a n => match i.dictCell with
      | none => dget n i.attrs
      | some d => match h[d]? with
        | some (.dict kvs) => vget (.str n) kvs
        | _ => none
    | some (.inst i), .i n => i.elems[n]?
    | some (.inst i), .k k => vget k i.items
    | _, _ => none
  | _, _ => none

/-- `x.a[1]…` -/
def at_ (o : Option Py) (p : List Acc) : Option Val :=
  o.bind (fun x => p.foldl (fun v s => v.bind (fun v => acc1 x.2 v s)) (some x.1))

/-- the objects at these two places are the same object of the heap -/
def is_ (o : Option Py) (p q : List Acc) : Bool :=
  match at_ o p, at_ o q with
  | some (.ref a), some (.ref b) => a == b
  | _, _ => false

/-- `type(x) is cls` -/
def type_ (o : Option Py) (p : List Acc) (cls : Str) : Bool :=
  match o, at_ o p with
  | some x, some (.ref a) => match x.2[a]? with
    | some (.inst i) => i.cls == cls
    | _ => false
  | _, _ => false

def inst (o : Option Py) (p : List Acc := []) : Option Inst :=
  match o, at_ o p with
  | some x, some (.ref a) => match x.2[a]? with
    | some (.inst i) => some i
    | _ => none
  | _, _ => none

/-- the JSON document of a plain value: lists, dicts with string keys and scalars -/
def plain (h : Heap) : Nat → Val → Json
  | 0, _ => .null
  | n + 1, v => match v with
    | .bool b => .bool b
    | .int i => .int i
    | .float f => .float f
    | .str s => .str s
    | .ref a => match h[a]? with
      | some (.list xs) => .arr (xs.map (plain h n))
      | some (.dict kvs) => .obj (kvs.map (fun kv => ((match kv.1 with | .str s => s | _ => p!"?"), plain h n kv.2)))
      | _ => .null
    | _ => .null

/-- `x == j`, for a plain value -/
def eq_ (o : Option Py) (j : Json) (p : List Acc := []) : Bool :=
  match o, at_ o p with
  | some x, some v => plain x.2 9 v == j
  | _, _ => false

def entry (j : Option Json) (k : Str) : Option Json :=
  match j with
  | some (.obj kvs) => dget k kvs
  | _ => none

def keysOf (j : Option Json) : List Str :=
  match j with
  | some (.obj kvs) => kvs.map (·.1)
  | _ => []

/-- the elements of a restored set, frozenset or tuple -/
def elems (o : Option Py) (p : List Acc := []) : Option (List Val) :=
  match at_ o p with
  | some (.set _ xs) | some (.tuple _ xs) => some xs
  | some (.ref a) => match o with
    | some x => match x.2[a]? with
      | some (.inst i) => some i.elems
      | some (.list xs) => some xs
      | _ => none
    | none => none
  | _ => none

def hasAttr (o : Option Py) (n : Str) (p : List Acc := []) : Bool := (at_ o (p ++ [.a n])).isSome

/-- the bytes of a restored object -/
def bytesOf (o : Option Py) : Option Bytes :=
  match o with
  | some (.bytes _ b, _) => some b
  | _ => none
def bytearrayOf (o : Option Py) (p : List Acc := []) : Option Bytes :=
  match at_ o p with
  | some (.bytearray _ b) => some b
  | _ => none

/-- the first two values of the recipe that an object was made from, and what was done to it -/
def recipe (o : Option Py) : Option (Val × List Val × List Op) :=
  match inst o with
  | some i => match i.reduce with
    | .tup (f :: .tuple _ args :: _) => some (f, args, i.ops)
    | _ => none
  | none => none

/-- `obj.__reduce__()` of the classes of the tests -/
def reducer (cls : Str) (vals : List Val) (more : List JP.Obj := []) : Heap :=
  [.inst { cls := cls, info := (dget cls tp.infos).getD {}, reduce := .tup vals }] ++ more

def yam : List Val := [.str p!"yam", .int 1]
def foo : JP.Obj := .dict [(.str p!"foo", .int 1)]
def t (s : Str) : Val := .type (p!"jsonpickle_test." ++ s)
def fn (s : Str) : Val := .func (p!"jsonpickle_test." ++ s)

def setDict1 (o : Option Py) : List Op → Bool
  | [.setDict (.ref a)] => match o with
    | some x => plain x.2 9 (.ref a) == .obj [(p!"foo", .int 1)]
    | none => false
  | _ => false
def setstate1 (o : Option Py) : List Op → Bool
  | [.setstate (.ref a)] => match o with
    | some x => plain x.2 9 (.ref a) == .obj [(p!"foo", .int 1)]
    | none => false
  | _ => false

/-- "Pÿthöñ 3!".encode() -/
def python3 : Bytes := [80, 195, 191, 116, 104, 195, 182, 195, 177, 32, 51, 33]

def i3 : List Val := [.int 1, .int 2, .int 3]

/-! ### graphs -/

def recursive : Heap := [
  thing p!"parent" (.ref 1) [(p!"self", .ref 0)],
  thing p!"child" .none [(p!"sibling", .ref 2), (p!"twin", .ref 1), (p!"parent", .ref 0)],
  thing p!"sibling" .none [(p!"parent", .ref 0)]]

/-- `thing.a = thing.b = l` with `l = [1, l, [l]]` -/
def refToList : Heap := [thing p!"parent" .none [(p!"a", .ref 1), (p!"b", .ref 1)], .list [.int 1, .ref 1, .ref 2], .list [.ref 1]]

def refsRecursive : Heap := [
  thing p!"a" .none [(p!"self_list", .ref 1), (p!"first", .ref 2), (p!"stuff", .ref 5), (p!"morestuff", .ref 6)],
  .list [.ref 2, .ref 3, .ref 4], thing p!"0", thing p!"1", thing p!"2",
  .dict [(.ref 2, .ref 2)], .dict [(.ref 3, .ref 5)]]

def tuples : Heap := [.dict [(.tuple 1 [.int 1, .int 2], .int 3), (.tuple 2 [.int 4, .int 5], .ref 1)], .dict [(.tuple 3 [.int 7, .int 8], .int 9)]]

def capture (args : Val) (kw : Addr) : JP.Obj := mk p!"jsonpickle_test.Capture" (fun i => { i with attrs := [(p!"args", args), (p!"kwargs", .ref kw)] })
/-- `instance = Capture(child, child)`, `child.args = (instance,)` or `[instance]` -/
def cyclical (tup : Bool) : Heap := [
  capture (.tuple 1 [.ref 1, .ref 1]) 2, capture (if tup then .tuple 2 [.ref 0] else .ref 4) 3, .dict [], .dict [], .list [.ref 0]]

def protocol2 : Heap := [
  mk p!"jsonpickle_test.PickleProtocol2Thing" (fun i => { i with newargs := .tuple 1 [.ref 1, .ref 1], attrs := [(p!"args", .tuple 1 [.ref 1, .ref 1])] }),
  mk p!"jsonpickle_test.PickleProtocol2Thing" (fun i => { i with newargs := .tuple 2 [.none], attrs := [(p!"args", .tuple 2 [.none])] })]

/-- `instance = PickleProtocol2ChildThing([child, child])`, `child.child = instance`; cells 3 and 4 are made by `__getnewargs__` -/
def childThings : Heap := [
  mk p!"jsonpickle_test.PickleProtocol2ChildThing" (fun i => { i with newargs := .tuple 1 [.ref 3], attrs := [(p!"child", .ref 2)] }),
  mk p!"jsonpickle_test.PickleProtocol2ChildThing" (fun i => { i with newargs := .tuple 2 [.ref 4], attrs := [(p!"child", .ref 0)] }),
  .list [.ref 1, .ref 1], .list [.ref 2], .list [.ref 0]]

def repeated : Heap := [
  thing p!"car" .none [(p!"driver", .ref 1), (p!"owner", .ref 1), (p!"passengers", .ref 3)], thing p!"alice" (.ref 2), thing p!"bob", .list [.ref 1, .ref 2]]

/-- `obj = GetstateDict("test")` and `obj2 = GetstateDict(obj)`; the states are `(self.name, dict(self.items()))` -/
def getstateDicts : Heap := [
  mk p!"object_test.GetstateDict" (fun i => { i with items := [(.str p!"key1", .int 1), (.str p!"obj2", .ref 1)], state := .ok (.tuple 1 [.str p!"test", .ref 2]), attrs := [(p!"name", .str p!"test"), (p!"active", .bool false)] }),
  mk p!"object_test.GetstateDict" (fun i => { i with state := .ok (.tuple 2 [.ref 0, .ref 3]), attrs := [(p!"name", .ref 0), (p!"active", .bool false)] }),
  .dict [(.str p!"key1", .int 1), (.str p!"obj2", .ref 1)], .dict []]

def userDict : Heap := [
  mk p!"jsonpickle_test.UserDict" (fun i => { i with items := [(.str p!"d", .ref 1), (.str p!"s", .str p!"test")], attrs := [(p!"valid", .bool true), (p!"s", .str p!"string"), (p!"d", .str p!"d_string")] }),
  .dict []]

/-- `[d, d, d.__dict__]` -/
def userDictRefs : Heap := [
  .list [.ref 1, .ref 1, .ref 2],
  mk p!"jsonpickle_test.UserDict" (fun i => { i with items := [(.str p!"s", .str p!"test")], dictCell := some 2 }),
  .dict [(.str p!"valid", .bool false), (.str p!"s", .str p!"string")]]

/-- `sorted(tags.RESERVED)` (tags.py:36-58) -/
def reservedTags : List Str :=
  [p!"py/bytea", p!"py/bytes", p!"py/default_factory", p!"py/function", p!"py/id", p!"py/initargs", p!"py/iterator", p!"py/mod", p!"py/newargs",
    p!"py/newargsex", p!"py/newobj", p!"py/object", p!"py/property", p!"py/reduce", p!"py/ref", p!"py/repr", p!"py/seq", p!"py/set",
    p!"py/state", p!"py/tuple", p!"py/type"]

/-- the program `builtins`, `jsonpickle_test` with nested classes, for `loadclass` and `loadmodule`: object 1 is `builtins`, 2 `int`,
3 `AssertionError`, 4 `jsonpickle_test`, 5 `Outer`, 6 `Outer.Middle`, 7 `Outer.Middle.Inner` -/
def modules : LoadClass.Env where
  import_ m := if m = p!"builtins" then .ok 1 else if m = p!"jsonpickle_test" then .ok 4 else .error .importError
  importTop m := if m = p!"builtins" then .ok 1 else if m = p!"jsonpickle_test" then .ok 4 else .error .importError
  attr o n := match o, n with
    | 1, n => if n = p!"int" then .ok 2 else if n = p!"AssertionError" then .ok 3 else .error .attributeError
    | 4, n => if n = p!"Outer" then .ok 5 else .error .attributeError
    | 5, n => if n = p!"Middle" then .ok 6 else .error .attributeError
    | 6, n => if n = p!"Inner" then .ok 7 else .error .attributeError
    | _, _ => .error .attributeError
  noneType := 9

def loads (n : Str) (o : Option Nat) : Bool :=
  match LoadClass.loadclass modules n [] with
  | .ok r => r == o
  | .error _ => false

def loadsModule (n : Str) (o : Option Nat) : Bool :=
  match LoadClass.loadmodule modules n with
  | .ok r => r == o
  | .error _ => false

def missingCases : List Str :=
  [p!"MISSING.Outer.Middle.Inner", p!"jsonpickle_test.MISSING.Middle.Inner", p!"jsonpickle_test.Outer.MISSING.Inner", p!"jsonpickle_test.Outer.Middle.MISSING"]

/-- `g = Group("group")` with `elements = [c1, c2]`; `c.add(k, v)` puts `k ↦ (k, v)` into `c.plain` -/
def groupC (e1 e2 : List (Val × Val)) : Heap := [
  mk p!"collections_test.Group" (fun i => { i with attrs := [(p!"name", .str p!"group"), (p!"elements", .ref 1)] }), .list [.ref 2, .ref 3],
  mk p!"collections_test.C" (fun i => { i with attrs := [(p!"v", .int 42), (p!"plain", .ref 4)] }),
  mk p!"collections_test.C" (fun i => { i with attrs := [(p!"v", .int 67), (p!"plain", .ref 5)] }), .dict e1, .dict e2]

def groupD (e1 e2 : List Val) : Heap := [
  mk p!"collections_test.Group" (fun i => { i with attrs := [(p!"name", .str p!"group"), (p!"elements", .ref 1)] }), .list [.ref 2, .ref 3],
  mk p!"collections_test.D" (fun i => { i with attrs := [(p!"v", .int 42), (p!"plain", .set 1 e1)] }),
  mk p!"collections_test.D" (fun i => { i with attrs := [(p!"v", .int 67), (p!"plain", .set 2 e2)] })]

def c1 : List Acc := [.a p!"elements", .i 0]
def c2 : List Acc := [.a p!"elements", .i 1]

def gK (e1 e2 : List (Val × Val)) : Option Py := trip (groupC e1 e2) (cfg := { keys := true })
def gS (e1 e2 : List Val) : Option Py := trip (groupD e1 e2) (cfg := { keys := true })

/-- the objects in these two places are the same and in a set -/
def inSet (o : Option Py) (x s : List Acc) : Bool :=
  match at_ o x, elems o s with
  | some v, some l => l.any (fun y => pyEq y v)
  | _, _ => false

def intEnum (n : Int) : JP.Obj := mk p!"object_test.IntEnumTest" (fun i => { i with reduce := .tup [.type p!"object_test.IntEnumTest", .tuple 1 [.int n]], attrs := [(p!"_value_", .int n)] })

/-! ### the tests -/

def baseTests : List (String × Bool) := [
  ("test_decode_base85", bytesOf (restored (.obj [(p!"py/b85", .str (JP.b85encode python3))])) == some python3),
  ("test_decode_invalid_b85", [Json.str [], .str p!"/", .str [0xdc00], .int 1, .bool true, .bool false, .null, .arr [], .obj []].all (fun v =>
    bytesOf (restored (.obj [(p!"py/b85", v)])) == some [])),
  ("test_base85_still_handles_base64", bytesOf (restored (.obj [(p!"py/b64", .str (JP.b64encode python3))])) == some python3),
  ("test_decode_invalid_b64", [Json.str [], .str p!"x", .str p!"!", .str [0xdc00], .int 0, .int 1, .bool true, .bool false, .null, .arr [], .obj []].all (fun v =>
    bytesOf (restored (.obj [(p!"py/b64", v)])) == some [])),
  ("test_bytearray_roundtrip", bytearrayOf (trip [] (.bytearray 1 [0, 1, 255, 32, 104, 101, 108, 108, 111])) == some [0, 1, 255, 32, 104, 101, 108, 108, 111]),
  ("test_bytearray_empty_roundtrip", bytearrayOf (trip [] (.bytearray 1 [])) == some []),
  ("test_bytearray_nested_roundtrip", bytearrayOf (trip [.dict [(.str p!"a", .ref 1)], .list [.bytearray 1 [120, 121, 122]]]) [.k (.str p!"a"), .i 0] == some [120, 121, 122]),
  ("test_bytearray_base64_default", flat [] (.bytearray 1 python3) == some (.obj [(p!"py/bytea", .obj [(p!"py/b64", .str (JP.b64encode python3))])])),
  ("test_bytearray_base85", flat [] (.bytearray 1 python3) { useBase85 := true } == some (.obj [(p!"py/bytea", .obj [(p!"py/b85", .str (JP.b85encode python3))])])),
  ("test_bytearray_base85_roundtrip", bytearrayOf (trip [] (.bytearray 1 [0, 1, 255, 32, 104]) { useBase85 := true }) == some [0, 1, 255, 32, 104]),
  ("test_decode_bytearray_base64", bytearrayOf (restored (.obj [(p!"py/bytea", .obj [(p!"py/b64", .str (JP.b64encode python3))])])) == some python3),
  ("test_decode_bytearray_base85", bytearrayOf (restored (.obj [(p!"py/bytea", .obj [(p!"py/b85", .str (JP.b85encode python3))])])) == some python3),
  ("test_string, test_int, test_float, test_boolean, test_none",
    [(Val.str p!"a string", Json.str p!"a string"), (.int 3, .int 3), (.float 0x400c000000000000, .float 0x400c000000000000), (.bool true, .bool true),
      (.bool false, .bool false), (.none, .null)].all (fun x => flat [] x.1 == some x.2 && (restored x.2).map (·.1) == some x.1)),
  ("test_list", eq_ (restored (.arr [.int 40, .int 40, .arr [.int 1, .float 0x4041800000000000, .str p!"value"], .int 6]))
      (.arr [.int 40, .int 40, .arr [.int 1, .float 0x4041800000000000, .str p!"value"], .int 6])
    && flat [.list [.int 40, .int 40, .ref 1, .int 6], .list [.int 1, .float 0x4041800000000000, .str p!"value"]] ==
      some (.arr [.int 40, .int 40, .arr [.int 1, .float 0x4041800000000000, .str p!"value"], .int 6])
    && flat [.list []] == some (.arr []) && eq_ (restored (.arr [])) (.arr [])),
  ("test_nonetype", (trip [] (.type p!"builtins.NoneType")).map (·.1) == some (.type p!"builtins.NoneType")),
  ("test_set", flat [] (.set 1 [.str p!"orange", .str p!"apple", .str p!"grape"]) == some (.obj [(p!"py/set", .arr [.str p!"orange", .str p!"apple", .str p!"grape"])])
    && elems (restored (.obj [(p!"py/set", .arr [.str p!"orange", .str p!"apple", .str p!"grape"])])) == some [.str p!"orange", .str p!"apple", .str p!"grape"]),
  ("test_set_with_invalid_data", [Json.str [], .int 0, .int 1, .bool true, .bool false, .null, .arr [], .obj []].all (fun v =>
    match restored (.obj [(p!"py/set", v)]) with | some (.set _ [], _) => true | _ => false)),
  ("test_tuple_with_invalid_data", [Json.str [], .int 0, .int 1, .bool true, .bool false, .null, .arr [], .obj []].all (fun v =>
    match restored (.obj [(p!"py/tuple", v)]) with | some (.tuple _ [], _) => true | _ => false)),
  ("test_reduce_with_invalid_data", [Json.str [], .int 0, .bool true, .bool false, .null, .arr [], .obj [], .arr [.str p!"x"], .obj [(p!"x", .bool true)]].all (fun v =>
    eq_ (restored (.obj [(p!"py/reduce", v)])) (.arr []))),
  ("test_restore_id_with_invalid_data", [Json.str [], .str p!"x", .int 1, .bool true, .arr [], .obj []].all (fun v =>
    at_ (restored (.obj [(p!"ref", .obj [(p!"py/id", v)])])) [.k (.str p!"ref")] == some .none)),
  ("test_dict", let j : Json := .obj [(p!"key1", .float 0x3ff0000000000000), (p!"key2", .int 20), (p!"key3", .str p!"thirty"), (p!"json://6", .int 6)]
    flat [.dict [(.str p!"key1", .float 0x3ff0000000000000), (.str p!"key2", .int 20), (.str p!"key3", .str p!"thirty"), (.str p!"json://6", .int 6)]] == some j
      && eq_ (restored j) j && flat [.dict []] == some (.obj []) && eq_ (restored (.obj [])) (.obj [])),
  ("test_tuple", flat [] (.tuple 1 [.int 4, .int 16, .int 32]) == some (.obj [(p!"py/tuple", .arr [.int 4, .int 16, .int 32])])
    && elems (restored (.obj [(p!"py/tuple", .arr [.int 4, .int 16, .int 32])])) == some [.int 4, .int 16, .int 32]
    && flat [] (.tuple 1 [.int 4]) == some (.obj [(p!"py/tuple", .arr [.int 4])]) && elems (restored (.obj [(p!"py/tuple", .arr [.int 4])])) == some [.int 4]),
  ("test_tuple_roundtrip, test_set_roundtrip, test_list_roundtrip", elems (trip [] (.tuple 1 i3)) == some i3 && elems (trip [] (.set 1 i3)) == some i3
    && eq_ (trip [.list i3]) (.arr [.int 1, .int 2, .int 3])),
  ("test_class", let h := [thing p!"test name" (.ref 1), thing p!"child name"]
    entry (flat h) p!"name" == some (.str p!"test name") && entry (entry (flat h) p!"child") p!"name" == some (.str p!"child name")
      && at_ (cycle h) [.a p!"name"] == some (.str p!"test name") && type_ (cycle h) [] p!"jsonpickle_test.Thing"
      && at_ (cycle h) [.a p!"child", .a p!"name"] == some (.str p!"child name") && type_ (cycle h) [.a p!"child"] p!"jsonpickle_test.Thing"),
  ("test_classlist", let o := cycle [.list [.ref 1, .ref 2, .str p!"a string"], thing p!"one", thing p!"two"]
    at_ o [.i 0, .a p!"name"] == some (.str p!"one") && type_ o [.i 0] p!"jsonpickle_test.Thing" && at_ o [.i 1, .a p!"name"] == some (.str p!"two")
      && type_ o [.i 1] p!"jsonpickle_test.Thing" && at_ o [.i 2] == some (.str p!"a string")),
  ("test_classdict", let o := cycle [.dict [(.str p!"k1", .ref 1), (.str p!"k2", .ref 2), (.str p!"k3", .int 3)], thing p!"one", thing p!"two"]
    at_ o [.k (.str p!"k1"), .a p!"name"] == some (.str p!"one") && type_ o [.k (.str p!"k1")] p!"jsonpickle_test.Thing"
      && at_ o [.k (.str p!"k2"), .a p!"name"] == some (.str p!"two") && at_ o [.k (.str p!"k3")] == some (.int 3)),
  ("test_recursive", let o := trip recursive
    at_ o [.a p!"name"] == some (.str p!"parent") && at_ o [.a p!"child", .a p!"name"] == some (.str p!"child")
      && at_ o [.a p!"child", .a p!"sibling", .a p!"name"] == some (.str p!"sibling") && is_ o [] [.a p!"child", .a p!"parent"]
      && is_ o [] [.a p!"child", .a p!"sibling", .a p!"parent"] && is_ o [] [.a p!"child", .a p!"twin", .a p!"parent"]
      && is_ o [.a p!"child"] [.a p!"child", .a p!"twin"]),
  ("test_tuple_notunpicklable", flat [] (.tuple 1 [.str p!"one", .int 2, .int 3]) { unpicklable := false } == some (.arr [.str p!"one", .int 2, .int 3])),
  ("test_set_not_unpicklable", flat [] (.set 1 [.str p!"one", .int 2, .int 3]) { unpicklable := false } == some (.arr [.str p!"one", .int 2, .int 3])),
  ("test_reduce_only_object_notunpicklable", flat [.inst { cls := p!"datetime.timedelta", info := { reduces := true, hasDict := false }, reduce := .tup [.type p!"datetime.timedelta", .tuple 1 [.int 3, .int 1, .int 0]] }]
    (.ref 0) { unpicklable := false } == some (.arr [.int 3, .int 1, .int 0])),
  ("test_type_reference", let h := [thing p!"object-with-type-reference" .none [(p!"typeref", .type p!"builtins.object")]]
    entry (flat h) p!"typeref" == some (.obj [(p!"py/type", .str p!"builtins.object")]) && at_ (cycle h) [.a p!"typeref"] == some (.type p!"builtins.object")),
  ("test_class_reference", let h := [thing p!"object-with-class-reference" .none [(p!"classref", .type p!"jsonpickle_test.Thing")]]
    entry (flat h) p!"classref" == some (.obj [(p!"py/type", .str p!"jsonpickle_test.Thing")]) && at_ (cycle h) [.a p!"classref"] == some (.type p!"jsonpickle_test.Thing")),
  ("test_supports_getstate_setstate", let h := [mk p!"jsonpickle_test.ThingWithProps" (fun i => { i with state := .ok (.ref 1), attrs := [(p!"name", .str p!"x")] }),
      .dict [(.str p!"__identity__", .int 7), (.str p!"nom", .str p!"x"), (.str p!"dogs", .str p!"reliable"), (.str p!"monkies", .str p!"tricksy")]]
    let j : Json := .obj [(p!"__identity__", .int 7), (p!"nom", .str p!"x"), (p!"dogs", .str p!"reliable"), (p!"monkies", .str p!"tricksy")]
    entry (flat h) p!"py/state" == some j
      && (match cycle h, inst (cycle h) with | some x, some i => (match i.state with | .ok v => plain x.2 9 v == j && i.attrs.isEmpty | .error _ => false) | _, _ => false)),
  ("test_references_in_number_keyed_dict", let o := cycle [.dict [(.int 1, .ref 1), (.int 2, .ref 2), (.int 12, .ref 3)], thing p!"one", thing p!"two" (.ref 3), thing p!"twelve"]
    at_ o [.k (.str p!"12"), .a p!"name"] == some (.str p!"twelve") && (at_ o [.key 2]).isSome && (at_ o [.key 3]).isNone),
  ("test_builtin_function", (trip [] (.func p!"builtins.dir")).map (·.1) == some (.func p!"builtins.dir")),
  ("test_restore_legacy_builtins", loads p!"__builtin__.AssertionError" (some 3) && loads p!"exceptions.AssertionError" (some 3) && loads p!"__builtin__.int" (some 2)),
  ("test_restore_invalid_repr", [p!"module_does_not_exist/ignored", p!"builtins/int", p!"builtins/invalid.int", p!"builtins/builtinsx.int"].all (fun s => loadsModule s none)),
  ("test_can_serialize_nested_classes", loads p!"jsonpickle_test.Outer.Middle" (some 6) && loads p!"jsonpickle_test.Outer.Middle.Inner" (some 7)
    && missingCases.all (fun s => loads s none)),
  ("test_unpickler_on_missing", (match Api.encode (world [mk p!"jsonpickle_test.Outer.Middle.Inner"]) {} 60 (.ref 0) true {} with
      | some (.ok text, _) => text == p!"{\"py/object\": \"jsonpickle_test.Outer.Middle.Inner\"}"
      | _ => false)
    && missingCases.all (fun s =>
      (match Unpickler.restoreTop { tp.env with onMissing := .warn } 60 (.obj [(p!"py/object", .str s)]) true {} with | some (.ok _, u) => u.log.contains (.missing s) | _ => false)
      && (match Unpickler.restoreTop { tp.env with onMissing := .callback } 60 (.obj [(p!"py/object", .str s)]) true {} with | some (.ok _, u) => u.log.contains (.missing s) | _ => false)
      && eq_ (restored (.obj [(p!"py/object", .str s)])) (.obj [(p!"py/object", .str s)])
      && (match Unpickler.restoreTop { tp.env with onMissing := .error } 60 (.obj [(p!"py/object", .str s)]) true {} with | some (.error .classNotFound, _) => true | _ => false))),
  ("test_private_slot_members", let o := trip [mk p!"jsonpickle_test.MySlots" (fun i => { i with attrs := [(p!"alpha", .int 1), (p!"_MySlots__beta", .int 1)] })]
    at_ o [.a p!"alpha"] == some (.int 1) && at_ o [.a p!"_MySlots__beta"] == some (.int 1)),
  ("test_json, test_decode", (match Api.encode (world [thing p!"A name"]) {} 60 (.ref 0) true {} with
      | some (.ok text, _) => text == p!"{\"py/object\": \"jsonpickle_test.Thing\", \"name\": \"A name\", \"child\": null}"
      | _ => false)
    && (match Api.decode tp.env 60 p!"{\"py/object\": \"jsonpickle_test.Thing\", \"name\": \"A name\", \"child\": null}" true true {} with
      | some (.ok x, u) => let o := some (x, u.heap); at_ o [.a p!"name"] == some (.str p!"A name") && at_ o [.a p!"child"] == some .none && type_ o [] p!"jsonpickle_test.Thing"
      | _ => false)),
  ("test_encode_notunpicklable", eq_ (trip [thing p!"A name"] (.ref 0) { unpicklable := false }) (.obj [(p!"name", .str p!"A name"), (p!"child", .null)])),
  ("test_unicode_dict_keys", at_ (trip [.dict [(.str [0x1234], .str [0x1234])]]) [.k (.str [0x1234])] == some (.str [0x1234]))]

def keyTests : List (String × Bool) := [
  ("test_tuple_dict_keys_default", eq_ (trip tuples) (.obj [(p!"(1, 2)", .int 3), (p!"(4, 5)", .obj [(p!"(7, 8)", .int 9)])])),
  ("test_tuple_dict_keys_with_keys_enabled", let o := trip tuples (cfg := { keys := true })
    at_ o [.k (.tuple 0 [.int 1, .int 2])] == some (.int 3) && at_ o [.k (.tuple 0 [.int 4, .int 5]), .k (.tuple 0 [.int 7, .int 8])] == some (.int 9)),
  ("test_None_dict_key_default", eq_ (trip [.dict [(.none, .none)]]) (.obj [(p!"null", .null)])),
  ("test_None_dict_key_with_keys_enabled", let o := trip [.dict [(.none, .none)]] (cfg := { keys := true })
    at_ o [.k .none] == some .none && at_ o [.key 0] == some .none),
  ("test_object_dict_keys", eq_ (trip [.dict [(.ref 1, .bool true)], thing p!"random"]) (.obj [(p!"Thing(\"random\")", .bool true)])),
  ("test_int_dict_keys_defaults", eq_ (trip [.dict [(.int 1000, .ref 1)], .list [.int 1, .int 2]]) (.arr [.int 1, .int 2]) [.k (.str p!"1000")]),
  ("test_int_dict_keys_with_keys_enabled", eq_ (trip [.dict [(.int 1000, .ref 1)], .list [.int 1, .int 2]] (cfg := { keys := true })) (.arr [.int 1, .int 2]) [.k (.int 1000)]),
  ("test_string_key_requiring_escape_dict_keys_with_keys_enabled",
    eq_ (trip [.dict [(.str p!"json://6", .ref 1)], .list [.int 1, .int 2]] (cfg := { keys := true })) (.arr [.int 1, .int 2]) [.k (.str p!"json://6")]),
  ("test_reserved_tag_dict_keys_with_keys_enabled", reservedTags.all (fun r =>
    let o := trip [.dict [(.str r, .str p!"user-value"), (.str p!"normal", .int 1)]] (cfg := { keys := true })
    at_ o [.k (.str r)] == some (.str p!"user-value") && at_ o [.k (.str p!"normal")] == some (.int 1) && (at_ o [.key 2]).isNone)),
  ("test_reserved_tag_dict_key_nested_in_object_with_keys_enabled",
    let o := trip [thing p!"holder" (.ref 1), .dict [(.str p!"py/object", .str p!"x"), (.str p!"k", .str p!"cd")]] (cfg := { keys := true })
    at_ o [.a p!"child", .k (.str p!"py/object")] == some (.str p!"x") && at_ o [.a p!"child", .k (.str p!"k")] == some (.str p!"cd")),
  ("test_string_key_not_requiring_escape_dict_keys_with_keys_enabled",
    (flat [.dict [(.str p!"name", .ref 1)], .list [.int 1, .int 2]] (.ref 0) { keys := true }).bind (fun j => (restored j).map (fun _ => keysOf (some j))) == some [p!"name"]),
  ("test_refs_keys_values", let o := trip [.dict [(.ref 1, .ref 1)], thing p!"random"] (cfg := { keys := true })
    match at_ o [.key 0] with | some k => is_ o [.key 0] [.k k] | none => false),
  ("test_object_keys_to_list", let o := trip [.dict [(.ref 1, .ref 2)], thing p!"random", .list [.ref 1, .ref 1]] (cfg := { keys := true })
    match at_ o [.key 0] with
    | some k => at_ o [.key 0, .a p!"name"] == some (.str p!"random") && is_ o [.key 0] [.k k, .i 0] && is_ o [.key 0] [.k k, .i 1]
    | none => false),
  ("test_refs_recursive", let o := trip refsRecursive (cfg := { keys := true })
    match at_ o [.a p!"first"], at_ o [.a p!"self_list", .i 1] with
    | some f, some s => is_ o [.a p!"self_list", .i 0] [.a p!"first"] && is_ o [.a p!"self_list", .i 0] [.a p!"stuff", .k f]
      && is_ o [.a p!"self_list", .i 0] [.a p!"morestuff", .k s, .k f]
    | _, _ => false),
  ("collections_test: test_dict_no_cycle", let o := gK [(.ref 3, .tuple 1 [.ref 3, .str p!"a"])] []
    match at_ o c2 with | some k => is_ o c2 (c1 ++ [.a p!"plain", .k k, .i 0]) && is_ o c2 (c1 ++ [.a p!"plain", .key 0]) | none => false),
  ("collections_test: test_dict_self_cycle", let o := gK [(.ref 2, .tuple 1 [.ref 2, .str p!"a"]), (.ref 3, .tuple 2 [.ref 3, .str p!"b"])] []
    match at_ o c1, at_ o c2 with
    | some k1, some k2 => is_ o c1 (c1 ++ [.a p!"plain", .key 0]) && is_ o c2 (c1 ++ [.a p!"plain", .key 1])
      && at_ o (c1 ++ [.a p!"plain", .k k1, .i 0, .a p!"v"]) == some (.int 42) && is_ o c2 (c1 ++ [.a p!"plain", .k k2, .i 0])
    | _, _ => false),
  ("collections_test: test_dict_mutual_cycle", let o := gK [(.ref 3, .tuple 1 [.ref 3, .str p!"a"])] [(.ref 2, .tuple 2 [.ref 2, .str p!"a"])]
    match at_ o c1, at_ o c2 with
    | some k1, some k2 => is_ o c1 (c2 ++ [.a p!"plain", .key 0]) && is_ o c2 (c1 ++ [.a p!"plain", .key 0])
      && at_ o (c2 ++ [.a p!"plain", .k k1, .i 0, .a p!"v"]) == some (.int 42) && is_ o c2 (c1 ++ [.a p!"plain", .k k2, .i 0])
    | _, _ => false),
  ("collections_test: test_set_no_cycle", let o := gS [.ref 3] []; inSet o c2 (c1 ++ [.a p!"plain"])),
  ("collections_test: test_set_self_cycle", let o := gS [.ref 2, .ref 3] []; inSet o c1 (c1 ++ [.a p!"plain"]) && inSet o c2 (c1 ++ [.a p!"plain"])),
  ("collections_test: test_set_mutual_cycle", let o := gS [.ref 3] [.ref 2]; inSet o c2 (c1 ++ [.a p!"plain"]) && inSet o c1 (c2 ++ [.a p!"plain"]))]

def refTests : List (String × Bool) := [
  ("test_dict_subclass", let o := trip userDict
    type_ o [] p!"jsonpickle_test.UserDict" && eq_ o (.obj []) [.k (.str p!"d")] && at_ o [.k (.str p!"s")] == some (.str p!"test")
      && at_ o [.a p!"d"] == some (.str p!"d_string") && at_ o [.a p!"s"] == some (.str p!"string") && at_ o [.a p!"valid"] == some (.bool true)),
  ("test_dict_subclass_with_references", let o := trip userDictRefs
    type_ o [.i 0] p!"jsonpickle_test.UserDict" && at_ o [.i 0, .a p!"s"] == some (.str p!"string") && at_ o [.i 0, .k (.str p!"s")] == some (.str p!"test")
      && is_ o [.i 0] [.i 1] && eq_ o (.obj [(p!"valid", .bool false), (p!"s", .str p!"string")]) [.i 2]
      && (inst o [.i 0]).any (fun i => i.dictCell.any (fun d => at_ o [.i 2] == some (.ref d)))),
  ("test_list_of_objects, test_refs_in_objects", let o := trip [.list [.ref 1, .ref 2, .ref 2], thing p!"a", thing p!"b"]
    is_ o [.i 1] [.i 2] && !is_ o [.i 0] [.i 1] && at_ o [.i 0, .a p!"name"] == some (.str p!"a") && at_ o [.i 2, .a p!"name"] == some (.str p!"b")),
  ("test_list_item_reference", let o := trip [thing p!"parent" (.ref 1), thing p!"child" .none [(p!"refs", .ref 2)], .list [.ref 0]]
    is_ o [] [.a p!"child", .a p!"refs", .i 0]),
  ("test_reference_to_list", let o := trip refToList
    at_ o [.a p!"a", .i 0] == some (.int 1) && is_ o [.a p!"a"] [.a p!"b"] && is_ o [.a p!"a", .i 1] [.a p!"a"] && is_ o [.a p!"a", .i 2, .i 0] [.a p!"a"]),
  ("test_make_refs_disabled_list", let o := trip [.list [.ref 1, .ref 2, .ref 2], thing p!"foo", thing p!"bar"] (cfg := { makeRefs := false })
    (at_ o [.i 2]).isSome && (at_ o [.i 3]).isNone && !is_ o [.i 0] [.i 1] && !is_ o [.i 1] [.i 2]),
  ("test_make_refs_disabled_reference_to_list", let o := trip refToList (cfg := { makeRefs := false })
    at_ o [.a p!"a", .i 0] == some (.int 1) && at_ o [.a p!"b", .i 0] == some (.int 1)
      && (match at_ o [.a p!"a", .i 1] with | some (.str s) => s.take 3 == p!"[1," | _ => false)
      && (match at_ o [.a p!"a", .i 2, .i 0] with | some (.str s) => s.take 3 == p!"[1," | _ => false)),
  ("test_can_serialize_nested_class_objects", let o := trip [mk p!"jsonpickle_test.Outer.Middle.Inner" (fun i => { i with attrs := [(p!"attribute", .int 6)] })]
    type_ o [] p!"jsonpickle_test.Outer.Middle.Inner" && at_ o [.a p!"attribute"] == some (.int 6)),
  ("test_listlike", eq_ (trip [mk p!"jsonpickle_test.ListLike" (fun i => { i with attrs := [(p!"internal_list", .ref 1)] }), .list [.int 1]]) (.arr [.int 1]) [.a p!"internal_list"]),
  ("test_depth_tracking", match Pickler.flattenTop (world [.list [.ref 1, .ref 1, .ref 1, .ref 1, .ref 1], .list []]) {} 60 (.ref 0) true {} with
    | some (.ok _, s) => s.depth == -1
    | _ => false),
  ("test_dict_references_are_preserved", is_ (trip [.list [.ref 1, .ref 1], .dict []]) [.i 0] [.i 1]),
  ("test_repeat_objects_are_expanded", let j := flat repeated (.ref 0) { makeRefs := false }
    entry j p!"name" == some (.str p!"car") && entry (entry j p!"driver") p!"name" == some (.str p!"alice") && entry (entry j p!"owner") p!"name" == some (.str p!"alice")
      && entry (entry (entry j p!"driver") p!"child") p!"name" == some (.str p!"bob")
      && (match entry j p!"passengers" with
        | some (.arr [x, y]) => entry (some x) p!"name" == some (.str p!"alice") && entry (some y) p!"name" == some (.str p!"bob") && entry (entry (some x) p!"child") p!"name" == some (.str p!"bob")
        | _ => false)),
  ("test_cyclical_objects", [true, false].all (fun tup => let o := trip (cyclical tup)
    type_ o [] p!"jsonpickle_test.Capture" && type_ o [.a p!"args", .i 0] p!"jsonpickle_test.Capture" && is_ o [.a p!"args", .i 0] [.a p!"args", .i 1]
      && is_ o [] [.a p!"args", .i 0, .a p!"args", .i 0] && is_ o [.a p!"args", .i 0] [.a p!"args", .i 0, .a p!"args", .i 0, .a p!"args", .i 0])),
  ("test_cyclical_objects_unpickleable", [true, false].all (fun tup =>
    let child : Json := .obj [(p!"args", .arr [.null]), (p!"kwargs", .obj [])]
    eq_ (trip (cyclical tup) (.ref 0) { unpicklable := false }) (.obj [(p!"args", .arr [child, child]), (p!"kwargs", .obj [])])))]

def protocolTests : List (String × Bool) := [
  ("test_handles_nested_objects", let o := trip protocol2
    type_ o [] p!"jsonpickle_test.PickleProtocol2Thing" && type_ o [.a p!"args", .i 0] p!"jsonpickle_test.PickleProtocol2Thing" && is_ o [.a p!"args", .i 0] [.a p!"args", .i 1]),
  ("test_handles_cyclical_objects_in_lists", let o := trip childThings
    is_ o [] [.a p!"child", .i 0, .a p!"child"] && is_ o [] [.a p!"child", .i 1, .a p!"child"]),
  ("test_getnewargs_priority", let o := trip [mk p!"jsonpickle_test.PickleProtocol2GetState" (fun i => { i with newargs := .tuple 1 [.str p!"whatevs"], state := .ok (.str p!"I am magic"), attrs := [(p!"args", .tuple 1 [.str p!"whatevs"])] })]
    (inst o).any (fun i => match i.newargs with | .tuple _ [.str a] => a == p!"whatevs" | _ => false)),
  ("test_setstate", let o := trip [mk p!"jsonpickle_test.PickleProtocol2GetSetState" (fun i => { i with newargs := .tuple 1 [.str p!"whatevs"], state := .ok (.str p!"I am magic") })]
    (inst o).any (fun i => match i.state, i.newargs with | .ok (.str s), .tuple _ [.str a] => s == p!"I am magic" && a == p!"whatevs" | _, _ => false)),
  ("test_restore_dict_state", at_ (trip [mk p!"jsonpickle_test.PickleProtocol2GetState" (fun i => { i with newargs := .tuple 1 [.str p!"whatevs"], state := .ok (.ref 1) }), .dict [(.str p!"magic", .bool true)]]) [.a p!"magic"] == some (.bool true)),
  ("test_restore_nested_dict_state_with_references_preserved",
    let thing (n : Nat) : JP.Obj := mk p!"jsonpickle_test.PickleProtocol2GetState" (fun i => { i with newargs := .tuple n [.str p!"whatevs"], state := .ok (.ref n) })
    let o := trip [.list [.ref 1, .ref 1, .ref 2, .ref 2], thing 3, thing 5, .dict [(.str p!"nested", .ref 4)], .dict [(.str p!"magic", .bool true)], .dict [(.str p!"nested", .ref 6)], .dict [(.str p!"magic", .bool true)]]
    at_ o [.i 0, .a p!"nested", .k (.str p!"magic")] == some (.bool true) && is_ o [.i 1] [.i 0]
      && at_ o [.i 2, .a p!"nested", .k (.str p!"magic")] == some (.bool true) && is_ o [.i 2] [.i 3]),
  ("test_restore_slots_state", let o := trip [mk p!"jsonpickle_test.PickleProtocol2GetState" (fun i => { i with newargs := .tuple 1 [.str p!"whatevs"], state := .ok (.tuple 2 [.none, .ref 1]) }),
      .dict [(.str p!"slotmagic", .ref 2)], mk p!"jsonpickle_test.PickleProtocol2Thing" (fun i => { i with newargs := .tuple 3 [.str p!"slotmagic"], attrs := [(p!"args", .tuple 3 [.str p!"slotmagic"])] })]
    at_ o [.a p!"slotmagic", .a p!"args", .i 0] == some (.str p!"slotmagic")),
  ("test_restore_slots_dict_state", let o := trip [mk p!"jsonpickle_test.PickleProtocol2GetState" (fun i => { i with newargs := .tuple 1 [.str p!"whatevs"], state := .ok (.tuple 2 [.ref 2, .ref 1]) }),
      .dict [(.str p!"slotmagic", .int 1)], .dict [(.str p!"dictmagic", .int 2)]]
    at_ o [.a p!"slotmagic"] == some (.int 1) && at_ o [.a p!"dictmagic"] == some (.int 2)),
  ("test_reduce_basic", let o := trip (reducer p!"jsonpickle_test.PickleProtocol2ReduceTuple" [t p!"PickleProtocol2ReduceTuple", .tuple 1 yam, .none, .tuple 2 [], .tuple 3 []])
    (recipe o).any (fun r => r.1 == t p!"PickleProtocol2ReduceTuple" && r.2.1 == yam && r.2.2.isEmpty)),
  ("test_reduce_basic_func", let o := trip (reducer p!"jsonpickle_test.PickleProtocol2ReduceTupleFunc" [fn p!"protocol_2_reduce_tuple_func", .tuple 1 yam, .none, .tuple 2 [], .tuple 3 []])
    (recipe o).any (fun r => r.1 == fn p!"protocol_2_reduce_tuple_func" && r.2.1 == yam && r.2.2.isEmpty)),
  ("test_reduce_newobj", let o := trip (reducer p!"jsonpickle_test.PickleProtocol2ReduceNewobj" [fn p!"__newobj__", .tuple 1 (t p!"PickleProtocol2ReduceNewobj" :: yam), .none, .tuple 2 [], .tuple 3 []])
    type_ o [] p!"jsonpickle_test.PickleProtocol2ReduceNewobj" && (recipe o).any (fun r => r.2.1 == t p!"PickleProtocol2ReduceNewobj" :: yam && r.2.2.isEmpty)),
  ("test_reduce_state_dict", let o := trip (reducer p!"jsonpickle_test.PickleProtocol2ReduceTuple" [t p!"PickleProtocol2ReduceTuple", .tuple 1 yam, .ref 1, .tuple 2 [], .tuple 3 []] [foo])
    (recipe o).any (fun r => r.1 == t p!"PickleProtocol2ReduceTuple" && r.2.1 == yam && setDict1 o r.2.2)),
  ("test_reduce_state_setstate", let o := trip (reducer p!"jsonpickle_test.PickleProtocol2ReduceTupleSetState" [t p!"PickleProtocol2ReduceTupleSetState", .tuple 1 yam, .ref 1, .tuple 2 [], .tuple 3 []] [foo])
    (recipe o).any (fun r => r.1 == t p!"PickleProtocol2ReduceTupleSetState" && r.2.1 == yam && setstate1 o r.2.2)),
  ("test_reduce_listitems_append", let o := trip (reducer p!"jsonpickle_test.PickleProtocol2ReduceListitemsAppend" [t p!"PickleProtocol2ReduceListitemsAppend", .tuple 1 [], .ref 1, .tuple 2 [.str p!"foo", .str p!"bar"], .tuple 3 []] [.dict []])
    (recipe o).any (fun r => r.2.1.isEmpty && (match r.2.2 with | [.append (.str a), .append (.str b)] => a == p!"foo" && b == p!"bar" | _ => false))),
  ("test_reduce_dictitems", let o := trip (reducer p!"jsonpickle_test.PickleProtocol2ReduceDictitems"
      [t p!"PickleProtocol2ReduceDictitems", .tuple 1 [], .ref 1, .ref 2, .tuple 3 [.tuple 4 [.str p!"foo", .str p!"foo"], .tuple 5 [.str p!"bar", .str p!"bar"]]] [.dict [], .list []])
    (recipe o).any (fun r => r.2.1.isEmpty && (match r.2.2 with | [.setitem (.str a) (.str b), .setitem (.str c) (.str d)] => a == p!"foo" && b == p!"foo" && c == p!"bar" && d == p!"bar" | _ => false))),
  ("test_reduce_state_setter", let o := trip (reducer p!"jsonpickle_test.Protocol5StateSetter" [t p!"Protocol5StateSetter", .tuple 1 yam, .ref 1, .tuple 2 [], .tuple 3 [], fn p!"protocol_5_state_setter"] [.dict [(.str p!"extra", .str p!"state")]])
    (recipe o).any (fun r => r.1 == t p!"Protocol5StateSetter" && r.2.1 == yam && (match r.2.2, o with
      | [.setter f st], some x => f == fn p!"protocol_5_state_setter" && plain x.2 9 st == .obj [(p!"extra", .str p!"state")]
      | _, _ => false))),
  ("test_reduce_string, test_reduce_ex_string", let o := trip [.inst { cls := p!"jsonpickle_test.PickleProtocol2ReduceString", info := { reduces := true }, reduce := .str (some (.ref 1)) },
      mk p!"jsonpickle_test.PickleProtocol2Thing" (fun i => { i with newargs := .tuple 3 [.str p!"slotmagic"], attrs := [(p!"args", .tuple 3 [.str p!"slotmagic"])] })]
    type_ o [] p!"jsonpickle_test.PickleProtocol2Thing" && at_ o [.a p!"args", .i 0] == some (.str p!"slotmagic"))]

def objectTests : List (String × Bool) := [
  ("test_list_subclass", let h := [mk p!"object_test.ListSubclass" (fun i => { i with elems := i3 })]
    keysOf (flat h) == [p!"py/object", p!"py/seq"] && entry (flat h) p!"py/seq" == some (.arr [.int 1, .int 2, .int 3])
      && type_ (cycle h) [] p!"object_test.ListSubclass" && elems (cycle h) == some i3),
  ("test_list_subclass_with_data", let o := cycle [mk p!"object_test.ListSubclass" (fun i => { i with elems := i3, attrs := [(p!"data", .ref 1)] }), mk p!"object_test.SetSubclass" (fun i => { i with elems := i3 })]
    elems o == some i3 && type_ o [.a p!"data"] p!"object_test.SetSubclass" && elems o [.a p!"data"] == some i3),
  ("test_set_subclass_with_data", let o := cycle [mk p!"object_test.SetSubclass" (fun i => { i with elems := i3, attrs := [(p!"data", .ref 1)] }), mk p!"object_test.ListSubclass" (fun i => { i with elems := i3 })]
    type_ o [.a p!"data"] p!"object_test.ListSubclass" && elems o [.a p!"data"] == some i3),
  ("test_dictsubclass", let h := [mk p!"object_test.DictSubclass" (fun i => { i with items := [(.str p!"key1", .int 1)] })]
    flat h == some (.obj [(p!"py/object", .str p!"object_test.DictSubclass"), (p!"key1", .int 1), (p!"__dict__", .obj [])])
      && type_ (cycle h) [] p!"object_test.DictSubclass" && at_ (cycle h) [.k (.str p!"key1")] == some (.int 1)),
  ("test_dictsubclass_notunpickable", let j := flat [mk p!"object_test.DictSubclass" (fun i => { i with items := [(.str p!"key1", .int 1)] })] (.ref 0) { unpicklable := false }
    entry j p!"key1" == some (.int 1) && !(keysOf j).contains p!"py/object" && at_ (j.bind (restored ·)) [.k (.str p!"key1")] == some (.int 1)),
  ("test_getstate_dict_subclass_structure", let j := flat [mk p!"object_test.GetstateDict" (fun i => { i with items := [(.str p!"key1", .int 1)], state := .ok (.tuple 1 [.str p!"test", .ref 1]) }), .dict [(.str p!"key1", .int 1)]]
    entry j p!"py/object" == some (.str p!"object_test.GetstateDict") && entry (entry j p!"py/state") p!"py/tuple" == some (.arr [.str p!"test", .obj [(p!"key1", .int 1)]])),
  ("test_getstate_dict_subclass_roundtrip_cyclical", let o := cycle getstateDicts
    match inst o, o with
    | some i, some x => (match i.state with
      | .ok (.tuple _ [.str n, st]) => n == p!"test" && (match acc1 x.2 st (.k (.str p!"obj2")) with
        | some (.ref b) => (match x.2[b]? with
          | some (.inst i2) => (match i2.state with | .ok (.tuple _ [me, _]) => me == x.1 | _ => false)
          | _ => false)
        | _ => false)
      | _ => false)
    | _, _ => false),
  ("test_getstate_list_simple", let o := cycle [mk p!"object_test.GetstateReturnsList" (fun i => { i with state := .ok (.ref 1) }), .list [.int 1, .int 2]]
    (inst o).any (fun i => match i.state, o with | .ok v, some x => plain x.2 9 v == .arr [.int 1, .int 2] | _, _ => false)),
  ("test_getstate_with_getstate_only", let h := [mk p!"object_test.GetstateOnly" (fun i => { i with state := .ok (.ref 1), attrs := [(p!"a", .str p!"x"), (p!"b", .str p!"y")] }), .list [.str p!"x", .str p!"y"]]
    entry (flat h) p!"py/state" == some (.arr [.str p!"x", .str p!"y"]) && eq_ (cycle h) (.arr [.str p!"x", .str p!"y"])),
  ("test_thing_with_func", let o := cycle [mk p!"object_test.ThingWithFunctionRefs" (fun i => { i with attrs := [(p!"fn", .func p!"object_test.func"), (p!"ref", .ref 0)] })]
    at_ o [.a p!"fn"] == some (.func p!"object_test.func") && is_ o [] [.a p!"ref"]),
  ("test_base_object_roundrip", type_ (cycle [mk p!"builtins.object"]) [] p!"builtins.object"),
  ("test_enum34", (recipe (cycle [intEnum 1])).any (fun r => r.1 == .type p!"object_test.IntEnumTest" && r.2.1 == [.int 1])
    && (cycle [] (.type p!"object_test.IntEnumTest")).map (·.1) == some (.type p!"object_test.IntEnumTest")),
  ("test_enum_references", let o := trip [.list [.ref 1, .ref 1], intEnum 1]
    is_ o [.i 0] [.i 1] && type_ o [.i 0] p!"object_test.IntEnumTest"),
  ("test_enum_int_key_and_value", let o := trip [.dict [(.str p!"__first__", .ref 1), (.str p!"thing", .ref 1), (.ref 2, .ref 2), (.ref 3, .ref 3)], thing p!"test", intEnum 1, intEnum 2] (cfg := { keys := true })
    at_ o [.k (.str p!"__first__"), .a p!"name"] == some (.str p!"test") && is_ o [.k (.str p!"__first__")] [.k (.str p!"thing")]),
  ("test_multiple_string_enums_when_make_refs_is_false", let o := trip [.dict [(.str p!"a", .ref 1), (.str p!"aa", .ref 1)], intEnum 1] (cfg := { makeRefs := false })
    type_ o [.k (.str p!"a")] p!"object_test.IntEnumTest" && type_ o [.k (.str p!"aa")] p!"object_test.IntEnumTest"),
  ("test_bytes_unicode", flat [] (.bytes 1 [102, 111, 111]) == some (.obj [(p!"py/b64", .str (JP.b64encode [102, 111, 111]))])
    && bytesOf (cycle [] (.bytes 1 [102, 111, 111])) == some [102, 111, 111] && bytesOf (cycle [] (.bytes 1 [102, 111, 111, 255])) == some [102, 111, 111, 255]),
  ("test_defaultdict_roundtrip", let o := trip [
      mk p!"collections.defaultdict" (fun i => { i with items := [(.str p!"a", .int 1), (.str p!"b", .ref 1), (.str p!"c", .ref 2)], factory := some (.type p!"builtins.list"), exemplar := .none }),
      .list [.int 2], mk p!"collections.defaultdict" (fun i => { i with factory := some (.type p!"builtins.object") })]
    at_ o [.k (.str p!"a")] == some (.int 1) && eq_ o (.arr [.int 2]) [.k (.str p!"b")] && type_ o [.k (.str p!"c")] p!"collections.defaultdict"
      && (inst o).any (fun i => i.factory == some (.type p!"builtins.list"))),
  ("test_defaultdict_preserves_default_factory_key", let o := trip [
      mk p!"collections.defaultdict" (fun i => { i with items := [(.str p!"default_factory", .int 42), (.str p!"other_key", .int 100)], factory := some (.type p!"builtins.int") })]
    at_ o [.k (.str p!"default_factory")] == some (.int 42) && at_ o [.k (.str p!"other_key")] == some (.int 100) && (inst o).any (fun i => i.factory == some (.type p!"builtins.int"))),
  ("test_ordered_dict_python3", eq_ (trip [.dict [(.str p!"z", .str p!"Z"), (.str p!"x", .str p!"X"), (.str p!"y", .str p!"Y")]]) (.obj [(p!"z", .str p!"Z"), (p!"x", .str p!"X"), (p!"y", .str p!"Y")])),
  ("test_broken_repr_dict_key", (match Pickler.flattenTop { world [.dict [(.ref 1, .bool true)], thing p!"test"] with repr := fun _ => .error (.other 7), pystr := fun _ => .ok p!"<BrokenReprThing \"test\">" } {} 60 (.ref 0) true {} with
    | some (.ok j, _) => j == .obj [(p!"<BrokenReprThing \"test\">", .bool true)]
    | _ => false)),
  ("test_int_keys_in_object_with_getstate_only", let o := trip [mk p!"object_test.IntKeysObject" (fun i => { i with state := .ok (.ref 1), dictCell := some 1 }), .dict [(.str p!"data", .ref 2)], .dict [(.int 0, .int 0)]] (cfg := { keys := true })
    at_ o [.a p!"data", .k (.int 0)] == some (.int 0)),
  ("test_namedtuple_roundtrip", let o := trip [mk p!"object_test.NamedTuple" (fun i => { i with newargs := .tuple 1 [.int 0, .int 1, .int 2], elems := [.int 0, .int 1, .int 2] })]
    type_ o [] p!"object_test.NamedTuple" && elems o == some [.int 0, .int 1, .int 2]),
  ("test_thing_with_lamda", let o := trip [thing p!"" .none [(p!"fn", .lambda 1)]]; !hasAttr o p!"fn" && hasAttr o p!"child"),
  ("test_newstyleslots", let o := trip [mk p!"object_test.ThingWithSlots" (fun i => { i with attrs := [(p!"a", .bool true), (p!"b", .bool false)] })]
    at_ o [.a p!"a"] == some (.bool true) && at_ o [.a p!"b"] == some (.bool false)),
  ("test_newstyleslots_inherited", let o := trip [mk p!"object_test.ThingWithInheritedSlots" (fun i => { i with attrs := [(p!"a", .bool true), (p!"b", .bool false), (p!"c", .none)] })]
    at_ o [.a p!"a"] == some (.bool true) && at_ o [.a p!"b"] == some (.bool false) && at_ o [.a p!"c"] == some .none),
  ("test_newstyleslots_inherited_deleted_attr", let o := trip [mk p!"object_test.ThingWithInheritedSlots" (fun i => { i with attrs := [(p!"a", .bool true), (p!"b", .bool false)] })]
    at_ o [.a p!"a"] == some (.bool true) && at_ o [.a p!"b"] == some (.bool false) && !hasAttr o p!"c"),
  ("test_newstyleslots_with_children_inherited", let o := trip [mk p!"object_test.ThingWithInheritedSlots" (fun i => { i with attrs := [(p!"a", .ref 1), (p!"b", .ref 2), (p!"c", .ref 3)] }), thing p!"a", thing p!"b", thing p!"c"]
    at_ o [.a p!"a", .a p!"name"] == some (.str p!"a") && at_ o [.a p!"b", .a p!"name"] == some (.str p!"b") && at_ o [.a p!"c", .a p!"name"] == some (.str p!"c")),
  ("FailSafeTestCase.test_no_error", eq_ (trip [.list [.ref 1, .str p!"good"], mk p!"object_test.BadClass" (fun i => { i with state := .error .valueError })] (cfg := { failSafe := some (fun _ => .ok .null) })) (.arr [.null, .str p!"good"])),
  ("FailSafeTestCase.test_custom_err_msg", eq_ (trip [.list [.ref 1, .str p!"good"], mk p!"object_test.BadClass" (fun i => { i with state := .error .valueError })] (cfg := { failSafe := some (fun _ => .ok (.str p!"custom err msg")) })) (.str p!"custom err msg") [.i 0]),
  ("test_with_exclude", let o := trip [mk p!"object_test.ThingWithExclusion" (fun i => { i with attrs := [(p!"foo", .int 1), (p!"bar", .str p!"baz")], exclude := [p!"foo"] })]
    at_ o [.a p!"bar"] == some (.str p!"baz") && !hasAttr o p!"foo"),
  ("test_contained_exclusion", let o := trip [mk p!"object_test.ThingWithExcludeSubclass" (fun i => { i with attrs := [(p!"foo", .str p!"alpha"), (p!"thing", .ref 1)] }),
      mk p!"object_test.ThingWithExclusion" (fun i => { i with attrs := [(p!"foo", .int 1), (p!"bar", .int 3)], exclude := [p!"foo"] })]
    at_ o [.a p!"foo"] == some (.str p!"alpha") && !hasAttr o p!"foo" [.a p!"thing"]),
  ("test_exclude_slots", let h := [mk p!"object_test.SlotsThing" (fun i => { i with attrs := [(p!"foo", .str p!"value"), (p!"secret", .str p!"hidden")], exclude := [p!"secret"] })]
    !(keysOf (flat h)).contains p!"secret" && at_ (trip h) [.a p!"foo"] == some (.str p!"value") && !hasAttr (trip h) p!"secret"),
  ("test_exclude_getstate_from_slots", entry (flat [mk p!"object_test.SlotsGetstateThing" (fun i => { i with attrs := [(p!"foo", .str p!"value"), (p!"secret", .str p!"hidden")], exclude := [p!"secret"], state := .ok (.ref 1) }),
      .dict [(.str p!"foo", .str p!"value"), (.str p!"secret", .str p!"hidden")]]) p!"py/state" == some (.obj [(p!"foo", .str p!"value")])),
  ("test_getstate_does_not_recurse_infinitely",
    let cls := p!"object_test.GetstateRecursesInfintely"
    let h : Heap := (List.range 12).map (fun n => .inst { cls := cls, info := { ownGetstate := true }, state := .ok (.ref (n + 1)) })
    (keysOf (flat h (.ref 0) { maxDepth := some 5 })).contains p!"py/object"),
  ("HandlerTestCase.test_references", let o := trip [.dict [(.str p!"a", .ref 1), (.str p!"b", .ref 1), (.str p!"c", .ref 1)], mk p!"handler_test.CustomObject" (fun i => { i with hfields := [(p!"name", .none)] })]
    is_ o [.k (.str p!"a")] [.k (.str p!"b")] && is_ o [.k (.str p!"b")] [.k (.str p!"c")])]

/-! ### classes, registry, predicates -/

/-- object 1 is the class `jsonpickle_test.MyPropertiesSlots`, 2 `MyPropertiesDict`, 3 the class `InnerScope` -/
def iname (c : Nat) : Str :=
  if c = 1 then p!"jsonpickle_test.MyPropertiesSlots" else if c = 2 then p!"jsonpickle_test.MyPropertiesDict" else p!"jsonpickle_test.test_can_serialize_inner_classes.<locals>.InnerScope"

def loadsWith (n : Str) (arg : LoadClass.ClassesArg) (o : Option Nat) : Bool :=
  match LoadClass.loadclass modules n (LoadClass.registerClasses iname [] arg) with
  | .ok r => r == o
  | .error _ => false

/-- 0 is `CustomObject`, 1 `CustomA(CustomObject)`, 2 `CustomB(CustomA)`; handler 10 is `NullHandler`, 11 `OtherHandler`, 12 `SpecializedHandler` -/
def custom : Registry.Classes where
  iname c := if c = 0 then p!"handler_test.CustomObject" else if c = 1 then p!"handler_test.CustomA" else p!"handler_test.CustomB"
  sub c d := d ≤ c

def handlerOf (ops : List Registry.Op) (c : Nat) : Option Nat := Registry.get custom (Registry.run custom ops) (.ty c) none

/-- the classes of `util_test.py`: 100 is `MethodTestClass`, 101 `MethodTestSubclass`, 102 `DictSubclass`, 103 `ListSubclass`, 104 `Thing`, 105 `Foo` -/
def utilClasses : Classes.Table := fun c =>
  let methods : List (Str × Classes.Member) := [(p!"variable", .none), (p!"static_method", .static 1), (p!"class_method", .classm 2), (p!"bound_method", .func 3)]
  if c = 100 then { mro := [100, 0], vars := methods }
  else if c = 101 then { mro := [101, 100, 0] }
  else if c = 102 then { mro := [102, 2, 0] }
  else if c = 103 then { mro := [103, 1, 0] }
  else if c = 7 then { mro := [7, 8, 0] }
  else if c = 8 then { mro := [8, 0], vars := [(p!"__getnewargs__", .builtin 4)] }
  else if c = 0 then { mro := [0] }
  else { mro := [c, 0] }

def method (c : Nat) (n : Str) : Bool := Classes.hasMethod utilClasses { cls := c } n
def methodCls (c : Nat) (n : Str) : Bool := Classes.hasMethodCls utilClasses 106 c n
def prim (c : Nat) : Bool := Dispatch.isPrimitive { type_ := c }

/-- `MyPropertiesDict()`: the properties `arr_len` and `other_object` -/
def withProps : Heap := [
  mk p!"jsonpickle_test.Thing" (fun i => { i with attrs := [(p!"alpha", .int 1), (p!"arr", .ref 1)] }), .list [.int 1, .int 2, .int 3], thing p!"Test"]
def props : PropCfg where
  inc := true
  members a := if a = 0 then [(p!"arr_len", .raw (.int 3)), (p!"other_object", .val (.ref 2))] else []
  nonSlots a := if a = 0 then [(p!"arr_len", .raw (.int 3)), (p!"other_object", .val (.ref 2))] else []

def utilTests : List (String × Bool) := [
  ("test_load_non_fully_qualified_classes", loadsWith p!"jsonpickle_test.MyPropertiesSlots" (.dict [(.inl p!"MyPropertiesSlots", 2)]) (some 2)),
  ("test_classes_dict", loadsWith p!"jsonpickle_test.MyPropertiesSlots" (.dict [(.inr 1, 2)]) (some 2)),
  ("test_can_serialize_inner_classes", [LoadClass.ClassesArg.cls 3, .seq [.cls 3]].all (fun a =>
    loadsWith p!"jsonpickle_test.test_can_serialize_inner_classes.<locals>.InnerScope" a (some 3))),
  ("test_include_properties_dict", match Pickler.WithProps.flattenTop (world withProps) {} props 60 (.ref 0) true {} with
    | some (.ok j, _) => (keysOf (some j)).contains p!"py/property" && entry (entry (some j) p!"py/property") p!"arr_len" == some (.int 3)
      && at_ (restored j) [.a p!"alpha"] == some (.int 1) && eq_ (restored j) (.arr [.int 1, .int 2, .int 3]) [.a p!"arr"] && !hasAttr (restored j) p!"py/property"
    | _ => false),
  ("HandlerTestCase.test_invalid_class", match Registry.register custom {} (.name p!"foo") 10 false with | .error .typeError => true | _ => false),
  ("HandlerTestCase.test_base_handler", handlerOf [.reg 0 10 false] 1 == none && handlerOf [.reg 0 10 false] 2 == none
    && handlerOf [.reg 0 10 false, .reg 1 11 true] 1 == some 11 && handlerOf [.reg 0 10 false, .reg 1 11 true] 2 == some 11
    && handlerOf [.reg 0 10 false, .reg 1 11 true, .reg 2 12 false] 1 == some 11 && handlerOf [.reg 0 10 false, .reg 1 11 true, .reg 2 12 false] 2 == some 12),
  ("HandlerTestCase.test_custom_handler_with_context, test_custom_handler_without_context",
    Registry.contextArgs (some 5) (some [⟨p!"obj", .positionalOrKeyword, false⟩, ⟨p!"data", .positionalOrKeyword, false⟩, ⟨p!"handler_context", .positionalOrKeyword, false⟩]) == [(p!"handler_context", 5)]
      && Registry.contextArgs (some 5) (some [⟨p!"obj", .positionalOrKeyword, false⟩, ⟨p!"data", .positionalOrKeyword, false⟩]) == []),
  ("util_test: test_is_primitive_*", prim Classes.int && prim Classes.float && prim Classes.bool && prim Classes.noneType && prim Classes.str
    && [Classes.bytes, Classes.list, Classes.dict, Classes.tuple, Classes.set, 104].all (fun c => !prim c)),
  ("util_test: test_is_dictionary_subclass_*", !Dispatch.isDictSub utilClasses { type_ := Classes.dict } && Dispatch.isDictSub utilClasses { type_ := 102 }),
  ("util_test: test_is_sequence_subclass_*", !Dispatch.isSeqSub utilClasses { type_ := Classes.list } && Dispatch.isSeqSub utilClasses { type_ := 103 }),
  ("util_test: test_is_function_*", Dispatch.isFunction { type_ := Classes.builtinFunction } && Dispatch.isFunction { type_ := Classes.function } && Dispatch.isFunction { type_ := Dispatch.method }),
  ("util_test: test_has_method, of objects", !method 100 p!"foo" && method Classes.int p!"__getnewargs__" && method 100 p!"static_method" && !method 100 p!"variable"
    && method 100 p!"class_method" && method 100 p!"bound_method" && method 101 p!"bound_method"),
  ("util_test: test_has_method, of classes", !methodCls Classes.int p!"__getnewargs__" && methodCls 100 p!"static_method" && !methodCls 100 p!"variable"
    && methodCls 100 p!"class_method" && !methodCls 100 p!"bound_method" && !methodCls 101 p!"bound_method"),
  ("util_test: test_importable_name", LoadClass.importableName { qualname := p!"importable_name", module_ := some p!"jsonpickle.util" } == p!"jsonpickle.util.importable_name"
    && LoadClass.importableName { qualname := p!"BytesIO.readline", module_ := none, selfModule := some p!"_io" } == p!"_io.BytesIO.readline"
    && LoadClass.importableName { qualname := p!"dict", module_ := some p!"builtins" } == p!"builtins.dict")]

def tests : List (String × Bool) := baseTests ++ keyTests ++ refTests ++ protocolTests ++ objectTests ++ utilTests

theorem all_pass : tests.all (·.2) = true := by decide +kernel

end JP.RepoTests
