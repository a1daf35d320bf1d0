import Verif.Basic
/-!
# Python values, heaps, classes and JSON documents

The state space of the model.  Modelled objects are those jsonpickle distinguishes.
-/
namespace JP

abbrev Addr := Nat
abbrev Bytes := List UInt8

/-- A Python value as seen through a variable.

* Immutable scalars carry no identity (jsonpickle never looks at it).
* `bytes`, `bytearray`, `tuple`, `set` are inline and carry their `id()` as a label: jsonpickle does
  not register them in its reference tables (pickler.py:393-404, 942-949), so they need no heap cell,
  but the label lets us speak about their identity and about the id-keyed cache (pickler.py:345-348).
* `type`, `func`, `module` are global objects known by their dotted name (`module` also stands for any
  other module-level object found by name); `lambda` is a function that is not reachable by name.
* `ref a` is a list, dict or instance living in heap cell `a`. -/
inductive Val
  | none
  | bool (b : Bool)
  | int (i : Int)
  | float (bits : UInt64)
  | str (s : Str)
  | bytes (id : Nat) (b : Bytes)
  | bytearray (id : Nat) (b : Bytes)
  | tuple (id : Nat) (xs : List Val)
  | set (id : Nat) (xs : List Val)
  | type (name : Str)
  | func (name : Str)
  | lambda (id : Nat)
  | module (name : Str)
  | ref (a : Addr)
  deriving Repr, Inhabited

/-- a value of a builtin type without parts -/
inductive ScalarKey
  | none
  | bool (b : Bool)
  | int (i : Int)
  | float (bits : UInt64)
  | str (s : Str)
  deriving Repr, DecidableEq, Inhabited

/-- The key under which the id-indexed tables know an object (`id(obj)` in the code).
`dictOf a` is `id(obj.__dict__)` of the instance in cell `a` (pickler.py:923); `stateOf a` is the
filtered copy of its state made at pickler.py:725.  `scalar` is for scalars: they reach the tables only where a name in the document leads to one
(unpickler.py:613-623: `None` if there is no such module, `py/repr` with `math/math.pi`).  Simplification: equal scalars of one type are one object. -/
inductive Ident
  | addr (a : Addr)
  | dictOf (a : Addr)
  | inl (id : Nat)
  | stateOf (a : Addr)
  | mod (name : Str)
  | glob (name : Str)
  | scalar (k : ScalarKey)
  deriving Repr, DecidableEq, Inhabited

/-- `id(v)`. -/
def Val.ident : Val → Ident
  | .none => .scalar .none
  | .bool b => .scalar (.bool b)
  | .int i => .scalar (.int i)
  | .float f => .scalar (.float f)
  | .str s => .scalar (.str s)
  | .bytes i _ | .bytearray i _ | .tuple i _ | .set i _ | .lambda i => .inl i
  | .type n | .func n => .glob n
  | .module n => .mod n
  | .ref a => .addr a

/-- the identity of a scalar -/
def Ident.isScalar : Ident → Bool
  | .scalar _ => true
  | _ => false

/-- Which builtin container a class derives from. -/
inductive Base | plain | dict | list | set | tuple
  deriving Repr, DecidableEq, Inhabited

/-- What jsonpickle can observe about a class (see pickler.py:608-633, unpickler.py:813-872). -/
structure ClassInfo where
  /-- `cls.__name__` -/
  shortName : Str := []
  /-- which builtin container the class derives from -/
  base : Base := .plain
  /-- instances have a `__dict__` -/
  hasDict : Bool := true
  /-- the class has a `__slots__` attribute -/
  hasSlots : Bool := false
  /-- `chain(*allslots)` over the MRO (pickler.py:569-578) -/
  slots : List Str := []
  /-- `has_own_getstate` (pickler.py:620-622) -/
  ownGetstate : Bool := false
  hasSetstate : Bool := false
  hasNewargs : Bool := false
  hasNewargsEx : Bool := false
  hasInitargs : Bool := false
  /-- `has_reduce or has_reduce_ex` (pickler.py:615) -/
  reduces : Bool := false
  isEnum : Bool := false
  /-- instances satisfy `util._is_iterator` -/
  isIterator : Bool := false
  /-- `len(cls._fields)` when the class has `_fields` (unpickler.py:240) -/
  numFields : Option Nat := none
  /-- `cls.__new__(cls, *args)` accepts that many positional arguments (else `TypeError`) -/
  newAccepts : Nat → Bool := fun _ => true
  /-- `cls(*args)` accepts that many positional arguments (else `TypeError`) -/
  callAccepts : Nat → Bool := fun _ => true
  /-- `make_blank_classic(cls)` succeeds (unpickler.py:251-259) -/
  blankOk : Bool := true
  /-- instances have a method `extend`, `append`, `__setitem__` of their own; those of the builtin containers are
  in `canExtend`, `canAppend`, `canSetitem` -/
  hasExtend : Bool := false
  hasAppend : Bool := false
  hasSetitem : Bool := false
  deriving Inhabited

/-- What `obj.__reduce__()`/`obj.__reduce_ex__(2)` gives (pickler.py:586-600).
* `nothing`: `None`.
* `str v`: a string naming a global; `v` is the object that the path denotes after *one* attribute
  lookup (pickler.py:651-660: the `return` sits inside the loop), `none` when the first component is
  not a loaded module or there is no second component.  (A failing `getattr` is not modelled.)
* `tup xs`: the reduce tuple, with elements 3 and 4 already turned into tuples when truthy
  (pickler.py:686-690).
* `raise e`: the call raises `e`. -/
inductive ReduceVal
  | nothing
  | str (target : Option Val)
  | tup (xs : List Val)
  | raise (e : Exc)
  deriving Repr, Inhabited

def ClassInfo.canExtend (c : ClassInfo) : Bool := c.hasExtend || c.base == .list
def ClassInfo.canAppend (c : ClassInfo) : Bool := c.hasAppend || c.base == .list
def ClassInfo.canSetitem (c : ClassInfo) : Bool := c.hasSetitem || c.base == .list || c.base == .dict

/-- What is done to an object after it was made from a reduce value (unpickler.py:554-592).
* `setstate st`: `obj.__setstate__(st)`
* `setDict st`: `obj.__dict__ = st`
* `setattr k v`: `setattr(obj, k, v)`
* `setter f st`: `f(obj, st)`
* `extend xs`, `append x`, `setitem k v`: the methods of these names -/
inductive Op
  | setstate (st : Val)
  | setDict (st : Val)
  | setattr (k : Str) (v : Val)
  | setter (f st : Val)
  | extend (xs : List Val)
  | append (x : Val)
  | setitem (k v : Val)
  deriving Repr, Inhabited

/-- Exceptions from user code that the encoder calls for an object; `none`: the call returns.
`handler`: the handler's `flatten` raises after it has written the `hfields`.  `iter`: `__next__` raises after the `elems`. -/
structure Errs where
  newargs : Option Exc := none
  newargsEx : Option Exc := none
  initargs : Option Exc := none
  handler : Option Exc := none
  factory : Option Exc := none
  iter : Option Exc := none
  deriving Repr, DecidableEq, Inhabited

/-- the outcome of a call that returns `v` unless it raises -/
def outcome {α : Type} (e : Option Exc) (v : α) : Except Exc α :=
  match e with
  | none => .ok v
  | some e => .error e

/-- An instance.  The same record describes an original object (what its protocol methods return) and
a reconstructed one (with what the protocol methods were called). -/
structure Inst where
  /-- `util.importable_name(obj.__class__)` -/
  cls : Str := []
  info : ClassInfo := {}
  /-- `obj.__dict__` (for slots classes: the attributes that are set, under the names that `getattr`
  finds them) -/
  attrs : List (Str × Val) := []
  /-- `some d`: the `__dict__` is the dict object in cell `d`, and `attrs` is unused -/
  dictCell : Option Addr := none
  /-- entries, for dict subclasses -/
  items : List (Val × Val) := []
  /-- elements, for list/set/tuple subclasses; remaining items, for iterators -/
  elems : List Val := []
  /-- result of `__getnewargs__()` / arguments given to `__new__` -/
  newargs : Val := .tuple 0 []
  /-- result of `__getnewargs_ex__()`: positional (tuple) and keyword (dict) arguments -/
  newargsEx : Val × Val := (.none, .none)
  /-- result of `__getinitargs__()` -/
  initargs : Val := .none
  /-- rebuilt by calling the class rather than `__new__` (unpickler.py:851) -/
  viaCall : Bool := false
  /-- result of `__getstate__()` / argument given to `__setstate__` -/
  state : Except Exc Val := .ok .none
  /-- result of the reduce protocol / recipe the object was rebuilt from -/
  reduce : ReduceVal := .nothing
  /-- `set(getattr(obj, "_jsonpickle_exclude", ()))` -/
  exclude : List Str := []
  /-- `obj.default_factory` when callable, and what calling it returns (pickler.py:893-919) -/
  factory : Option Val := none
  exemplar : Val := .none
  /-- names of `dir(obj)` not starting or ending with `__`, with their values (slots fallback,
  pickler.py:579-582) -/
  dirAttrs : List (Str × Val) := []
  /-- what a registered handler writes for / reads back for this object; for an iterator made by
  `iter(list)`, the list -/
  hfields : List (Str × Val) := []
  /-- `obj == obj.__dict__` for a dict subclass (pickler.py:922) -/
  eqOwnDict : Bool := false
  /-- what was done to the object after it was made from a reduce value, in this order -/
  ops : List Op := []
  errs : Errs := {}
  deriving Inhabited

/-- A heap cell.  `proxy`/`idproxy` are the unpickler's placeholders (unpickler.py:142-190). -/
inductive Obj
  | list (xs : List Val)
  | dict (kvs : List (Val × Val))
  | inst (i : Inst)
  | proxy (target : Option Val)
  | idproxy (idx : Int)
  deriving Inhabited

abbrev Heap := List Obj

/-- A JSON document, i.e. the nested Python lists/dicts/scalars exchanged with the backend. -/
inductive Json
  | null
  | bool (b : Bool)
  | int (i : Int)
  | float (bits : UInt64)
  | str (s : Str)
  | arr (xs : List Json)
  | obj (kvs : List (Str × Json))
  deriving Repr, Inhabited

/-! ### Python equality and hashing of dictionary keys / set members -/

/-- The exact integer value of a binary64, if it is integral (used for `1 == 1.0`). -/
def floatInt (bits : UInt64) : Option Int :=
  let n := bits.toNat
  let neg := n / 2 ^ 63 == 1
  let e := (n / 2 ^ 52) % 2048
  let m := n % 2 ^ 52
  if e == 2047 then none
  else
    let mant := if e == 0 then m else m + 2 ^ 52
    let ex := if e == 0 then 1 else e
    if 1075 ≤ ex then
      let v : Int := Int.ofNat (mant * 2 ^ (ex - 1075))
      some (if neg then -v else v)
    else if (mant % 2 ^ (1075 - ex)) == 0 then
      let v : Int := Int.ofNat (mant / 2 ^ (1075 - ex))
      some (if neg then -v else v)
    else none

def floatIsNan (bits : UInt64) : Bool :=
  let n := bits.toNat
  (n / 2 ^ 52) % 2048 == 2047 && n % 2 ^ 52 != 0

/-- The value of a bool/int/float as a key: integral values coincide across the three types. -/
def Val.numKey : Val → Option (Sum Int UInt64)
  | .bool b => some (.inl (if b then 1 else 0))
  | .int i => some (.inl i)
  | .float f => match floatInt f with
    | some i => some (.inl i)
    | Option.none => some (.inr f)
  | _ => Option.none

mutual
/-- `a is b or a == b` for hashable values, which is what dicts and sets ask.  Instances compare by identity (classes with
their own `__eq__` are outside the model).  `json` gives the same object for every `NaN` in a text, so NaNs count as the same key. -/
def pyEq : Val → Val → Bool
  | .none, .none => true
  | .str a, .str b => a == b
  | .bytes _ a, .bytes _ b => a == b
  | .tuple _ xs, .tuple _ ys => pyEqs xs ys
  | .type a, .type b => a == b
  | .func a, .func b => a == b
  | .lambda a, .lambda b => a == b
  | .module a, .module b => a == b
  | .ref a, .ref b => a == b
  | .float a, .float b => (floatIsNan a && floatIsNan b) || (Val.float a).numKey == (Val.float b).numKey
  | .bool a, .bool b => a == b
  | .int a, .int b => a == b
  | .bool a, .int b => (if a then 1 else 0) == b
  | .int a, .bool b => a == (if b then 1 else 0)
  | .bool a, .float b => some (if a then 1 else 0) == floatInt b
  | .float a, .bool b => floatInt a == some (if b then 1 else 0)
  | .int a, .float b => some a == floatInt b
  | .float a, .int b => floatInt a == some b
  | _, _ => false
def pyEqs : List Val → List Val → Bool
  | [], [] => true
  | x :: xs, y :: ys => pyEq x y && pyEqs xs ys
  | _, _ => false
end

mutual
/-- `hash(v)` does not raise `TypeError`.  Lists, dicts, sets, bytearrays and instances of subclasses
of dict/list/set are unhashable. -/
def hashable (h : Heap) : Val → Bool
  | .set _ _ | .bytearray _ _ => false
  | .tuple _ xs => hashables h xs
  | .ref a => match h[a]? with
    | some (.inst i) => i.info.base == .plain || i.info.base == .tuple
    | some (.proxy _) | some (.idproxy _) => true
    | _ => false
  | _ => true
def hashables (h : Heap) : List Val → Bool
  | [] => true
  | x :: xs => hashable h x && hashables h xs
end

/-- `bool(v)`.  Instances without container contents are truthy (no user `__bool__`/`__len__`). -/
def truthy (h : Heap) : Val → Bool
  | .none => false
  | .bool b => b
  | .int i => i != 0
  | .float f => floatInt f != some 0
  | .str s => !s.isEmpty
  | .bytes _ b | .bytearray _ b => !b.isEmpty
  | .tuple _ xs | .set _ xs => !xs.isEmpty
  | .ref a => match h[a]? with
    | some (.list xs) => !xs.isEmpty
    | some (.dict kvs) => !kvs.isEmpty
    | some (.inst i) => match i.info.base with
      | .plain => true
      | .dict => !i.items.isEmpty
      | _ => !i.elems.isEmpty
    | _ => true
  | _ => true

/-- `d[k] = v` on a Python dict with arbitrary hashable keys. -/
def vset (k v : Val) : List (Val × Val) → List (Val × Val)
  | [] => [(k, v)]
  | (k', v') :: r => if pyEq k' k then (k', v) :: r else (k', v') :: vset k v r

/-- `s.add(x)`. -/
def sadd (x : Val) (s : List Val) : List Val :=
  if s.any (fun y => pyEq y x) then s else s ++ [x]

end JP
