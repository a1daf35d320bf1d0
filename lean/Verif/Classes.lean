import Verif.Value
/-!
# Classes, their method resolution order, and the questions jsonpickle asks about them

`util.has_reduce`, `util.has_method`, `has_own_getstate` and the type predicates these use.
Simplifications: the metaclass is `type`; there are no data descriptors (properties) and no `__getattr__` under the names asked for.
-/
namespace JP.Classes
open JP

/-- a class, by number -/
abbrev CId := Nat

/-! The classes that util.py:33-63 mentions -/
def object : CId := 0
def list : CId := 1
def dict : CId := 2
def set : CId := 3
def tuple : CId := 4
def bytes : CId := 5
def str : CId := 6
def bool : CId := 7
def int : CId := 8
def float : CId := 9
def noneType : CId := 10
/-- `types.FunctionType`, which is also `types.LambdaType` -/
def function : CId := 11
/-- `types.BuiltinFunctionType`, which is also `types.BuiltinMethodType` -/
def builtinFunction : CId := 12
def defaultdict : CId := 13
def structTime : CId := 14
def moduleType : CId := 15

/-- util.py:36 `PRIMITIVES` -/
def primitives : List CId := [str, bool, int, float, noneType]

/-- util.py:44-57 `NON_REDUCIBLE_TYPES` -/
def nonReducible : List CId := [list, dict, set, tuple, object, bytes] ++ primitives ++ [function, builtinFunction]

/-- a value in `vars(cls)` -/
inductive Member
  /-- a function -/
  | func (f : Nat)
  | static (f : Nat)
  | classm (f : Nat)
  /-- a method of a builtin class -/
  | builtin (f : Nat)
  | none
  /-- anything else, with its truth value -/
  | data (x : Nat) (truth : Bool)
  deriving DecidableEq, Repr

/-- the value of `__slots__` -/
inductive Slots
  | names (ns : List Str)
  /-- a single string -/
  | text (s : Str)
  /-- a string iterator -/
  | iter
  deriving DecidableEq, Repr

structure Cls where
  /-- `cls.__mro__` -/
  mro : List CId
  vars : List (Str × Member) := []
  /-- `vars(cls)["__slots__"]` -/
  slots : Option Slots := none
  module_ : Str := p!"m"

/-- all classes of the program -/
abbrev Table := CId → Cls

/-- what a method is bound to: an instance of a class, or a class -/
inductive Self
  | inst (c : CId)
  | cls (c : CId)
  deriving DecidableEq, Repr

/-- what `getattr(obj, name)` gives -/
inductive Got
  | function (f : Nat)
  | method (f : Nat) (self : Self)
  /-- `types.BuiltinMethodType` -/
  | builtin (f : Nat)
  | none
  | data (x : Nat) (truth : Bool)
  deriving DecidableEq, Repr

/-- an object that is not a class -/
structure Instance where
  cls : CId
  /-- `obj.__dict__`; `[]` also when there is none -/
  attrs : List (Str × Got) := []

variable (t : Table)

/-- `issubclass(c, d)` -/
def issub (c d : CId) : Bool := (t c).mro.contains d

/-- the entry of the first class in the MRO that has one (`getattr(cls, name)` before binding) -/
def lookup (c : CId) (name : Str) : Option Member := (t c).mro.findSome? (fun b => dget name (t b).vars)

/-- truth value of `getattr(cls, name)` -/
def Member.truth : Member → Bool
  | .none => false
  | .data _ b => b
  | _ => true

/-- the binding of what was found in the class `c` or above it to an instance of `c` -/
def bind (c : CId) : Member → Got
  | .func f => .method f (.inst c)
  | .static f => .function f
  | .classm f => .method f (.cls c)
  | .builtin f => .builtin f
  | .none => .none
  | .data x b => .data x b

/-- `getattr(obj, name)` -/
def objGet (o : Instance) (name : Str) : Option Got :=
  match dget name o.attrs with
  | some g => some g
  | none => (lookup t o.cls name).map (bind o.cls)

/-- `obj.__slots__` (also `cls.__slots__`) -/
def slotsOf (c : CId) : Option Slots := (t c).mro.findSome? (fun b => (t b).slots)

def isSlotsIter (c : CId) : Bool := match slotsOf t c with
  | some .iter => true
  | _ => false

/-- util.py:296-297 `_is_list_like` of an object -/
def isListLike (o : Instance) : Bool := (objGet t o p!"__getitem__").isSome && (objGet t o p!"append").isSome

/-- util.py:296-297 `_is_list_like` of a class -/
def isListLikeCls (c : CId) : Bool := (lookup t c p!"__getitem__").isSome && (lookup t c p!"append").isSome

/-- util.py:315-332 `_is_reducible` of an object that is not a class, with util.py:304-312 `_is_collections` and `_is_reducible_sequence_subclass` -/
def isReducible (o : Instance) : Bool :=
  if (t o.cls).module_ = p!"collections" && !issub t o.cls defaultdict then true
  else !(nonReducible.contains o.cls
    || (issub t o.cls dict && o.cls != dict)
    || issub t o.cls moduleType
    || (issub t o.cls list || issub t o.cls set || issub t o.cls tuple)
    || isListLike t o
    || isSlotsIter t o.cls)

/-- util.py:315-332 `_is_reducible` of a class: its type is `type`, so most of the tests are false -/
def isReducibleCls (c : CId) : Bool :=
  !(c == object || isListLikeCls t c || isSlotsIter t c || (t c).module_ = p!"datetime")

/-- `key in text` -/
def isInfix (key : Str) : Str → Bool
  | [] => key.isEmpty
  | c :: r => startsWith (c :: r) key || isInfix key r

/-- util.py:358-363 `in_dict` of an object -/
def inDict (o : Instance) (key : Str) : Bool := dhas key o.attrs

/-- util.py:366-371 `in_slots` -/
def inSlots (o : Instance) (key : Str) : Bool := match slotsOf t o.cls with
  | some (.names ns) => ns.contains key
  | some (.text s) => !s.isEmpty && isInfix key s
  | _ => false

def REDUCE : Str := p!"__reduce__"
def REDUCE_EX : Str := p!"__reduce_ex__"

/-- util.py:402-407: the loop over the MRO -/
def mroLoop (r rx : Bool) : List CId → Bool × Bool
  | [] => (r, rx)
  | b :: bs =>
    let r := if isReducibleCls t b then r || dhas REDUCE (t b).vars else r
    let rx := if isReducibleCls t b then rx || dhas REDUCE_EX (t b).vars else rx
    if r && rx then (r, rx) else mroLoop r rx bs

/-- util.py:411-422: `getattr` of the class, unless it was found already -/
def fallback (c : CId) (name : Str) (found : Bool) : Bool :=
  if found then true
  else match lookup t c name with
    | none => false
    | some m => if lookup t object name = some m then false else m.truth

/-- util.py:374-424 `has_reduce` of an object that is not a class (for a class the result is `(False, False)`) -/
def hasReduce (o : Instance) : Bool × Bool :=
  if !isReducible t o then (false, false)
  else if o.cls = structTime then (false, true)
  else
    let p := mroLoop t (inDict o REDUCE || inSlots t o REDUCE) (inDict o REDUCE_EX || inSlots t o REDUCE_EX) (t o.cls).mro
    (fallback t o.cls REDUCE p.1, fallback t o.cls REDUCE_EX p.2)

/-- util.py:107-112: the first entry in the MRO that is not `None` -/
def original (c : CId) (name : Str) : Option Member := (t c).mro.findSome? (fun b => match dget name (t b).vars with
  | some .none => none
  | x => x)

/-- util.py:88-135 `has_method` of an object that is not a class -/
def hasMethod (o : Instance) (name : Str) : Bool :=
  match objGet t o name with
  | none => false
  | some (.builtin _) => true
  | some (.function _) => (match original t o.cls name with
    | some (.static _) => true
    | _ => false)
  | some (.method _ self) => (match original t o.cls name, self with
    | none, _ => false
    | some (.static _), _ => true
    | some (.classm _), .cls c => issub t o.cls c
    | some (.classm _), .inst _ => false
    | some _, .inst c => issub t o.cls c
    | some _, .cls _ => false)
  | _ => false

/-- the binding of what was found in the class `c` or above it to `c` itself: functions stay functions, methods of builtin classes become descriptors -/
def bindCls (c : CId) : Member → Got
  | .func f => .function f
  | .static f => .function f
  | .classm f => .method f (.cls c)
  | .builtin f => .data f true
  | .none => .none
  | .data x b => .data x b

/-- the binding of what was found in the metaclass `mt` to the class `c` -/
def bindMeta (mt c : CId) : Member → Got
  | .func f => .method f (.cls c)
  | .static f => .function f
  | .classm f => .method f (.cls mt)
  | .builtin f => .builtin f
  | .none => .none
  | .data x b => .data x b

/-- `getattr(cls, name)` for a class whose metaclass is `mt` -/
def clsGet (mt c : CId) (name : Str) : Option Got :=
  match lookup t c name with
  | some m => some (bindCls c m)
  | none => (lookup t mt name).map (bindMeta mt c)

/-- util.py:88-135 `has_method` of a class whose metaclass is `mt` -/
def hasMethodCls (mt c : CId) (name : Str) : Bool :=
  match clsGet t mt c name with
  | none => false
  | some (.builtin _) => true
  | some (.function _) => (match original t c name with
    | some (.static _) => true
    | _ => false)
  | some (.method _ self) => (match original t c name, self with
    | none, _ => false
    | some (.static _), _ => true
    | some (.classm _), .cls d => issub t c d
    | some (.classm _), .inst _ => false
    | some _, .inst d => issub t mt d
    | some _, .cls _ => true)
  | _ => false

/-- pickler.py:620-622 `has_own_getstate`; before Python 3.11 `object` has no `__getstate__` -/
def ownGetstate (c : CId) : Bool :=
  match lookup t c p!"__getstate__" with
  | none => false
  | some m => match lookup t object p!"__getstate__" with
    | some m' => m != m'
    | none => m != .none

end JP.Classes
