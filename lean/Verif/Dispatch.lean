import Verif.Classes
import Verif.Pickler
/-!
# Which way an object is written

The type predicates of util.py and the decisions of `_flatten_impl`, `_get_flattener` and `_flatten_obj_instance` that are made with them, for objects
whose classes are given by a table (`Verif/Classes.lean`).  An object has a type, and may claim to have another class (`obj.__class__` is a property of
mock objects and proxies); `isinstance` believes either.

Simplifications: `obj.__class__` exists (`hasattr(obj, "__class__")` is true of every object unless reading it raises); the module `enum` is loaded;
`repr` of a callable does not raise (see `Verif/Probe.lean` for this).
-/
namespace JP.Dispatch
open JP Classes

/-! Further classes -/
def bytearray : CId := 16
/-- `type` -/
def typeC : CId := 17
/-- `types.MethodType` -/
def method : CId := 18
/-- `enum.Enum` -/
def enumC : CId := 19
/-- `io.IOBase` -/
def ioBase : CId := 20
/-- `collections.abc.Iterator` -/
def iterator : CId := 21
/-- `decimal.Decimal` -/
def decimal : CId := 22

/-- an object, as far as the predicates look at it -/
structure PyObj where
  /-- `type(obj)` -/
  type_ : CId
  /-- `obj.__class__` -/
  cls : CId := type_
  /-- `obj.__name__`, if it has one -/
  name : Option Str := none
  /-- `hasattr(obj, "__module__")` -/
  hasModule : Bool := true
  /-- callable, and its `repr` starts with `<cyfunction ` -/
  cython : Bool := false
  /-- `hasattr(obj, "__dict__")` -/
  hasDict : Bool := true
  /-- `hasattr(obj, "__slots__")` -/
  hasSlots : Bool := false

variable (t : Table)

/-- `isinstance(obj, c)` -/
def isinst (o : PyObj) (c : CId) : Bool := issub t o.type_ c || issub t o.cls c

/-- util.py:72-86 `_is_type` -/
def isType (o : PyObj) : Bool := isinst t o typeC

/-- util.py:136-149 `_is_object` -/
def isObject (o : PyObj) : Bool := !(isinst t o typeC || isinst t o function || isinst t o builtinFunction)

/-- util.py:58-64, 152-156 `_is_not_class` -/
def isNotClass (o : PyObj) : Bool := ([list, dict, set, tuple, bytes] ++ primitives).contains o.type_

/-- util.py:160-170 `_is_primitive` -/
def isPrimitive (o : PyObj) : Bool := primitives.contains o.type_

/-- util.py:173-175 `_is_enum` -/
def isEnum (o : PyObj) : Bool := isinst t o enumC

/-- util.py:178-191 `_is_dictionary_subclass` -/
def isDictSub (o : PyObj) : Bool := issub t o.cls dict && o.type_ != dict

/-- util.py:194-208 `_is_sequence_subclass` -/
def isSeqSub (o : PyObj) : Bool := (issub t o.cls list || issub t o.cls set || issub t o.cls tuple) && ![list, set, tuple].contains o.type_

/-- util.py:37-43, 220-236 `_is_function` -/
def isFunction (o : PyObj) : Bool := [function, method, builtinFunction].contains o.type_

/-- util.py:239-257 `_is_module_function`, with 335-341 `_is_cython_function` -/
def isModuleFunction (o : PyObj) : Bool :=
  ((isinst t o function || isinst t o builtinFunction) && o.hasModule && (match o.name with
    | none => false
    | some n => n != p!"<lambda>")) || o.cython

/-- util.py:260-277 `_is_picklable` -/
def isPicklable (name : Val) (o : PyObj) : Bool :=
  !(match name with
    | .str s => Tags.isReserved s
    | _ => false) && (isModuleFunction t o || !isFunction o)

/-- `issubclass(c, Iterator)`: `Iterator` is a base class, or the methods are there (`Iterator.__subclasshook__`) -/
def subIterator (c : CId) : Bool :=
  issub t c iterator || ((lookup t c p!"__iter__").any (· != .none) && (lookup t c p!"__next__").any (· != .none))

/-- util.py:300-301 `_is_iterator` -/
def isIterator (o : PyObj) : Bool := (subIterator t o.type_ || subIterator t o.cls) && !isinst t o ioBase

/-- the ways to write an object -/
inductive Route
  | bytes | primitive | bytearray | list | dict | tuple | set | function | instance | type | refused
  deriving DecidableEq, Repr

/-- pickler.py:388-408 `_flatten_impl` and 932-962 `_get_flattener`.  (The object was not written before, and there is no cycle and no limit.)
`dec` is the option `use_decimal`. -/
def route (dec : Bool) (o : PyObj) : Route :=
  if o.type_ = Classes.bytes then .bytes
  else if primitives.contains o.type_ || (dec && isinst t o decimal) then .primitive
  else if o.type_ = Dispatch.bytearray then .bytearray
  else if o.type_ = Classes.list ∨ o.type_ = Classes.dict then
    if o.type_ = Classes.list then .list else .dict
  else if o.type_ = Classes.tuple ∨ o.type_ = Classes.set then
    if o.type_ = Classes.tuple then .tuple else .set
  else if isModuleFunction t o then .function
  else if isObject t o then .instance
  else if isType t o then .type
  else .refused

/-- what `_flatten_obj_instance` writes when there is no handler, no reduce value and no state -/
inductive Shape
  | module | entries | elements | iterator | attributes | slots | nothing
  deriving DecidableEq, Repr

/-- pickler.py:729-762 of `_flatten_obj_instance` -/
def shape (o : PyObj) : Shape :=
  if isinst t o moduleType then .module
  else if isDictSub t o then .entries
  else if isSeqSub t o then .elements
  else if isIterator t o then .iterator
  else if o.hasDict then
    if isSeqSub t o then .elements
    else .attributes
  else if !o.hasDict && o.hasSlots then .slots
  else .nothing

/-- the container that a class derives from -/
def baseOf (o : PyObj) : Base :=
  if issub t o.cls dict then .dict
  else if issub t o.cls list then .list
  else if issub t o.cls set then .set
  else if issub t o.cls tuple then .tuple
  else .plain

/-- the facts about the class that the encoder asks for at this point -/
def infoOf (o : PyObj) : ClassInfo :=
  { base := baseOf t o, hasDict := o.hasDict, hasSlots := o.hasSlots, isIterator := isIterator t o, isEnum := isEnum t o }

/-! ### vocabulary of the statements -/

/-- the object does not claim another class than its own -/
def Honest (o : PyObj) : Prop := o.cls = o.type_

/-- The types of which only direct instances, and no instances of subclasses, have a notation of their own -/
def special : List CId := [Classes.bytes, str, bool, int, float, noneType, Dispatch.bytearray, Classes.list, Classes.dict, Classes.tuple, Classes.set]

/-- Facts about the classes of a Python program: a class is in its own MRO; the function types cannot be subclassed; they and the special types
are not metaclasses. -/
structure Sound : Prop where
  self : ∀ c, issub t c c = true
  function : ∀ c, issub t c Classes.function = true → c = Classes.function
  builtin : ∀ c, issub t c builtinFunction = true → c = builtinFunction
  notMeta : ∀ c ∈ Classes.function :: builtinFunction :: special, issub t c typeC = false

/-- a number for `use_decimal` -/
def Number (dec : Bool) (o : PyObj) : Prop := dec = true ∧ isinst t o decimal = true

/-- a function that can be found by its name -/
def Named (o : PyObj) : Prop := o.hasModule = true ∧ ∃ n, o.name = some n ∧ n ≠ p!"<lambda>"

end JP.Dispatch
