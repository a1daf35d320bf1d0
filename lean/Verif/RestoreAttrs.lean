import Verif.Basic
import Verif.Tags
/-!
# `Unpickler._restore_from_dict` on all kinds of objects — models unpickler.py:682-759

`Unpickler.lean` has this function for ordinary instances and dict subclasses.  Here the object is what its `__setattr__`, `__setitem__` and class do (`Target`):
frozen dataclasses, read-only attributes, immutable mappings, attributes that need an underscore.  Simplifications: the values of the document are restored by a
function (the state of the Unpickler is not threaded through); `isinstance(value, _Proxy)` is a parameter.
-/
namespace JP.RestoreAttrs
open JP

/-- exceptions told apart at unpickler.py:714-736 (`FrozenInstanceError` is an `AttributeError`) -/
inductive Err
  | keyError
  | frozen
  | attributeError
  | typeError
  | other
  deriving DecidableEq, Repr

/-- a key of `obj`: a str, or something else (a state dict, or `keys=True`) -/
inductive Key
  | str (s : Str)
  | other (n : Nat)
  deriving DecidableEq, Repr

/-- the object that is filled, in state `σ`, holding values of type `V` -/
structure Target (σ V : Type) where
  /-- `util._is_noncomplex(instance) or util._is_dictionary_subclass(instance)` (util.py:211-217) -/
  mapping : Bool
  /-- `setattr(instance, k, value)` -/
  setattr : Str → V → σ → Except Err σ
  /-- `object.__setattr__(instance, k, value)` -/
  objSetattr : Str → V → σ → Except Err σ
  /-- `instance[k] = value` -/
  setitem : Key → V → σ → Except Err σ
  /-- `instance.__class__(deferred)` -/
  build : List (Key × V) → Except Err σ
  /-- `deferred[k] = value` works -/
  hashable : Key → Bool
  /-- `hasattr(instance, "__slots__") and not len(instance.__slots__) and issubclass(instance.__class__, (int, str))` -/
  bare : Bool
  /-- `instance.__class__.__name__` -/
  name : Str

/-- the arguments and options: `self.handle_readonly`, `ignorereserved`, what `restore_key` and `self._restore` do (both the identity if `restore_dict_items`
is false), `isinstance(value, _Proxy)` -/
structure Opts (J V : Type) where
  handleReadonly : Bool
  ignoreReserved : Bool
  key : Key → Except Err Key
  value : J → Except Err V
  isProxy : V → Bool

/-- the variables of the loop: the object, `deferred`, `self._namestack` (the last name first), what was appended to `self._proxies` -/
structure Loop (σ V : Type) where
  obj : σ
  deferred : List (Key × V) := []
  names : List Key := []
  proxies : List (Key × V) := []

variable {σ J V : Type}

/-- `k.startswith("__")`; only a str has it -/
def dunder : Key → Except Err Bool
  | .str s => .ok (s.take 2 == p!"__")
  | .other _ => .error .attributeError

/-- the text of `k`, where it is known to be a str -/
def Key.text : Key → Str
  | .str s => s
  | .other _ => []

/-- what becomes of one entry (unpickler.py:711-746): stored, deferred (717-719: `continue` after `pop`), skipped (741: `continue` without `pop`) -/
inductive Done (σ : Type)
  | stored (obj : σ)
  | deferred
  | ignored
  | skipped

/-- unpickler.py:711-719 -/
def setEntry (t : Target σ V) (k : Key) (v : V) (obj : σ) : Except Err (Done σ) :=
  let r := if k = .str p!"__dict__" then t.setattr p!"__dict__" v obj else t.setitem k v obj
  match r with
  | .ok obj => .ok (.stored obj)
  | .error .typeError =>
    if k = .str p!"__dict__" then .ok .ignored
    else if t.hashable k then .ok .deferred
    else .error .typeError
  | .error e => .error e

/-- unpickler.py:721-746 -/
def setAttr (t : Target σ V) (readonly : Bool) (k : Key) (v : V) (obj : σ) : Except Err (Done σ) :=
  match dunder k with
  | .error e => .error e
  | .ok true => (t.setattr (p!"_" ++ t.name ++ k.text) v obj).map .stored
  | .ok false =>
    match t.setattr k.text v obj with
    | .ok obj => .ok (.stored obj)
    | .error .keyError => (t.setattr (p!"_" ++ k.text) v obj).map .stored
    | .error .frozen => (t.objSetattr k.text v obj).map .stored
    | .error .attributeError => if t.bare && readonly then .ok .skipped else .error .attributeError
    | .error e => .error e

/-- one turn of the loop (unpickler.py:693-753) -/
def turn (o : Opts J V) (t : Target σ V) (l : Loop σ V) (e : Key × J) : Except Err (Loop σ V) :=
  if o.ignoreReserved && Tags.RESERVED.contains e.1.text then .ok l
  else do
    let k ← o.key e.1
    let v ← o.value e.2
    let names := e.1 :: l.names
    let d ← if t.mapping then setEntry t k v l.obj else setAttr t o.handleReadonly k v l.obj
    match d with
    | .stored obj => .ok { l with obj := obj, proxies := if o.isProxy v then l.proxies ++ [(k, v)] else l.proxies }
    | .deferred => .ok { l with deferred := dset k v l.deferred }
    | .ignored => .ok l
    | .skipped => .ok { l with names := names }

/-- the loop (unpickler.py:693-753) -/
def turns (o : Opts J V) (t : Target σ V) : Loop σ V → List (Key × J) → Except Err (Loop σ V)
  | l, [] => .ok l
  | l, e :: es => do
    let l ← turn o t l e
    turns o t l es

/-- the object that is returned: the given one, changed, or another one made in its place -/
inductive Object (σ : Type)
  | same (obj : σ)
  | another (obj : σ)
  deriving DecidableEq, Repr

/-- unpickler.py:682-759, with the names pushed and not popped and the placeholders noted -/
def restoreFromDict (o : Opts J V) (t : Target σ V) (obj : σ) (es : List (Key × J)) : Except Err (Object σ × List Key × List (Key × V)) := do
  let l ← turns o t { obj := obj } es
  match l.deferred with
  | [] => .ok (.same l.obj, l.names, l.proxies)
  | d => (t.build d).map (fun x => (.another x, l.names, l.proxies))

end JP.RestoreAttrs
