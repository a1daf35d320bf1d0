import Verif.Basic
/-!
# `jsonpickle/backend.py`: JSON backend management
-/
namespace JP.Backend
open JP

/-- Exceptions that can come out of a backend call.  `user n isExc`: raised by the backend itself
(`isExc` = it is an `Exception`, not merely a `BaseException`). -/
inductive E
  | user (n : Nat) (isExc : Bool)
  | keyError | indexError | assertionError
  deriving Repr, DecidableEq

def E.isException : E → Bool
  | .user _ b => b
  | _ => true

/-- Positional and keyword options of an encoder/decoder. -/
abbrev Opts := List Nat × List (Str × Nat)

/-- Behaviour of the external encode/decode functions (numbered), and `isinstance(exc, cls)`.
Documents and texts are numbered as well: this module never looks inside them. -/
structure World where
  enc : Nat → Nat → Opts → Except E Nat
  dec : Nat → Nat → Opts → Except E Nat
  matches_ : E → Nat → Bool

/-- What the import machinery finds for `load_backend(name, dumps, loads, loads_exc)`:
the module cannot be imported (or a dotted submodule is missing), or it is found and each of the
requested attributes exists or not.  A `loads_exc` given as a class is always present. -/
inductive Found
  | noModule
  | module (dumps loads exc : Option Nat)
  deriving Repr, DecidableEq

/-- backend.py:76-96, the fields set by `JSONBackend.__init__`. -/
structure St where
  fallthrough : Bool := true
  names : List Str := []
  encoders : List (Str × Nat) := []
  decoders : List (Str × Nat) := []
  encOpts : List (Str × Opts) := []
  decOpts : List (Str × Opts) := []
  decExc : List (Str × Nat) := []
  verified : Bool := false
  deriving Repr, DecidableEq

/-- backend.py:202-211, `remove_backend`: pops the tables, removes the *first* occurrence of the name. -/
def removeBackend (st : St) (n : Str) : St :=
  let names := st.names.erase n
  { st with
    encoders := ddel n st.encoders, decoders := ddel n st.decoders, decExc := ddel n st.decExc,
    decOpts := ddel n st.decOpts, encOpts := ddel n st.encOpts,
    names := names, verified := !names.isEmpty }

/-- `dict.setdefault(name, ([], {}))` -/
def setdefault (n : Str) (o : List (Str × Opts)) : List (Str × Opts) :=
  if dhas n o then o else dset n ([], []) o

/-- backend.py:138-200, `load_backend` with `_store` (backend.py:128-136) inlined: a missing attribute
removes the backend and gives `False`. -/
def loadBackend (st : St) (n : Str) : Found → St × Bool
  | .noModule => (st, false)
  | .module none _ _ => (removeBackend st n, false)
  | .module (some d) none _ => (removeBackend { st with encoders := dset n d st.encoders } n, false)
  | .module (some d) (some l) none =>
    (removeBackend { st with encoders := dset n d st.encoders, decoders := dset n l st.decoders } n, false)
  | .module (some d) (some l) (some x) =>
    ({ st with
       encoders := dset n d st.encoders, decoders := dset n l st.decoders,
       decExc := dset n x st.decExc,
       encOpts := setdefault n st.encOpts, decOpts := setdefault n st.decOpts,
       names := st.names ++ [n], verified := true }, true)

/-- backend.py:234-257, `set_preferred_backend`. -/
def setPreferred (st : St) (n : Str) : Except E St :=
  if n ∈ st.names then .ok { st with names := n :: st.names.erase n } else .error .assertionError

/-- `([], {"sort_keys": False})` (0 stands for `False`). -/
def jsonOpts : Opts := ([], [(p!"sort_keys", 0)])

/-- backend.py:76-109, `__init__`. -/
def init (fallthrough : Bool) (find : Str → Found) : St :=
  let st : St := { fallthrough := fallthrough }
  let st := (loadBackend st p!"simplejson" (find p!"simplejson")).1
  let st := (loadBackend st p!"json" (find p!"json")).1
  let st := (loadBackend st p!"ujson" (find p!"ujson")).1
  { st with encOpts := [(p!"ujson", ([], [(p!"sort_keys", 0), (p!"escape_forward_slashes", 0)])),
      (p!"json", jsonOpts), (p!"simplejson", jsonOpts), (p!"django.util.simplejson", jsonOpts)] }

/-- backend.py:213-227, `backend_encode`. -/
def backendEncode (w : World) (st : St) (n : Str) (obj : Nat) (indent separators : Option Nat) :
    Except E Nat :=
  let (args, kwargs) := (dget n st.encOpts).getD ([], [])
  let kwargs := match indent with | some i => dset p!"indent" i kwargs | none => kwargs
  let kwargs := match separators with | some s => dset p!"separators" s kwargs | none => kwargs
  match dget n st.encoders with
  | none => .error .keyError
  | some f => w.enc f obj (args, kwargs)

/-- backend.py:229-232, `backend_decode`. -/
def backendDecode (w : World) (st : St) (n : Str) (s : Nat) : Except E Nat :=
  let (args, kwargs) := (dget n st.decOpts).getD ([], [])
  match dget n st.decoders with
  | none => .error .keyError
  | some f => w.dec f s (args, kwargs)

/-- backend.py:37-45, the loop of `encode`; `idx == len - 1` is "no name follows".
`.ok none` is Python's `None` (a loop over no names). -/
def encodeLoop (w : World) (st : St) (obj : Nat) (indent separators : Option Nat) :
    List Str → Except E (Option Nat)
  | [] => .ok none
  | n :: rest =>
    match backendEncode w st n obj indent separators with
    | .ok r => .ok (some r)
    | .error e =>
      if e.isException then
        if rest = [] then .error e else encodeLoop w st obj indent separators rest
      else .error e

/-- backend.py:22-45, `encode`. -/
def encode (w : World) (st : St) (obj : Nat) (indent separators : Option Nat) :
    Except E (Option Nat) :=
  if st.verified then
    if st.fallthrough then encodeLoop w st obj indent separators st.names
    else match st.names with
      | [] => .error .indexError
      | n :: _ => (backendEncode w st n obj indent separators).map some
  else .error .assertionError

/-- backend.py:64-71, the loop of `decode`: only the backend's own exception class is caught; an
unknown name makes the `except` clause itself raise `KeyError`. -/
def decodeLoop (w : World) (st : St) (s : Nat) : List Str → Except E (Option Nat)
  | [] => .ok none
  | n :: rest =>
    match backendDecode w st n s with
    | .ok r => .ok (some r)
    | .error e =>
      match dget n st.decExc with
      | none => .error .keyError
      | some c =>
        if w.matches_ e c then
          if rest = [] then .error e else decodeLoop w st s rest
        else .error e

/-- backend.py:50-71, `decode`. -/
def decode (w : World) (st : St) (s : Nat) : Except E (Option Nat) :=
  if st.verified then
    if st.fallthrough then decodeLoop w st s st.names
    else match st.names with
      | [] => .error .indexError
      | n :: _ => (backendDecode w st n s).map some
  else .error .assertionError

/-- One call of the public API that changes the manager. -/
inductive Op
  | load (n : Str) (f : Found)
  | remove (n : Str)
  | prefer (n : Str)
  | fallthrough (b : Bool)
  | encOptions (n : Str) (o : Opts)
  | decOptions (n : Str) (o : Opts)
  deriving Repr, DecidableEq

/-- backend.py:109-126 (`enable_fallthrough`), 259-298 (`set_encoder_options`, `set_decoder_options`)
and the functions above. A failing `set_preferred_backend` raises and changes nothing. -/
def step (st : St) : Op → St
  | .load n f => (loadBackend st n f).1
  | .remove n => removeBackend st n
  | .prefer n => match setPreferred st n with | .ok st' => st' | .error _ => st
  | .fallthrough b => { st with fallthrough := b }
  | .encOptions n o => { st with encOpts := dset n o st.encOpts }
  | .decOptions n o => { st with decOpts := dset n o st.decOpts }

def run (st : St) (ops : List Op) : St := ops.foldl step st

end JP.Backend
