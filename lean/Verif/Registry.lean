import Verif.Basic
/-!
# `jsonpickle/handlers.py`: the handler registry and handler-context detection
-/
namespace JP.Registry
open JP

/-- A registry key: handlers.py:31 `KeyType = type | str`.  Types are numbered. `other` is any
object that is neither (registering it raises). -/
inductive Key
  | ty (c : Nat)
  | name (s : Str)
  | other (n : Nat)
  deriving Repr, DecidableEq

/-- What the registry asks of Python classes: `util.importable_name` (util.py:464-497) and
`issubclass` (assumed not to raise; a metaclass may override it arbitrarily). -/
structure Classes where
  iname : Nat → Str
  sub : Nat → Nat → Bool

/-- handlers.py:40-42, `Registry.__init__`: two dicts in insertion order.  Handlers are numbered;
`None` is never stored (handlers.py:82 turns `handler=None` into a decorator). -/
structure Reg where
  handlers : List (Key × Nat) := []
  base : List (Nat × Nat) := []
  deriving Repr, DecidableEq

/-- handlers.py:56-60: the loop over `_base_handlers.items()`. -/
def findBase (w : Classes) (t : Nat) : List (Nat × Nat) → Option Nat
  | [] => none
  | (c, h) :: r => if w.sub t c then some h else findBase w t r

/-- handlers.py:44-61, `Registry.get`; `default` is `none` or a handler. -/
def get (w : Classes) (r : Reg) (k : Key) (default : Option Nat) : Option Nat :=
  let handler := dget k r.handlers
  let viaBase := match handler, k with
    | none, .ty t => findBase w t r.base
    | _, _ => none
  match viaBase with
  | some b => some b
  | none => match handler with
    | none => default
    | some h => some h

/-- handlers.py:63-97, `Registry.register` with a handler given (without one it returns a decorator
that makes this very call, handlers.py:82-88). -/
def register (w : Classes) (r : Reg) (k : Key) (h : Nat) (base : Bool) : Except Exc Reg :=
  match k with
  | .ty c =>
    let hs := dset (.ty c) h (dset (.name (w.iname c)) h r.handlers)
    .ok { handlers := hs, base := if base then dset c h r.base else r.base }
  | _ => .error .typeError

/-- handlers.py:99-102, `Registry.unregister` (of a class; `importable_name` of a non-class raises
`AttributeError` after the first pop, which is not modelled). -/
def unregister (w : Classes) (r : Reg) (c : Nat) : Reg :=
  { handlers := ddel (.name (w.iname c)) (ddel (.ty c) r.handlers), base := ddel c r.base }

/-- One call on the registry. -/
inductive Op
  | reg (c h : Nat) (base : Bool)
  | unreg (c : Nat)
  deriving Repr, DecidableEq

def step (w : Classes) (r : Reg) : Op → Reg
  | .reg c h b => match register w r (.ty c) h b with
    | .ok r' => r'
    | .error _ => r
  | .unreg c => unregister w r c

/-- Run a history, oldest call first. -/
def run (w : Classes) (ops : List Op) : Reg := ops.foldl (step w) {}

/-! ### `handler_accepts_handler_context` (handlers.py:109-126) -/

/-- `inspect.Parameter.kind`. -/
inductive Kind
  | positionalOnly | positionalOrKeyword | varPositional | keywordOnly | varKeyword
  deriving Repr, DecidableEq

/-- A parameter as `inspect.signature` reports it. -/
structure Param where
  name : Str
  kind : Kind
  hasDefault : Bool := false
  deriving Repr, DecidableEq

/-- The parameters of a bound handler method in order, or `none` when `inspect.signature` raises
`TypeError`/`ValueError` (handlers.py:113-116). -/
abbrev Sig := Option (List Param)

/-- `params.get(name)` on the ordered mapping `inspect.signature(fn).parameters`. -/
def paramGet (n : Str) : List Param → Option Param
  | [] => none
  | p :: r => if p.name = n then some p else paramGet n r

/-- handlers.py:109-126. -/
def acceptsContext : Sig → Bool
  | none => false
  | some params => match paramGet p!"handler_context" params with
    | none => false
    | some p => p.kind = .positionalOrKeyword || p.kind = .keywordOnly || p.kind = .varKeyword

/-- The keyword arguments of the call that is made on a handler method.
pickler.py `_call_handler_flatten` and unpickler.py `_call_handler_restore`: when no context was
given the method is called without it; otherwise `handler_accepts_handler_context` decides
(pickler.py:493-502, unpickler.py:1005-1014). -/
def contextArgs (ctx : Option Nat) (sig : Sig) : List (Str × Nat) :=
  match ctx with
  | none => []
  | some c => if acceptsContext sig then [(p!"handler_context", c)] else []

end JP.Registry
