import Verif.Basic
/-!
# The context of a handler — models handlers.py:129-179 and the calls `handler(self)` in pickler.py:640 and unpickler.py:880

A handler may be registered as a class or as an instance.  `handler(self)` makes a new object in the first case (`BaseHandler.__init__`) and
changes the attribute `context` of the registered object in the second (`BaseHandler.__call__`).  A method of a handler may read
`self.context`, and it may make a pickler meet further objects with handlers: the one it works for (`self.context.flatten(…)`), or another one
(`jsonpickle.encode(…)` in the method, as in ext/pandas.py:180-205).

Handlers are those that derive from `BaseHandler` without overriding `__call__`.  Exceptions are not modelled: they end a method early.
-/
namespace JP.HandlerContext
open JP

/-- What is registered: a class or an instance. -/
inductive Reg
  | cls (n : Nat)
  | inst (n : Nat)
  deriving DecidableEq, Repr

/-- What a method of a handler does, in order: read `self.context`, or have the pickler (or unpickler) `ctx` meet an object with the handler `r`,
whose method then does `body`. -/
inductive Act
  | use
  | call (ctx : Nat) (r : Reg) (body : List Act)

/-- the attribute `context` of the registered instances -/
abbrev State := List (Nat × Nat)

/-- The object whose method runs: a fresh one with its own attribute, or the registered instance. -/
inductive Obj
  | own (ctx : Nat)
  | shared (n : Nat)

/-- `handler(self)` where `self` is `ctx`: handlers.py:130-138 for classes, 172-179 for instances -/
def make (ctx : Nat) (r : Reg) (s : State) : Obj × State :=
  match r with
  | .cls _ => (.own ctx, s)
  | .inst n => (.shared n, dset n ctx s)

/-- `self.context` (an instance that was never called has none: `AttributeError`) -/
def context (o : Obj) (s : State) : Option Nat :=
  match o with
  | .own c => some c
  | .shared n => dget n s

mutual
/-- One action of a method of `o`: the contexts that are read, in order, and the state afterwards.  pickler.py:640-641 and unpickler.py:880-881:
the handler is made, then its method is called. -/
def act (o : Obj) : Act → State → List (Option Nat) × State
  | .use, s => ([context o s], s)
  | .call ctx r body, s => acts (make ctx r s).1 body (make ctx r s).2
/-- the actions of a method -/
def acts (o : Obj) : List Act → State → List (Option Nat) × State
  | [], s => ([], s)
  | a :: as, s => ((act o a s).1 ++ (acts o as (act o a s).2).1, (acts o as (act o a s).2).2)
end

/-- pickler.py:638-645: the pickler `ctx` meets an object with the handler `r` -/
def run (ctx : Nat) (r : Reg) (body : List Act) (s : State) : List (Option Nat) := (act (.own ctx) (.call ctx r body) s).1

end JP.HandlerContext
