import Verif.Value
import Verif.LoadClass
/-!
# A string returned by `__reduce__` — models jsonpickle/pickler.py:646-663

In `Verif/Pickler.lean` the object that the string leads to is part of the data (`ReduceVal.str`); here it is computed.
-/
namespace JP.StringReduce
open JP LoadClass

/-- `sys.modules` and `getattr` -/
structure Names where
  mods : Str → Option Val
  attr : Val → Str → Except Exc Val

/-- pickler.py:650-663: the `return` in line 659 is inside the loop over the names after the first.  `none`: the string is ignored, and the
object is written as if it had no `__reduce__`. -/
def target (g : Names) (s : Str) : Option (Except Exc Val) :=
  if s = [] then none
  else match splitDot s with
    | m :: x :: _ =>
      match g.mods m with
      | none => none
      | some o =>
        match g.attr o x with
        | .ok v => some (.ok v)
        | .error e => if e = .keyError then none else some (.error e)
    | _ => none

/-- The value in terms of `Verif/Pickler.lean`.  (A `TypeError` of `getattr` would be raised by the code; there it is ignored.) -/
def reduceVal (g : Names) (s : Str) : ReduceVal :=
  match target g s with
  | none => .str none
  | some (.ok v) => .str (some v)
  | some (.error e) => .raise e

end JP.StringReduce
