import Verif.Api
import Verif.LoadClass
/-!
# An `Unpickler` with the classes that were registered with it

`UEnv.loadclass` is what `util.loadclass(name, classes=self._classes)` finds; here `_classes` is part of the state.
-/
namespace JP
open PyM

/-- util.py:571-580: the classes provided by the caller, first by the full name, then by its last part. -/
def providedClass (classes : List (Str × Nat)) (name : Str) : Option Nat :=
  if classes = [] then none else
    match dget name classes with
    | some c => some c
    | none => dget ((LoadClass.splitDot name).getLast?.getD []) classes

/-- `util.loadclass` with these classes: provided ones first, then the ones that can be imported.  `obj` is the class with this number. -/
def UEnv.withClasses (env : UEnv) (obj : Nat → Val) (classes : List (Str × Nat)) : UEnv :=
  { env with loadclass := fun name => match providedClass classes name with
      | some c => some (obj c)
      | none => env.loadclass name }

/-- An `Unpickler`: unpickler.py:353-367 (the attributes that `reset` sets; `_namedict` and `_namestack` are in `idx`, see `UState`). -/
structure USession where
  state : UState := {}
  classes : List (Str × Nat) := []

/-- unpickler.py:386-407 `Unpickler.restore(obj, reset, classes)`: `reset` also forgets the registered classes; the `classes` given are then added.
`iname` is `util.importable_name`. -/
def USession.restore (env : UEnv) (obj : Nat → Val) (iname : Nat → Str) (n : Nat) (j : Json) (reset : Bool) (classes : Option LoadClass.ClassesArg) (s : USession) :
    Option (Except Exc Val × USession) :=
  let cs := if reset then [] else s.classes
  let cs := match classes with
    | none => cs
    | some a => LoadClass.registerClasses iname cs a
  (Unpickler.restoreTop (env.withClasses obj cs) n j reset s.state).map fun p => (p.1, { state := p.2, classes := cs })

end JP
