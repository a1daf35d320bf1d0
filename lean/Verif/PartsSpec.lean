import Verif.Unpickler
import Verif.Rename
/-!
# What the parts of a document give when each is decoded alone
-/
namespace JP.Unpickler.Parts
open JP

/-- `Unpickler().restore(j)` on a new `Unpickler` ends with the value or exception `r`, having made the objects and calls recorded in `s`. -/
def Gives (env : UEnv) (j : Json) (r : Except Exc Val) (s : UState) : Prop := ∃ n, restoreTop env n j true {} = some (r, s)

/-- `vs`, made of the objects `h` (standing behind the `m` objects there are already), is what the documents `js` give (`G`) when each is decoded alone
by a new `Unpickler`: copies of the results, one after the other; `l` are the events. -/
inductive Alone (G : Json → Except Exc Val → UState → Prop) : Nat → Nat → List Json → List Val → Heap → List Event → Prop
  | nil {m i} : Alone G m i [] [] [] []
  | cons {m i j js y s vs h l} : G j (.ok y) s → Alone G (m + s.heap.length) (s.nextId + i) js vs h l →
      Alone G m i (j :: js) (y.shift m i :: vs) (s.heap.map (Obj.shift m i) ++ h) (s.log ++ l)

/-- the first document that does not give a value, when decoded alone, raises `e` -/
def Raises (G : Json → Except Exc Val → UState → Prop) (js : List Json) (e : Exc) : Prop :=
  ∃ pre j post, js = pre ++ j :: post ∧ (∀ i ∈ pre, ∃ y s, G i (.ok y) s) ∧ ∃ s, G j (.error e) s

end JP.Unpickler.Parts
