import Verif.Proofs.UFresh
import Verif.Props.C10
/-!
# C37 — `decode` returns fresh objects
-/
namespace JP.C37
open JP PyM Unpickler

/-- Whatever the document and whatever existed before: a call of `decode` leaves every existing object as it
was, and every list, dict and instance that its result reaches did not exist before the call.  (Tuples, sets,
bytes and bytearrays, which the model gives labels, are also new, except for the constant empty tuple.)
Hypothesis: what can be found by name are classes, functions and modules. -/
theorem fresh (env : UEnv) (g : env.Globals) (n : Nat) (text : Str) (own : Bool) (u u' : UState) (x : Val)
    (h : Api.decode env n text true own u = some (.ok x, u')) :
    (∃ new, u'.heap = u.heap ++ new) ∧
    (∀ a, Within u'.heap x (.ref a) → u.heap.length ≤ a) ∧
    (∀ i xs, Within u'.heap x (.set i xs) → u.nextId < i ∨ i = 0) ∧
    (∀ i xs, Within u'.heap x (.tuple i xs) → u.nextId < i ∨ i = 0) ∧
    (∀ i b, Within u'.heap x (.bytearray i b) → u.nextId < i ∨ i = 0) := by
  cases hj : env.loads text with
  | none => simp [Api.decode, hj] at h
  | some j =>
    rw [decode_lift g n text own u hj] at h
    obtain ⟨⟨r, s⟩, h0, h1⟩ := Option.map_eq_some_iff.1 h
    cases r with
    | error e => cases h1
    | ok v =>
      cases h1
      refine ⟨⟨_, rfl⟩, fun a ha => ?_, fun i xs ha => ?_, fun i xs ha => ?_, fun i xs ha => ?_⟩
      all_goals
        obtain ⟨w, hw⟩ := within_new (o := before u) (x := s.heap) ha
        cases w <;> simp [Val.shift] at hw
      · subst hw
        exact Nat.le_add_left _ _
      all_goals
        obtain ⟨h1, h2⟩ := hw
        simp only [shiftId, before] at h1
        split at h1 <;> omega

/-- Existing objects are not modified. -/
theorem old_unchanged (env : UEnv) (g : env.Globals) (n : Nat) (j : Json) (u u' : UState) (r : Except Exc Val)
    (h : restoreTop env n j true u = some (r, u')) (a : Addr) (c : Obj) (ha : u.heap[a]? = some c) : u'.heap[a]? = some c := by
  rw [restoreTop_lift g] at h
  obtain ⟨⟨r, s⟩, h0, h1⟩ := Option.map_eq_some_iff.1 h
  cases h1
  obtain ⟨hl, _⟩ := List.getElem?_eq_some_iff.1 ha
  show (u.heap ++ _)[a]? = some c
  rw [List.getElem?_append_left hl]
  exact ha

/-- Two calls of `decode` never share objects, whatever happens (`v`: more objects are made, objects are
modified) in between. -/
theorem no_sharing (env env' : UEnv) (g : env.Globals) (g' : env'.Globals) (n n' : Nat) (text text' : Str) (own own' : Bool)
    (u u' v v' : UState) (x y : Val)
    (h : Api.decode env n text true own u = some (.ok x, u')) (hv : u'.heap.length ≤ v.heap.length)
    (h' : Api.decode env' n' text' true own' v = some (.ok y, v'))
    (a b : Addr) (ha : Within u'.heap x (.ref a)) (hc : u'.heap[a]? ≠ none) (hb : Within v'.heap y (.ref b)) : a ≠ b := by
  have h2 := (fresh env' g' n' text' own' v v' y h').2.1 b hb
  have h3 : a < u'.heap.length := by
    refine Classical.byContradiction fun hno => hc ?_
    exact List.getElem?_eq_none (Nat.le_of_not_lt hno)
  intro he
  subst he
  exact absurd (Nat.lt_of_lt_of_le h3 hv) (Nat.not_lt_of_le h2)

/-! ### examples -/

def env (j : Json) : UEnv := { C10.env with loads := fun _ => some j }

theorem env_globals (j : Json) : (env j).Globals := ⟨C10.env_globals.cls, C10.env_globals.mod, C10.env_globals.repr⟩

/-- an interpreter in which things exist already -/
def busy : UState := { heap := [.list [.ref 1], .dict []], nextId := 3 }

/-- decoding `[{"py/set": [1]}, [], {"py/id": 2}]`: a list in cell 2, holding a new set and twice the list in cell 3 -/
example : Sample.res (Api.decode (env (.arr [.obj [(p!"py/set", .arr [.int 1])], .arr [], .obj [(p!"py/id", .int 2)]])) 9 p!"…" true true busy) =
    some (.ok (.ref 2)) := by decide +kernel

/-- The hypothesis is needed: if a name in the document denotes an existing list, `decode` returns that list
itself, each time. -/
def leaky : UEnv := { C10.env with loadclass := fun _ => some (.ref 0), loads := fun _ => some (.obj [(p!"py/type", .str p!"m.registry")]) }

theorem global_object_shared : Sample.res (Api.decode leaky 9 p!"…" true true busy) = some (.ok (.ref 0)) := by decide +kernel

end JP.C37
