import Verif.Proofs.UMono
import Verif.Targets
/-! # More fuel does not change what the decoder does, with classes that refuse assignment -/
namespace JP.Unpickler.WithTargets
open JP PyM Unpickler

variable {tg : Targets} {env : UEnv} {rs rs' : Json → U Val}

theorem le_restoreFromJson (h : ∀ j, Le (rs j) (rs' j)) (a kvs) : Le (restoreFromJson tg env rs a kvs) (restoreFromJson tg env rs' a kvs) := by
  have := @le_restoreKey env _ _ h
  unfold restoreFromJson
  refine Le.bind (Le.mapM (fun kv => ?_) _) (fun _ => Le.refl _)
  split
  · exact Le.refl _
  · exact (this _).bind (fun _ => (h _).bind (fun _ => Le.refl _))

theorem le_restoreState (h : ∀ j, Le (rs j) (rs' j)) (a j) : Le (restoreState tg rs a j) (restoreState tg rs' a j) := by
  unfold restoreState; le h

theorem le_restoreVariables (h : ∀ j, Le (rs j) (rs' j)) (a kvs) : Le (restoreVariables tg env rs a kvs) (restoreVariables tg env rs' a kvs) := by
  have := fun a => le_restoreState (tg := tg) h a
  unfold restoreVariables
  refine (le_restoreFromJson h a kvs).bind (fun b => (le_restoreSeqTag h b kvs).bind (fun _ => ?_))
  have := this b
  le this

theorem le_restoreInstance (h : ∀ j, Le (rs j) (rs' j)) (n kvs) : Le (restoreInstance tg env rs n kvs) (restoreInstance tg env rs' n kvs) := by
  unfold restoreInstance
  refine (Le.refl _).bind (fun p => (Le.refl _).bind (fun _ => (le_loadFactory h _).bind (fun fk => ?_)))
  obtain ⟨fac, kvs⟩ := fk
  refine (Le.refl _).bind (fun aj => ?_)
  obtain ⟨ja, jk⟩ := aj
  refine (le_restoreArg h _).bind (fun _ => (le_restoreArg h _).bind (fun _ => (Le.refl _).bind (fun _ => (Le.refl _).bind (fun _ => ?_))))
  have := le_restoreVariables (tg := tg) (env := env) h
  split
  · exact Le.refl _
  · refine (Le.refl _).bind (fun _ => (Le.refl _).bind (fun _ => (Le.refl _).bind (fun _ => ?_)))
    split
    · exact Le.refl _
    · exact (this _ _).bind (fun _ => Le.refl _)

theorem le_restoreObject (h : ∀ j, Le (rs j) (rs' j)) (kvs) : Le (restoreObject tg env rs kvs) (restoreObject tg env rs' kvs) := by
  unfold restoreObject
  refine (Le.refl _).bind (fun j => (Le.refl _).bind (fun c => ?_))
  split
  · refine (Le.refl _).bind (fun _ => ?_)
    split
    · exact le_restoreHandled h _ _ _
    · split
      · exact Le.refl _
      · exact le_restoreInstance h _ _
  · exact Le.refl _

theorem le_restoreTags (h : ∀ j, Le (rs j) (rs' j)) (kvs) : Le (restoreTags tg env rs kvs) (restoreTags tg env rs' kvs) := by
  unfold restoreTags
  exact Le.ite (Unpickler.le_restoreTags h kvs) (Le.ite (le_restoreObject h kvs) (Unpickler.le_restoreTags h kvs))

theorem le_restoreStep (h : ∀ j, Le (rs j) (rs' j)) (j) : Le (restoreStep tg env rs j) (restoreStep tg env rs' j) := by
  unfold restoreStep
  split
  · exact le_restoreTags h _
  · exact Unpickler.le_restoreStep h _

theorem le_restore : ∀ (n k : Nat) (j), Le (restore tg env n j) (restore tg env (n + k) j)
  | 0, _, _ => fun _ _ h => by cases h
  | n + 1, k, j => by
    rw [Nat.add_right_comm]
    exact le_restoreStep (le_restore n k) j

/-- The run with more fuel is the same run. -/
theorem decodeInto_mono {n m : Nat} (hnm : n ≤ m) {text : Str} {b own : Bool} {s : UState} {r}
    (h : Api.decodeInto tg env n text b own s = some r) : Api.decodeInto tg env m text b own s = some r := by
  obtain ⟨k, rfl⟩ := Nat.exists_eq_add_of_le hnm
  unfold Api.decodeInto at h ⊢
  cases hl : env.loads text with
  | none => rw [hl] at h; exact h
  | some j =>
    rw [hl] at h
    refine Le.bind ?_ (fun _ => Le.refl _) _ _ h
    unfold restoreTop
    exact Le.ite ((Le.refl _).bind (fun _ => (le_restore n k j).bind (fun _ => Le.refl _))) (le_restore n k j)

end JP.Unpickler.WithTargets
