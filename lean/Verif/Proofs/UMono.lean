import Verif.Unpickler
/-! # More fuel does not change what the decoder does -/
namespace JP.Unpickler
open JP PyM

/-- every finished run of `x` is a run of `y` -/
def Le {α : Type} (x y : U α) : Prop := ∀ s r, x s = some r → y s = some r

theorem Le.refl {α : Type} (x : U α) : Le x x := fun _ _ h => h

theorem Le.bind {α β : Type} {x y : U α} {f g : α → U β} (h : Le x y) (hf : ∀ a, Le (f a) (g a)) :
    Le (x >>= f) (y >>= g) := by
  intro s r hr
  rw [bind_run] at hr ⊢
  cases hx : x s with
  | none => rw [hx] at hr; cases hr
  | some p =>
    obtain ⟨q, s1⟩ := p
    rw [hx] at hr
    rw [h s _ hx]
    cases q with
    | error e => exact hr
    | ok a => exact hf a s1 r hr

theorem Le.tryCatch {α : Type} {x y : U α} {p : Exc → Bool} {f g : Exc → U α} (h : Le x y)
    (hf : ∀ a, Le (f a) (g a)) : Le (PyM.tryCatch x p f) (PyM.tryCatch y p g) := by
  intro s r hr
  unfold PyM.tryCatch at hr ⊢
  cases hx : x s with
  | none => rw [hx] at hr; cases hr
  | some q =>
    obtain ⟨q, s1⟩ := q
    rw [hx] at hr
    rw [h s _ hx]
    cases q with
    | error e =>
      simp only [] at hr ⊢
      split at hr
      · next hp => rw [if_pos hp]; exact hf e s1 r hr
      · next hp => rw [if_neg hp]; exact hr
    | ok a => exact hr

theorem Le.mapM {α β : Type} {f g : α → U β} (h : ∀ a, Le (f a) (g a)) : ∀ xs, Le (PyM.mapM f xs) (PyM.mapM g xs)
  | [] => Le.refl _
  | x :: xs => by
    rw [mapM_cons, mapM_cons]
    exact (h x).bind (fun _ => (Le.mapM h xs).bind (fun _ => Le.refl _))

theorem Le.foldM {α β : Type} {f g : β → α → U β} (h : ∀ b a, Le (f b a) (g b a)) :
    ∀ xs b, Le (PyM.foldM f b xs) (PyM.foldM g b xs)
  | [], _ => Le.refl _
  | x :: xs, b => by
    rw [foldM_cons, foldM_cons]
    exact (h b x).bind (fun b => Le.foldM h xs b)

theorem Le.ite {α : Type} {c : Prop} [Decidable c] {x y x' y' : U α} (h : Le x y) (h' : Le x' y') :
    Le (if c then x else x') (if c then y else y') := by
  split
  · exact h
  · exact h'

variable {env : UEnv} {rs rs' : Json → U Val}

macro "le" h:term : tactic => `(tactic| repeat' first
  | exact Le.refl _
  | exact $h _
  | with_reducible apply Le.bind
  | with_reducible apply Le.tryCatch
  | with_reducible apply Le.mapM
  | with_reducible apply Le.foldM
  | with_reducible intro _
  | split)

theorem le_restoreList (h : ∀ j, Le (rs j) (rs' j)) (xs) : Le (restoreList rs xs) (restoreList rs' xs) := by
  unfold restoreList; le h

theorem le_restoreIterator (h : ∀ j, Le (rs j) (rs' j)) (kvs) : Le (restoreIterator rs kvs) (restoreIterator rs' kvs) := by
  have := le_restoreList h
  unfold restoreIterator; le this

theorem le_restoreReduce (h : ∀ j, Le (rs j) (rs' j)) (kvs) : Le (restoreReduce env rs kvs) (restoreReduce env rs' kvs) := by
  unfold restoreReduce; le h

theorem le_loadFactory (h : ∀ j, Le (rs j) (rs' j)) (kvs) : Le (loadFactory rs kvs) (loadFactory rs' kvs) := by
  unfold loadFactory; le h

theorem le_restorePickledKey (h : ∀ j, Le (rs j) (rs' j)) (k) : Le (restorePickledKey env rs k) (restorePickledKey env rs' k) := by
  unfold restorePickledKey; le h

theorem le_restoreKey (h : ∀ j, Le (rs j) (rs' j)) (k) : Le (restoreKey env rs k) (restoreKey env rs' k) := by
  have := @le_restorePickledKey env _ _ h
  unfold restoreKey; le this

theorem le_restoreFromJson (h : ∀ j, Le (rs j) (rs' j)) (a kvs) : Le (restoreFromJson env rs a kvs) (restoreFromJson env rs' a kvs) := by
  have := @le_restoreKey env _ _ h
  unfold restoreFromJson
  refine Le.bind (Le.mapM (fun kv => ?_) _) (fun _ => Le.refl _)
  split
  · exact Le.refl _
  · exact (this _).bind (fun _ => (h _).bind (fun _ => Le.refl _))

theorem le_restoreState (h : ∀ j, Le (rs j) (rs' j)) (a j) : Le (restoreState rs a j) (restoreState rs' a j) := by
  unfold restoreState; le h

theorem le_restoreSeq (h : ∀ j, Le (rs j) (rs' j)) (a j) : Le (restoreSeq rs a j) (restoreSeq rs' a j) := by
  unfold restoreSeq; le h

theorem le_restoreSeqTag (h : ∀ j, Le (rs j) (rs' j)) (a kvs) : Le (restoreSeqTag rs a kvs) (restoreSeqTag rs' a kvs) := by
  have := le_restoreSeq h a
  unfold restoreSeqTag; le this

theorem le_restoreVariables (h : ∀ j, Le (rs j) (rs' j)) (a kvs) : Le (restoreVariables env rs a kvs) (restoreVariables env rs' a kvs) := by
  have := le_restoreState h a
  unfold restoreVariables
  refine (le_restoreFromJson h a kvs).bind (fun _ => (le_restoreSeqTag h a kvs).bind (fun _ => ?_))
  le this

theorem le_restoreArg (h : ∀ j, Le (rs j) (rs' j)) (j) : Le (restoreArg rs j) (restoreArg rs' j) := by
  unfold restoreArg; le h

theorem le_restoreInstance (h : ∀ j, Le (rs j) (rs' j)) (n kvs) : Le (restoreInstance env rs n kvs) (restoreInstance env rs' n kvs) := by
  unfold restoreInstance
  refine (Le.refl _).bind (fun p => (Le.refl _).bind (fun _ => (le_loadFactory h _).bind (fun fk => ?_)))
  obtain ⟨fac, kvs⟩ := fk
  refine (Le.refl _).bind (fun aj => ?_)
  obtain ⟨ja, jk⟩ := aj
  refine (le_restoreArg h _).bind (fun _ => (le_restoreArg h _).bind (fun _ => (Le.refl _).bind (fun _ => (Le.refl _).bind (fun _ => ?_))))
  have := le_restoreVariables (env := env) h
  split
  · exact Le.refl _
  · refine (Le.refl _).bind (fun _ => (Le.refl _).bind (fun _ => (Le.refl _).bind (fun _ => ?_)))
    split
    · exact Le.refl _
    · exact (this _ _).bind (fun _ => Le.refl _)

theorem le_restoreDate (h : ∀ j, Le (rs j) (rs' j)) (kvs) : Le (restoreDate env rs kvs) (restoreDate env rs' kvs) := by
  unfold restoreDate; le h

theorem le_handlerRestore (h : ∀ j, Le (rs j) (rs' j)) (k n kvs) : Le (handlerRestore env rs k n kvs) (handlerRestore env rs' k n kvs) := by
  have := le_restoreDate (env := env) h kvs
  unfold handlerRestore; le h
  exact this

theorem le_restoreHandled (h : ∀ j, Le (rs j) (rs' j)) (k n kvs) : Le (restoreHandled env rs k n kvs) (restoreHandled env rs' k n kvs) := by
  have := le_handlerRestore (env := env) h k n
  unfold restoreHandled; le this

theorem le_restoreObject (h : ∀ j, Le (rs j) (rs' j)) (kvs) : Le (restoreObject env rs kvs) (restoreObject env rs' kvs) := by
  unfold restoreObject
  refine (Le.refl _).bind (fun j => (Le.refl _).bind (fun c => ?_))
  split
  · refine (Le.refl _).bind (fun _ => ?_)
    split
    · exact le_restoreHandled h _ _ _
    · split
      · exact Le.refl _
      · exact le_restoreInstance h _ _
  · exact Le.refl _

theorem le_restoreTuple (h : ∀ j, Le (rs j) (rs' j)) (kvs) : Le (restoreTuple rs kvs) (restoreTuple rs' kvs) := by
  unfold restoreTuple; le h

theorem le_restoreSet (h : ∀ j, Le (rs j) (rs' j)) (kvs) : Le (restoreSet rs kvs) (restoreSet rs' kvs) := by
  unfold restoreSet; le h

theorem le_dictEntry (h : ∀ j, Le (rs j) (rs' j)) (a kv) : Le (dictEntry rs a kv) (dictEntry rs' a kv) := by
  unfold dictEntry; le h

theorem le_dictEntry1 (h : ∀ j, Le (rs j) (rs' j)) (a kv) : Le (dictEntry1 rs a kv) (dictEntry1 rs' a kv) := by
  unfold dictEntry1; le h

theorem le_dictEntry2 (h : ∀ j, Le (rs j) (rs' j)) (a kv) : Le (dictEntry2 env rs a kv) (dictEntry2 env rs' a kv) := by
  unfold dictEntry2
  split
  · exact (le_restorePickledKey h _).bind (fun _ => (h _).bind (fun _ => Le.refl _))
  · exact Le.refl _

theorem le_restoreDict (h : ∀ j, Le (rs j) (rs' j)) (kvs) : Le (restoreDict env rs kvs) (restoreDict env rs' kvs) := by
  unfold restoreDict
  refine (Le.refl _).bind (fun a => (Le.refl _).bind (fun _ => ?_))
  split
  · exact (Le.mapM (le_dictEntry1 h a) _).bind (fun _ => (Le.mapM (le_dictEntry2 h a) _).bind (fun _ => Le.refl _))
  · exact (Le.mapM (le_dictEntry h a) _).bind (fun _ => Le.refl _)

theorem le_restoreTags (h : ∀ j, Le (rs j) (rs' j)) (kvs) : Le (restoreTags env rs kvs) (restoreTags env rs' kvs) := by
  unfold restoreTags
  repeat' first
    | exact Le.refl _
    | apply Le.ite
    | exact le_restoreTuple h _
    | exact le_restoreSet h _
    | exact le_restoreIterator h _
    | exact le_restoreObject h _
    | exact le_restoreReduce h _
    | exact le_restoreDict h _

theorem le_restoreStep (h : ∀ j, Le (rs j) (rs' j)) (j) : Le (restoreStep env rs j) (restoreStep env rs' j) := by
  unfold restoreStep
  split
  all_goals first
    | exact Le.refl _
    | exact (le_restoreList h _).bind (fun _ => Le.refl _)
    | exact le_restoreTags h _

theorem le_restore : ∀ (n k : Nat) (j), Le (restore env n j) (restore env (n + k) j)
  | 0, _, _ => fun _ _ h => by cases h
  | n + 1, k, j => by
    rw [Nat.add_right_comm]
    exact le_restoreStep (le_restore n k) j

/-- The run with more fuel is the same run. -/
theorem restoreTop_mono {n m : Nat} (hnm : n ≤ m) {j : Json} {b : Bool} {s : UState} {r}
    (h : restoreTop env n j b s = some r) : restoreTop env m j b s = some r := by
  obtain ⟨k, rfl⟩ := Nat.exists_eq_add_of_le hnm
  unfold restoreTop at h ⊢
  split at h
  · next hb =>
    rw [if_pos hb]
    exact (Le.refl _).bind (fun _ => (le_restore n k j).bind (fun _ => Le.refl _)) _ _ h
  · next hb =>
    rw [if_neg hb]
    exact le_restore n k j _ _ h

end JP.Unpickler
