import Verif.Targets
/-! # Classes whose instances are frozen: restoring is the same -/
namespace JP.Unpickler.WithTargets
open JP PyM Unpickler

variable {tg : Targets} {env : UEnv} {rs : Json → U Val}

theorem assoc {α β γ : Type} (x : PyM UState α) (f : α → PyM UState β) (g : β → PyM UState γ) : (do let a ← x; let b ← f a; g b) = (do let b ← (do let a ← x; f a); g b) := by
  funext s
  simp only [bind_run]
  cases x s with
  | none => rfl
  | some r =>
    obtain ⟨r, s1⟩ := r
    cases r <;> rfl

theorem thenAddr {x : PyM UState Unit} {a : Addr} {γ : Type} (F : Addr → PyM UState γ) : (do let b ← (do x; pure a); F b) = (do x; F a) := by
  rw [← assoc]
  rfl

theorem mapM_none {α β : Type} {f : α → U (Option β)} {g : α → U Unit} (h : ∀ x, f x = (do g x; pure none)) (xs : List α) :
    PyM.mapM f xs = (do let _ ← PyM.mapM g xs; pure (xs.map (fun _ => none))) := by
  induction xs with
  | nil => rfl
  | cons x xs ih =>
    rw [mapM_cons, mapM_cons, ih, h x]
    funext s
    simp only [bind_run]
    cases g x s with
    | none => rfl
    | some r =>
      obtain ⟨r, s1⟩ := r
      cases r with
      | error e => rfl
      | ok a =>
        simp only [bind_run, pure_run]
        cases PyM.mapM g xs s1 with
        | none => rfl
        | some r =>
          obtain ⟨r, s2⟩ := r
          cases r <;> rfl

theorem collect_none {α β : Type} {f : α → U (Option β)} {g : α → U Unit} (h : ∀ x, f x = (do g x; pure none)) (xs : List α)
    {γ : Type} (F : List β → U γ) :
    (do let ds ← PyM.mapM f xs; F (ds.filterMap id)) = (do let _ ← PyM.mapM g xs; F []) := by
  rw [mapM_none h]
  funext s
  simp only [bind_run]
  cases PyM.mapM g xs s with
  | none => rfl
  | some r =>
    obtain ⟨r, s2⟩ := r
    cases r with
    | error e => rfl
    | ok a =>
      have : (xs.map (fun _ => (none : Option β))).filterMap id = [] := by
        induction xs with
        | nil => rfl
        | cons x xs ih => simpa using ih
      simp only [pure_run, this]

variable (h : ∀ c, tg.immutable c = false)
include h

theorem store_off (a : Addr) (k v : Val) : store tg a k v = (do storeEntry a k v; pure none) := by
  unfold store
  simp only [h]
  funext s
  simp only [bind_run, get_run, Bool.false_and, Bool.false_eq_true, if_false, ite_self]

theorem restoreFromJson_off (a : Addr) (kvs : List (Str × Json)) :
    restoreFromJson tg env rs a kvs = (do Unpickler.restoreFromJson env rs a kvs; pure a) := by
  unfold restoreFromJson Unpickler.restoreFromJson
  rw [collect_none (g := fun (kv : Str × Json) =>
    if Tags.isReserved kv.1 then pure ()
    else do
      let k ← restoreKey env rs kv.1
      let v ← rs kv.2
      storeEntry a k v)]
  · rw [← assoc]
    rfl
  · intro kv
    by_cases hr : Tags.isReserved kv.1 = true
    · simp only [hr, if_true]; rfl
    · simp only [hr, Bool.false_eq_true, if_false, store_off h]
      simp only [assoc]

theorem restoreFromVals_off (a : Addr) (kvs : List (Val × Val)) :
    restoreFromVals tg a kvs = (do Unpickler.restoreFromVals a kvs; pure a) := by
  unfold restoreFromVals Unpickler.restoreFromVals
  rw [collect_none (g := fun (kv : Val × Val) => storeEntry a kv.1 kv.2) (fun kv => store_off h a kv.1 kv.2)]
  rw [← assoc]
  rfl

theorem applyOtherState_off (a : Addr) (st : Val) : applyOtherState tg a st = Unpickler.applyOtherState a st := by
  unfold applyOtherState Unpickler.applyOtherState
  simp only [restoreFromVals_off h, thenAddr]
  rfl

theorem restoreState_off (a : Addr) (j : Json) : restoreState tg rs a j = Unpickler.restoreState rs a j := by
  unfold restoreState Unpickler.restoreState
  simp only [restoreFromVals_off h, thenAddr, applyOtherState_off h]
  rfl

theorem restoreVariables_off (a : Addr) (kvs : List (Str × Json)) :
    restoreVariables tg env rs a kvs = Unpickler.restoreVariables env rs a kvs := by
  unfold restoreVariables Unpickler.restoreVariables
  simp only [restoreFromJson_off h, thenAddr, restoreState_off h]
  rfl

theorem restoreObject_off (kvs : List (Str × Json)) : restoreObject tg env rs kvs = Unpickler.restoreObject env rs kvs := by
  unfold restoreObject Unpickler.restoreObject restoreInstance Unpickler.restoreInstance
  simp only [restoreVariables_off h]
  rfl

theorem restoreTags_off (kvs : List (Str × Json)) : restoreTags tg env rs kvs = Unpickler.restoreTags env rs kvs := by
  unfold restoreTags
  split
  · rfl
  · rename_i hn
    split
    · rename_i ho
      rw [restoreObject_off h]
      simp only [List.any_cons, List.any_nil, Bool.or_false, Bool.or_eq_true, not_or, Bool.not_eq_true] at hn
      obtain ⟨h1, h2, h3, h4, h5, h6, h7⟩ := hn
      unfold Unpickler.restoreTags
      simp only [h1, h2, h3, h4, h5, h6, h7, ho, Bool.false_eq_true, if_false, if_true]
    · rfl

theorem restore_off (n : Nat) : restore tg env n = Unpickler.restore env n := by
  induction n with
  | zero => rfl
  | succ n ih =>
    funext j
    show restoreStep tg env (restore tg env n) j = Unpickler.restoreStep env (Unpickler.restore env n) j
    rw [ih]
    cases j with
    | obj kvs => exact restoreTags_off h kvs
    | _ => rfl

end JP.Unpickler.WithTargets
