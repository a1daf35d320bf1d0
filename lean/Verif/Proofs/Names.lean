import Verif.LoadClass
/-! # Lemmas on dotted names -/
namespace JP.LoadClass
open JP

theorem splitDot_ne_nil (s : Str) : splitDot s ≠ [] := by
  cases s with
  | nil => simp [splitDot]
  | cons c r =>
    simp only [splitDot]
    split
    · simp
    · split <;> simp

theorem splitDot_nodot (a : Str) (h : 46 ∉ a) : splitDot a = [a] := by
  induction a with
  | nil => rfl
  | cons c r ih =>
    simp only [List.mem_cons, not_or] at h
    simp only [splitDot, if_neg (fun e => h.1 e.symm : ¬ c = 46), ih h.2]

theorem splitDot_append (a s : Str) (h : 46 ∉ a) : splitDot (a ++ 46 :: s) = a :: splitDot s := by
  induction a with
  | nil => simp [splitDot]
  | cons c r ih =>
    simp only [List.mem_cons, not_or] at h
    simp only [List.cons_append, splitDot, if_neg (fun e => h.1 e.symm : ¬ c = 46), ih h.2]

theorem splitDot_joinDot (l : List Str) (hne : l ≠ []) (h : ∀ a ∈ l, 46 ∉ a) :
    splitDot (joinDot l) = l := by
  induction l with
  | nil => exact absurd rfl hne
  | cons a l ih =>
    cases l with
    | nil => exact splitDot_nodot a (h a List.mem_cons_self)
    | cons b r =>
      simp only [joinDot]
      rw [splitDot_append _ _ (h a List.mem_cons_self),
        ih (by simp) (fun x hx => h x (List.mem_cons_of_mem _ hx))]

theorem joinDot_splitDot (s : Str) : joinDot (splitDot s) = s := by
  induction s with
  | nil => rfl
  | cons c r ih =>
    simp only [splitDot]
    split
    · next e =>
      cases hs : splitDot r with
      | nil => exact absurd hs (splitDot_ne_nil r)
      | cons h t => rw [hs] at ih; simp [joinDot, ih, e]
    · cases hs : splitDot r with
      | nil => exact absurd hs (splitDot_ne_nil r)
      | cons h t =>
        rw [hs] at ih
        cases t with
        | nil => simp only [joinDot] at ih ⊢; rw [ih]
        | cons b t => simp only [joinDot] at ih ⊢; rw [List.cons_append, ih]

theorem joinDot_append (l m : List Str) (hl : l ≠ []) (hm : m ≠ []) :
    joinDot (l ++ m) = joinDot l ++ 46 :: joinDot m := by
  induction l with
  | nil => exact absurd rfl hl
  | cons a l ih =>
    cases l with
    | nil =>
      cases m with
      | nil => exact absurd rfl hm
      | cons b r => simp [joinDot]
    | cons b r =>
      have := ih (by simp)
      simp only [List.cons_append] at this
      simp only [List.cons_append, joinDot, this, List.append_assoc]

theorem splitDot_dotfree (s : Str) : ∀ a ∈ splitDot s, 46 ∉ a := by
  induction s with
  | nil => simp [splitDot]
  | cons c r ih =>
    intro a ha
    simp only [splitDot] at ha
    split at ha
    · rcases List.mem_cons.mp ha with rfl | ha
      · simp
      · exact ih a ha
    · next e =>
      cases hs : splitDot r with
      | nil => exact absurd hs (splitDot_ne_nil r)
      | cons h t =>
        rw [hs] at ih ha
        rcases List.mem_cons.mp ha with rfl | ha
        · simp only [List.mem_cons, not_or]
          exact ⟨fun x => e x.symm, ih h List.mem_cons_self⟩
        · exact ih a (List.mem_cons_of_mem _ ha)

theorem splitSlash_noslash (a : Str) (h : 47 ∉ a) : splitSlash a = [a] := by
  induction a with
  | nil => rfl
  | cons c r ih =>
    simp only [List.mem_cons, not_or] at h
    simp only [splitSlash, if_neg (fun e => h.1 e.symm : ¬ c = 47), ih h.2]

theorem splitSlash_append (a s : Str) (h : 47 ∉ a) : splitSlash (a ++ 47 :: s) = a :: splitSlash s := by
  induction a with
  | nil => simp [splitSlash]
  | cons c r ih =>
    simp only [List.mem_cons, not_or] at h
    simp only [List.cons_append, splitSlash, if_neg (fun e => h.1 e.symm : ¬ c = 47), ih h.2]

end JP.LoadClass
