import Verif.Proofs.JsonLayout
/-!
# What the JSON text of any document reads back as
-/
namespace JP.JsonText
open JP

/-- the text of every NaN is the same (`NaN`) -/
def FloatText.OneNan (ft : FloatText) : Prop := ∀ f, floatIsNan f = true → ft.show f = ft.show 0x7ff8000000000000

/-- the NaN without a payload instead of any NaN -/
def plainNan (f : UInt64) : UInt64 := if floatIsNan f then 0x7ff8000000000000 else f

mutual
/-- What is read when the text of the document is read: pairs of surrogates have become one character, NaNs have lost their payload, of the entries with
equal keys the last value is there, at the place of the first. -/
def asRead : Json → Json
  | .float f => .float (plainNan f)
  | .str s => .str (merge s)
  | .arr xs => .arr (asReadL xs)
  | .obj kvs => .obj (asReadKv [] kvs)
  | j => j
def asReadL : List Json → List Json
  | [] => []
  | x :: xs => asRead x :: asReadL xs
def asReadKv (acc : List (Str × Json)) : List (Str × Json) → List (Str × Json)
  | [] => acc
  | (k, x) :: kvs => asReadKv (dset (merge k) (asRead x) acc) kvs
end

theorem readWord_nan {ft : FloatText} (hl : ft.Lawful) (hn : ft.OneNan) (f : UInt64) : readWord ft (ft.show f) = some (.float (plainNan f)) := by
  have key : ∀ f, FloatOk f → readWord ft (ft.show f) = some (.float f) := fun f hf => by
    unfold readWord
    obtain ⟨a, b, c⟩ := hl.notLit f
    rw [if_neg a, if_neg b, if_neg c, hl.notInt f, hl.back f hf]
    rfl
  unfold plainNan
  by_cases h : floatIsNan f = true
  · rw [if_pos h, hn f h]
    exact key _ (fun _ => rfl)
  · rw [if_neg h]
    exact key f (fun h' => absurd h' h)

mutual
theorem norm_asRead {ft : FloatText} (hl : ft.Lawful) (hn : ft.OneNan) : ∀ j, norm ft j = some (asRead j)
  | .null => rfl
  | .bool _ => rfl
  | .int _ => rfl
  | .float f => by rw [norm, asRead]; exact readWord_nan hl hn f
  | .str _ => rfl
  | .arr xs => by rw [norm, asRead, normL_asRead hl hn xs]; rfl
  | .obj kvs => by rw [norm, asRead, normKv_asRead hl hn kvs []]; rfl
theorem normL_asRead {ft : FloatText} (hl : ft.Lawful) (hn : ft.OneNan) : ∀ xs, normL ft xs = some (asReadL xs)
  | [] => rfl
  | x :: xs => by rw [normL, asReadL, norm_asRead hl hn x, normL_asRead hl hn xs]; rfl
theorem normKv_asRead {ft : FloatText} (hl : ft.Lawful) (hn : ft.OneNan) : ∀ kvs acc, normKv ft acc kvs = some (asReadKv acc kvs)
  | [], _ => rfl
  | (k, x) :: kvs, acc => by
    rw [normKv, asReadKv, norm_asRead hl hn x]
    exact normKv_asRead hl hn kvs _
end

/-! ### when it is the document itself -/

theorem merge_le : ∀ (n : Nat) (s : Str), s.length ≤ n → (merge s).length ≤ s.length
  | _, [], _ => Nat.le_refl _
  | _, [_], _ => Nat.le_refl _
  | 0, _ :: _ :: _, h => by simp at h
  | n + 1, hi :: lo :: r, h => by
    simp only [List.length_cons] at h
    rw [merge]
    split
    · have := merge_le n r (by omega)
      simp only [List.length_cons]; omega
    · have := merge_le n (lo :: r) (by simp only [List.length_cons]; omega)
      simp only [List.length_cons] at this ⊢; omega

theorem merge_id : ∀ (s : Str), merge s = s →
    ∀ pre hi lo post, s = pre ++ hi :: lo :: post → ¬ (0xD800 ≤ hi ∧ hi < 0xDC00 ∧ 0xDC00 ≤ lo ∧ lo < 0xE000)
  | [], _, pre, hi, lo, post, e => by cases pre <;> cases e
  | [c], _, pre, hi, lo, post, e => by
    cases pre with
    | nil => cases e
    | cons _ pre => injection e with _ e; cases pre <;> cases e
  | a :: b :: r, h, pre, hi, lo, post, e => by
    rw [merge] at h
    by_cases hs : 0xD800 ≤ a ∧ a < 0xDC00 ∧ 0xDC00 ≤ b ∧ b < 0xE000
    · rw [if_pos hs] at h
      have h1 := congrArg List.length h
      have h2 := merge_le r.length r (Nat.le_refl _)
      simp only [List.length_cons] at h1
      omega
    · rw [if_neg hs] at h
      injection h with _ h
      cases pre with
      | nil =>
        simp only [List.nil_append] at e
        injection e with e1 e2
        injection e2 with e2 _
        rw [← e1, ← e2]
        exact hs
      | cons _ pre =>
        injection e with _ e
        exact merge_id (b :: r) h pre hi lo post e

theorem dset_length (k : Str) (y : Json) (acc : List (Str × Json)) : (dset k y acc).length ≤ acc.length + 1 ∧
    ((dset k y acc).length = acc.length + 1 → k ∉ acc.map (·.1) ∧ dset k y acc = acc ++ [(k, y)]) := by
  induction acc with
  | nil => exact ⟨Nat.le_refl _, fun _ => ⟨by simp, rfl⟩⟩
  | cons e acc ih =>
    obtain ⟨k', x⟩ := e
    unfold dset
    by_cases h : k' = k
    · rw [if_pos h]
      simp
    · rw [if_neg h]
      refine ⟨by simpa using ih.1, fun hl => ?_⟩
      simp only [List.length_cons, Nat.add_right_cancel_iff] at hl
      obtain ⟨h1, h2⟩ := ih.2 hl
      refine ⟨?_, by rw [h2]; rfl⟩
      simp only [List.map_cons, List.mem_cons, not_or]
      exact ⟨fun e => h e.symm, h1⟩

/-- the entries one by one -/
def entriesRead (kvs : List (Str × Json)) : List (Str × Json) := kvs.map (fun e => (merge e.1, asRead e.2))

theorem asReadKv_length : ∀ (kvs acc : List (Str × Json)), (asReadKv acc kvs).length ≤ acc.length + kvs.length ∧
    ((asReadKv acc kvs).length = acc.length + kvs.length → (acc.map (·.1)).Nodup →
      asReadKv acc kvs = acc ++ entriesRead kvs ∧ ((acc ++ entriesRead kvs).map (·.1)).Nodup)
  | [], acc => ⟨Nat.le_refl _, fun _ h => by simpa [asReadKv, entriesRead] using h⟩
  | (k, x) :: kvs, acc => by
    obtain ⟨h1, h2⟩ := dset_length (merge k) (asRead x) acc
    obtain ⟨h3, h4⟩ := asReadKv_length kvs (dset (merge k) (asRead x) acc)
    rw [asReadKv]
    simp only [List.length_cons]
    refine ⟨by omega, fun hl hn => ?_⟩
    obtain ⟨a, b⟩ := h2 (by omega)
    have hn' : ((dset (merge k) (asRead x) acc).map (·.1)).Nodup := by
      rw [b, List.map_append, List.nodup_append]
      refine ⟨hn, by simp, ?_⟩
      intro p hp q hq e
      simp only [List.map_cons, List.map_nil, List.mem_singleton] at hq
      subst e hq
      exact a hp
    obtain ⟨c, d⟩ := h4 (by omega) hn'
    rw [c]
    rw [b] at d ⊢
    simp only [entriesRead, List.map_cons, List.append_assoc, List.cons_append, List.nil_append] at d ⊢
    exact ⟨trivial, d⟩

mutual
theorem writable_of_asRead : ∀ j, PointsJ j → asRead j = j → j.Writable
  | .null, _, _ => trivial
  | .bool _, _, _ => trivial
  | .int _, _, _ => trivial
  | .float f, _, h => by
    rw [asRead] at h
    injection h with h
    intro hn
    unfold plainNan at h
    rw [if_pos hn] at h
    exact h.symm
  | .str s, hp, h => by
    rw [asRead] at h
    injection h with h
    exact ⟨hp, merge_id s h⟩
  | .arr xs, hp, h => by
    rw [asRead] at h
    injection h with h
    exact writable_of_asReadL xs hp h
  | .obj kvs, hp, h => by
    rw [asRead] at h
    injection h with h
    obtain ⟨a, b⟩ := (asReadKv_length kvs []).2 (by rw [h]; simp) List.nodup_nil
    rw [h] at a
    rw [← a] at b
    exact ⟨b, writable_of_entries kvs hp a.symm⟩
theorem writable_of_asReadL : ∀ xs, PointsL xs → asReadL xs = xs → Json.WritableL xs
  | [], _, _ => trivial
  | x :: xs, hp, h => by
    rw [asReadL] at h
    injection h with h1 h2
    exact ⟨writable_of_asRead x hp.1 h1, writable_of_asReadL xs hp.2 h2⟩
theorem writable_of_entries : ∀ kvs, PointsKv kvs → entriesRead kvs = kvs → Json.WritableKv kvs
  | [], _, _ => trivial
  | (k, x) :: kvs, hp, h => by
    simp only [entriesRead, List.map_cons] at h
    injection h with h1 h2
    injection h1 with h3 h4
    exact ⟨⟨hp.1, merge_id k h3⟩, writable_of_asRead x hp.2.1 h4, writable_of_entries kvs hp.2.2 h2⟩
end

end JP.JsonText
