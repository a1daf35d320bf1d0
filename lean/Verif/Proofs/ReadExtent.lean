import Verif.Extent
import Verif.JsonText
/-! # The extent of a document is at most the length of its text -/
namespace JP.JsonText
open JP

theorem skipWs_le : ∀ s : Str, (skipWs s).length ≤ s.length
  | [] => Nat.le_refl _
  | c :: s => by
    unfold skipWs
    split
    · exact Nat.le_succ_of_le (skipWs_le s)
    · exact Nat.le_refl _

theorem readHex4_le {s r : Str} {n : Nat} (h : readHex4 s = some (n, r)) : r.length + 4 ≤ s.length := by
  match s with
  | a :: b :: c :: d :: s =>
    unfold readHex4 at h
    simp only [Option.bind_eq_bind, Option.bind_eq_some_iff] at h
    obtain ⟨_, _, _, _, _, _, _, _, h⟩ := h
    cases h
    exact Nat.le_refl _
  | [] => cases h
  | [_] => cases h
  | [_, _] => cases h
  | [_, _, _] => cases h

theorem readLow_le {s r : Str} {n : Nat} (h : readLow s = some (n, r)) : r.length ≤ s.length := by
  unfold readLow at h
  split at h
  · next s' =>
    cases hq : readHex4 s' with
    | none => rw [hq] at h; cases h
    | some p =>
      obtain ⟨m, r'⟩ := p
      rw [hq] at h
      simp only [] at h
      split at h
      · cases h
        have := readHex4_le hq
        simp only [List.length_cons]
        omega
      · cases h
  · cases h

theorem readStr_le : ∀ {fuel : Nat} {s t r : Str}, readStr fuel s = some (t, r) → t.length + r.length + 1 ≤ s.length
  | 0, _, _, _, h => by cases h
  | _ + 1, [], _, _, h => by cases h
  | fuel + 1, c :: s, t, r, h => by
    unfold readStr at h
    split at h
    · cases h
      simp only [List.length_cons, List.length_nil]
      omega
    split at h
    · cases s with
      | nil => cases h
      | cons e s =>
        simp only [] at h
        split at h
        · cases hq : readHex4 s with
          | none => rw [hq] at h; cases h
          | some p =>
            obtain ⟨n, s1⟩ := p
            rw [hq] at h
            have h1 := readHex4_le hq
            simp only [] at h
            generalize hlow : (if 0xD800 ≤ n ∧ n < 0xDC00 then readLow s1 else none) = q at h
            cases q with
            | none =>
              simp only [Option.bind_eq_bind, Option.bind_eq_some_iff] at h
              obtain ⟨⟨t', r'⟩, h2, h⟩ := h
              cases h
              have := readStr_le h2
              simp only [List.length_cons]
              omega
            | some p =>
              obtain ⟨m, s2⟩ := p
              have h3 : s2.length ≤ s1.length := by
                split at hlow
                · exact readLow_le hlow
                · cases hlow
              simp only [Option.bind_eq_bind, Option.bind_eq_some_iff] at h
              obtain ⟨⟨t', r'⟩, h2, h⟩ := h
              cases h
              have := readStr_le h2
              simp only [List.length_cons]
              omega
        · simp only [Option.bind_eq_bind, Option.bind_eq_some_iff] at h
          obtain ⟨c', _, ⟨t', r'⟩, h2, h⟩ := h
          cases h
          have := readStr_le h2
          simp only [List.length_cons]
          omega
    split at h
    · cases h
    · simp only [Option.bind_eq_bind, Option.bind_eq_some_iff] at h
      obtain ⟨⟨t', r'⟩, h2, h⟩ := h
      cases h
      have := readStr_le h2
      simp only [List.length_cons]
      omega

theorem word_le : ∀ s : Str, (word s).2.length ≤ s.length
  | [] => Nat.le_refl _
  | c :: s => by
    unfold word
    split
    · exact Nat.le_refl _
    · exact Nat.le_succ_of_le (word_le s)

variable (ft : FloatText)

theorem readWord_extent {s : Str} {j : Json} (h : readWord ft s = some j) : j.extent = 0 := by
  unfold readWord at h
  split at h
  · cases h; rfl
  split at h
  · cases h; rfl
  split at h
  · cases h; rfl
  cases hi : readInt s with
  | some i => rw [hi] at h; cases h; rfl
  | none =>
    rw [hi] at h
    simp only [Option.map_eq_some_iff] at h
    obtain ⟨f, _, h⟩ := h
    cases h; rfl

theorem extentKv_dset (k : Str) (x : Json) : ∀ kvs, Json.extentKv (dset k x kvs) ≤ Json.extentKv kvs + (k.length + x.extent)
  | [] => by simp [dset, Json.extentKv]
  | (k', v) :: r => by
    unfold dset
    split
    · next e =>
      subst e
      simp only [Json.extentKv]
      omega
    · have := extentKv_dset k x r
      simp only [Json.extentKv]
      omega

mutual
theorem readV_le : ∀ {fuel : Nat} {s r : Str} {j : Json}, readV ft fuel s = some (j, r) → j.extent + r.length ≤ s.length
  | 0, _, _, _, h => by unfold readV at h; cases h
  | _ + 1, [], _, _, h => by unfold readV at h; cases h
  | fuel + 1, c :: s, r, j, h => by
    unfold readV at h
    split at h
    · simp only [Option.bind_eq_bind, Option.bind_eq_some_iff] at h
      obtain ⟨⟨t, r'⟩, h2, h⟩ := h
      cases h
      have := readStr_le h2
      simp only [Json.extent, List.length_cons]
      omega
    split at h
    · have hs := skipWs_le s
      generalize skipWs s = q at h hs
      split at h
      · cases h
        simp only [List.length_cons, Json.extent, Json.extentL] at hs ⊢
        omega
      · simp only [Option.bind_eq_bind, Option.bind_eq_some_iff] at h
        obtain ⟨⟨xs, r'⟩, h2, h⟩ := h
        cases h
        have := readElems_le h2
        simp only [Json.extent, List.length_cons]
        omega
    split at h
    · have hs := skipWs_le s
      generalize skipWs s = q at h hs
      split at h
      · cases h
        simp only [List.length_cons, Json.extent, Json.extentKv] at hs ⊢
        omega
      · simp only [Option.bind_eq_bind, Option.bind_eq_some_iff] at h
        obtain ⟨⟨xs, r'⟩, h2, h⟩ := h
        cases h
        have := readEntries_le h2
        simp only [Json.extent, List.length_cons, Json.extentKv] at this ⊢
        omega
    · simp only [Option.bind_eq_bind, Option.bind_eq_some_iff] at h
      obtain ⟨j', h2, h⟩ := h
      cases h
      rw [readWord_extent ft h2, Nat.zero_add]
      exact word_le _
theorem readElems_le : ∀ {fuel : Nat} {s r : Str} {xs : List Json}, readElems ft fuel s = some (xs, r) → Json.extentL xs + r.length ≤ s.length
  | 0, _, _, _, h => by unfold readElems at h; cases h
  | fuel + 1, s, r, xs, h => by
    unfold readElems at h
    simp only [Option.bind_eq_bind, Option.bind_eq_some_iff] at h
    obtain ⟨⟨x, s1⟩, h1, h⟩ := h
    have h1 := readV_le h1
    have hs := skipWs_le s1
    simp only [] at h
    generalize skipWs s1 = q at h hs
    split at h
    · cases h
      simp only [List.length_cons, Json.extentL] at hs ⊢
      omega
    · next s2 =>
      simp only [Option.bind_eq_some_iff] at h
      obtain ⟨⟨ys, r'⟩, h2, h⟩ := h
      cases h
      have h2 := readElems_le h2
      have hs2 := skipWs_le s2
      simp only [List.length_cons, Json.extentL] at hs ⊢
      omega
    · cases h
theorem readEntries_le : ∀ {fuel : Nat} {acc : List (Str × Json)} {s r : Str} {kvs : List (Str × Json)}, readEntries ft fuel acc s = some (kvs, r) →
    Json.extentKv kvs + r.length ≤ Json.extentKv acc + s.length
  | 0, _, _, _, _, h => by unfold readEntries at h; cases h
  | fuel + 1, acc, s, r, kvs, h => by
    unfold readEntries at h
    split at h
    · next s =>
      simp only [Option.bind_eq_bind, Option.bind_eq_some_iff] at h
      obtain ⟨⟨k, s1⟩, h1, h⟩ := h
      have h1 := readStr_le h1
      have hs := skipWs_le s1
      simp only [] at h
      generalize skipWs s1 = q at h hs
      split at h
      · next s2 =>
        simp only [Option.bind_eq_some_iff] at h
        obtain ⟨⟨x, s3⟩, h2, h⟩ := h
        have h2 := readV_le h2
        have hs2 := skipWs_le s2
        have hs3 := skipWs_le s3
        have hd := extentKv_dset k x acc
        simp only [] at h
        generalize skipWs s3 = q at h hs3
        simp only [List.length_cons] at hs hs3 ⊢
        split at h
        · cases h
          simp only [List.length_cons] at hs3
          omega
        · next s4 =>
          have h4 := readEntries_le h
          have hs4 := skipWs_le s4
          simp only [List.length_cons] at hs3
          omega
        · cases h
      · cases h
    · cases h
end

theorem loads_extent {s : Str} {j : Json} (h : loads ft s = some j) : j.extent ≤ s.length := by
  unfold loads at h
  have hs := skipWs_le s
  cases hv : readV ft (2 * s.length + 1) (skipWs s) with
  | none => rw [hv] at h; cases h
  | some p =>
    obtain ⟨j', r⟩ := p
    rw [hv] at h
    simp only [] at h
    split at h
    · cases h
      have := readV_le ft hv
      omega
    · cases h

end JP.JsonText
