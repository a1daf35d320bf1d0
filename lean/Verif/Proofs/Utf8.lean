import Verif.Utf8
/-! # UTF-8 round trip -/
namespace JP

theorem utf8DecodeN_char (c : Nat) (x r : List Nat) (h : utf8Char c = some x) :
    utf8DecodeN (x ++ r) = (utf8DecodeN r).map (c :: ·) ∧ ∀ b ∈ x, b < 256 := by
  unfold utf8Char at h
  split at h
  · next h1 => 
    cases h
    refine ⟨?_, by simp; omega⟩
    conv => lhs; unfold utf8DecodeN
    simp only [List.singleton_append, if_pos h1]
  split at h
  · next h1 h2 =>
    cases h
    refine ⟨?_, by simp; omega⟩
    have e1 : ¬ (0xC0 + c / 64 < 0x80) := by omega
    have e2 : ¬ (0xC0 + c / 64 < 0xC2) := by omega
    have e3 : 0xC0 + c / 64 < 0xE0 := by omega
    have e4 : isCont (0x80 + c % 64) = true := by simp [isCont]; omega
    have e5 : (0xC0 + c / 64 - 0xC0) * 64 + (0x80 + c % 64 - 0x80) = c := by omega
    simp only [List.cons_append, List.nil_append, utf8DecodeN, if_neg e1, if_neg e2, if_pos e3, e4, if_true, e5]
  split at h
  · next h1 h2 h3 =>
    split at h
    · cases h
    · next h4 =>
      cases h
      refine ⟨?_, by simp; omega⟩
      have e1 : ¬ (0xE0 + c / 4096 < 0x80) := by omega
      have e2 : ¬ (0xE0 + c / 4096 < 0xC2) := by omega
      have e3 : ¬ (0xE0 + c / 4096 < 0xE0) := by omega
      have e3' : 0xE0 + c / 4096 < 0xF0 := by omega
      have e4 : isCont (0x80 + c % 64) = true := by simp [isCont]; omega
      have e4' : isCont (0x80 + c / 64 % 64) = true := by simp [isCont]; omega
      have e5 : (0xE0 + c / 4096 - 0xE0) * 4096 + (0x80 + c / 64 % 64 - 0x80) * 64 + (0x80 + c % 64 - 0x80) = c := by
        have : c / 4096 = c / 64 / 64 := by rw [Nat.div_div_eq_div_mul]
        omega
      have e6 : (decide (0x800 ≤ c) && !(decide (0xD800 ≤ c) && decide (c ≤ 0xDFFF))) = true := by
        simp; omega
      simp only [List.cons_append, List.nil_append, utf8DecodeN, if_neg e1, if_neg e2, if_neg e3, if_pos e3', e5, e4, e4',
        Bool.true_and, e6, if_true]
  split at h
  · next h1 h2 h3 h4 =>
    cases h
    refine ⟨?_, by simp; omega⟩
    have e1 : ¬ (0xF0 + c / 262144 < 0x80) := by omega
    have e2 : ¬ (0xF0 + c / 262144 < 0xC2) := by omega
    have e3 : ¬ (0xF0 + c / 262144 < 0xE0) := by omega
    have e3' : ¬ 0xF0 + c / 262144 < 0xF0 := by omega
    have e3'' : 0xF0 + c / 262144 < 0xF5 := by omega
    have e4 : isCont (0x80 + c % 64) = true := by simp [isCont]; omega
    have e4' : isCont (0x80 + c / 64 % 64) = true := by simp [isCont]; omega
    have e4'' : isCont (0x80 + c / 4096 % 64) = true := by simp [isCont]; omega
    have e5 : (0xF0 + c / 262144 - 0xF0) * 262144 + (0x80 + c / 4096 % 64 - 0x80) * 4096
        + (0x80 + c / 64 % 64 - 0x80) * 64 + (0x80 + c % 64 - 0x80) = c := by
      have a : c / 4096 = c / 64 / 64 := by rw [Nat.div_div_eq_div_mul]
      have b : c / 262144 = c / 64 / 64 / 64 := by rw [Nat.div_div_eq_div_mul, Nat.div_div_eq_div_mul]
      omega
    have e6 : (decide (0x10000 ≤ c) && decide (c < 0x110000)) = true := by simp; omega
    simp only [List.cons_append, List.nil_append, utf8DecodeN, if_neg e1, if_neg e2, if_neg e3, if_neg e3', if_pos e3'', e5,
      e4, e4', e4'', Bool.true_and, e6, if_true]
  · cases h

theorem utf8DecodeN_encodeN (s : Str) (x : List Nat) (h : utf8EncodeN s = some x) :
    utf8DecodeN x = some s ∧ ∀ b ∈ x, b < 256 := by
  induction s generalizing x with
  | nil => cases h; exact ⟨rfl, by simp⟩
  | cons c r ih =>
    simp only [utf8EncodeN] at h
    split at h
    · next a b ha hb =>
      cases h
      obtain ⟨h1, h2⟩ := utf8DecodeN_char c a b ha
      obtain ⟨h3, h4⟩ := ih b hb
      refine ⟨by rw [h1, h3]; rfl, ?_⟩
      intro y hy
      rcases List.mem_append.mp hy with hy | hy
      · exact h2 y hy
      · exact h4 y hy
    · cases h

theorem utf8Decode_encode (s : Str) (x : Bytes) (h : utf8Encode s = some x) : utf8Decode x = some s := by
  unfold utf8Encode at h
  cases hn : utf8EncodeN s with
  | none => rw [hn] at h; cases h
  | some y =>
    rw [hn] at h
    cases h
    obtain ⟨h1, h2⟩ := utf8DecodeN_encodeN s y hn
    unfold utf8Decode
    have : (y.map UInt8.ofNat).map (·.toNat) = y := by
      rw [List.map_map]
      conv => rhs; rw [← List.map_id y]
      apply List.map_congr_left
      intro b hb
      simp only [Function.comp, id]
      exact UInt8.toNat_ofNat_of_lt' (h2 b hb)
    rw [this, h1]

/-- A string that is a sequence of Unicode scalar values can be encoded. -/
theorem utf8Encode_ok (s : Str) (h : ∀ c ∈ s, c < 0x110000 ∧ ¬ (0xD800 ≤ c ∧ c ≤ 0xDFFF)) :
    ∃ x, utf8Encode s = some x := by
  have : ∃ y, utf8EncodeN s = some y := by
    induction s with
    | nil => exact ⟨[], rfl⟩
    | cons c r ih =>
      obtain ⟨y, hy⟩ := ih (fun d hd => h d (List.mem_cons_of_mem _ hd))
      have hc := h c List.mem_cons_self
      have : ∃ x, utf8Char c = some x := by
        unfold utf8Char
        split
        · exact ⟨_, rfl⟩
        split
        · exact ⟨_, rfl⟩
        split
        · rw [if_neg hc.2]; exact ⟨_, rfl⟩
        rw [if_pos hc.1]; exact ⟨_, rfl⟩
      obtain ⟨x, hx⟩ := this
      exact ⟨x ++ y, by simp [utf8EncodeN, hx, hy]⟩
  obtain ⟨y, hy⟩ := this
  exact ⟨y.map UInt8.ofNat, by simp [utf8Encode, hy]⟩

end JP
