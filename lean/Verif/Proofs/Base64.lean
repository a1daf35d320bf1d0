import Verif.Base64
/-! # Round trip of the byte codecs: helper lemmas -/
namespace JP

theorem b64val_char : ∀ n, n < 64 → b64val (b64char n) = some n ∧ b64char n ≠ 61 := by decide

theorem a2b_char {q left pads n : Nat} {cs : Str} (hn : n < 64) :
    a2b q left pads (b64char n :: cs) =
      match q with
        | 0 => a2b 1 n 0 cs
        | 1 => (a2b 2 (n % 16) 0 cs).map (UInt8.ofNat (left * 4 + n / 16) :: ·)
        | 2 => (a2b 3 (n % 4) 0 cs).map (UInt8.ofNat (left * 16 + n / 4) :: ·)
        | _ => (a2b 0 0 0 cs).map (UInt8.ofNat (left * 64 + n) :: ·) := by
  have h := b64val_char n hn
  rw [a2b, if_neg h.2, h.1]
  rfl

theorem u8lt (a : UInt8) : a.toNat < 256 := a.toNat_lt

theorem ofNat_eq_of_mod {x : Nat} {a : UInt8} (h : x % 256 = a.toNat) : UInt8.ofNat x = a := by
  apply UInt8.toNat_inj.mp
  rw [UInt8.toNat_ofNat', ← h]

theorem a2b_b64encode (bs : Bytes) : a2b 0 0 0 (b64encode bs) = some bs := by
  induction bs using b64encode.induct with
  | case1 => rfl
  | case2 a =>
    have ha := u8lt a
    rw [b64encode, a2b_char (by omega), a2b_char (by omega)]
    have : a2b 2 (a.toNat % 4 * 16 % 16) 0 [61, 61] = some [] := rfl
    simp only [this, Option.map_some]
    rw [ofNat_eq_of_mod (a := a) (by omega)]
  | case3 a b =>
    have ha := u8lt a
    have hb := u8lt b
    rw [b64encode, a2b_char (by omega), a2b_char (by omega)]
    simp only []
    rw [a2b_char (by omega)]
    have : a2b 3 (b.toNat % 16 * 4 % 4) 0 [61] = some [] := rfl
    simp only [this, Option.map_some]
    rw [ofNat_eq_of_mod (a := a) (by omega), ofNat_eq_of_mod (a := b) (by omega)]
  | case4 a b c rest ih =>
    have ha := u8lt a
    have hb := u8lt b
    have hc := u8lt c
    rw [b64encode, a2b_char (by omega), a2b_char (by omega)]
    simp only []
    rw [a2b_char (by omega)]
    simp only []
    rw [a2b_char (by omega)]
    simp only [ih, Option.map_some]
    rw [ofNat_eq_of_mod (a := a) (by omega), ofNat_eq_of_mod (a := b) (by omega),
      ofNat_eq_of_mod (a := c) (by omega)]

theorem b85val_char : ∀ n, n < 85 → b85val (b85char n) = some n := by decide

theorem b85group_digits {a b c d e : Nat} (w : Nat) (ha : a < 85) (hb : b < 85) (hc : c < 85)
    (hd : d < 85) (he : e < 85) (hw : (((a * 85 + b) * 85 + c) * 85 + d) * 85 + e = w)
    (hlt : w < 4294967296) :
    b85group (b85char a) (b85char b) (b85char c) (b85char d) (b85char e) =
      some [UInt8.ofNat (w / 16777216), UInt8.ofNat (w / 65536), UInt8.ofNat (w / 256),
        UInt8.ofNat w] := by
  simp only [b85group, b85val_char a ha, b85val_char b hb, b85val_char c hc, b85val_char d hd,
    b85val_char e he, hw, if_pos hlt]

theorem b85char_84 : (126 : Nat) = b85char 84 := by decide

theorem digits5 (w : Nat) (h : w < 4294967296) :
    (((w / 52200625 % 85 * 85 + w / 614125 % 85) * 85 + w / 7225 % 85) * 85 + w / 85 % 85) * 85
      + w % 85 = w := by
  have e2 : w / 7225 = w / 85 / 85 := by rw [Nat.div_div_eq_div_mul]
  have e3 : w / 614125 = w / 85 / 85 / 85 := by simp only [Nat.div_div_eq_div_mul]
  have e4 : w / 52200625 = w / 85 / 85 / 85 / 85 := by simp only [Nat.div_div_eq_div_mul]
  rw [e2, e3, e4]; omega

theorem digits4 (w : Nat) (h : w < 4294967296) :
    (((w / 52200625 % 85 * 85 + w / 614125 % 85) * 85 + w / 7225 % 85) * 85 + w / 85 % 85) * 85
      + 84 = w / 85 * 85 + 84 := by
  have := digits5 w h
  omega

theorem digits3 (w : Nat) (h : w < 4294967296) :
    (((w / 52200625 % 85 * 85 + w / 614125 % 85) * 85 + w / 7225 % 85) * 85 + 84) * 85
      + 84 = w / 7225 * 7225 + 7224 := by
  have e2 : w / 7225 = w / 85 / 85 := by rw [Nat.div_div_eq_div_mul]
  have := digits5 w h
  omega

theorem digits2 (w : Nat) (h : w < 4294967296) :
    (((w / 52200625 % 85 * 85 + w / 614125 % 85) * 85 + 84) * 85 + 84) * 85
      + 84 = w / 614125 * 614125 + 614124 := by
  have e2 : w / 7225 = w / 85 / 85 := by rw [Nat.div_div_eq_div_mul]
  have e3 : w / 614125 = w / 85 / 85 / 85 := by simp only [Nat.div_div_eq_div_mul]
  have := digits5 w h
  omega

theorem b85dec_b85encode (bs : Bytes) : b85dec (b85encode bs) = some bs := by
  induction bs using b85encode.induct with
  | case1 => rfl
  | case2 a =>
    have ha := u8lt a
    have hw : word4 a 0 0 0 < 4294967296 := by simp [word4]; omega
    have hm : word4 a 0 0 0 = a.toNat * 16777216 := by simp [word4]
    simp only [b85encode, b85word, List.take, b85dec]
    rw [b85char_84, b85group_digits _ (by omega) (by omega) (by omega) (by omega) (by omega)
      (digits2 _ hw) (by omega)]
    simp only [Option.map_some, List.take]
    have hx : a.toNat * 16777216 ≤ word4 a 0 0 0 / 614125 * 614125 + 614124 ∧
        word4 a 0 0 0 / 614125 * 614125 + 614124 < a.toNat * 16777216 + 16777216 := by omega
    have key : (word4 a 0 0 0 / 614125 * 614125 + 614124) / 16777216 = a.toNat := by
      apply Nat.div_eq_of_lt_le <;> omega
    rw [ofNat_eq_of_mod (a := a) (by rw [key]; omega)]
  | case3 a b =>
    have ha := u8lt a
    have hb := u8lt b
    have hm : word4 a b 0 0 = a.toNat * 16777216 + b.toNat * 65536 := by simp [word4]
    have hw : word4 a b 0 0 < 4294967296 := by omega
    simp only [b85encode, b85word, List.take, b85dec]
    rw [b85char_84, b85group_digits _ (by omega) (by omega) (by omega) (by omega) (by omega)
      (digits3 _ hw) (by omega)]
    simp only [Option.map_some, List.take]
    have hx : word4 a b 0 0 ≤ word4 a b 0 0 / 7225 * 7225 + 7224 ∧
        word4 a b 0 0 / 7225 * 7225 + 7224 < word4 a b 0 0 + 65536 := by omega
    generalize word4 a b 0 0 / 7225 * 7225 + 7224 = x at hx
    rw [ofNat_eq_of_mod (a := a) (by omega), ofNat_eq_of_mod (a := b) (by omega)]
  | case4 a b c =>
    have ha := u8lt a
    have hb := u8lt b
    have hc := u8lt c
    have hm : word4 a b c 0 = a.toNat * 16777216 + b.toNat * 65536 + c.toNat * 256 := by
      simp [word4]
    have hw : word4 a b c 0 < 4294967296 := by omega
    simp only [b85encode, b85word, List.take, b85dec]
    rw [b85char_84, b85group_digits _ (by omega) (by omega) (by omega) (by omega) (by omega)
      (digits4 _ hw) (by omega)]
    simp only [Option.map_some, List.take]
    have hx : word4 a b c 0 ≤ word4 a b c 0 / 85 * 85 + 84 ∧
        word4 a b c 0 / 85 * 85 + 84 < word4 a b c 0 + 256 := by omega
    generalize word4 a b c 0 / 85 * 85 + 84 = x at hx
    rw [ofNat_eq_of_mod (a := a) (by omega), ofNat_eq_of_mod (a := b) (by omega),
      ofNat_eq_of_mod (a := c) (by omega)]
  | case5 a b c d rest ih =>
    have ha := u8lt a
    have hb := u8lt b
    have hc := u8lt c
    have hd := u8lt d
    have hm : word4 a b c d = a.toNat * 16777216 + b.toNat * 65536 + c.toNat * 256 + d.toNat := rfl
    have hw : word4 a b c d < 4294967296 := by omega
    simp only [b85encode, b85word, List.cons_append, List.nil_append, b85dec, ih]
    rw [b85group_digits _ (by omega) (by omega) (by omega) (by omega) (by omega)
      (digits5 _ hw) (by omega)]
    simp only [List.cons_append, List.nil_append]
    rw [ofNat_eq_of_mod (a := a) (by omega), ofNat_eq_of_mod (a := b) (by omega),
      ofNat_eq_of_mod (a := c) (by omega), ofNat_eq_of_mod (a := d) (by omega)]

theorem b64decode_encode (bs : Bytes) : b64decode (b64encode bs) = bs := by
  simp [b64decode, a2b_b64encode]

theorem b85decode_encode (bs : Bytes) : b85decode (b85encode bs) = bs := by
  simp [b85decode, b85dec_b85encode]

/-- all characters produced are ASCII -/
theorem b64char_lt (n : Nat) (h : n < 64) : b64char n < 128 := by
  have : ∀ n, n < 64 → b64char n < 128 := by decide
  exact this n h

theorem b64encode_ascii (bs : Bytes) : ∀ c ∈ b64encode bs, c < 128 := by
  induction bs using b64encode.induct with
  | case1 => simp [b64encode]
  | case2 a =>
    have ha := u8lt a
    intro c hc
    simp [b64encode] at hc
    rcases hc with h | h | h <;> subst h
    · exact b64char_lt _ (by omega)
    · exact b64char_lt _ (by omega)
    · decide
  | case3 a b =>
    have ha := u8lt a
    have hb := u8lt b
    intro c hc
    simp [b64encode] at hc
    rcases hc with h | h | h | h <;> subst h
    · exact b64char_lt _ (by omega)
    · exact b64char_lt _ (by omega)
    · exact b64char_lt _ (by omega)
    · decide
  | case4 a b c rest ih =>
    have ha := u8lt a
    have hb := u8lt b
    have hc := u8lt c
    intro x hx
    simp only [b64encode, List.mem_cons] at hx
    rcases hx with h | h | h | h | h
    · subst h; exact b64char_lt _ (by omega)
    · subst h; exact b64char_lt _ (by omega)
    · subst h; exact b64char_lt _ (by omega)
    · subst h; exact b64char_lt _ (by omega)
    · exact ih _ h

theorem b85char_lt (n : Nat) (h : n < 85) : b85char n < 128 := by
  have : ∀ n, n < 85 → b85char n < 128 := by decide
  exact this n h

theorem b85word_ascii (w : Nat) : ∀ c ∈ b85word w, c < 128 := by
  intro c hc
  simp only [b85word, List.mem_cons, List.not_mem_nil, or_false] at hc
  rcases hc with h | h | h | h | h <;> subst h <;> exact b85char_lt _ (by omega)

theorem b85encode_ascii (bs : Bytes) : ∀ c ∈ b85encode bs, c < 128 := by
  induction bs using b85encode.induct with
  | case1 => simp [b85encode]
  | case2 a => intro c hc; exact b85word_ascii _ c (List.mem_of_mem_take hc)
  | case3 a b => intro c hc; exact b85word_ascii _ c (List.mem_of_mem_take hc)
  | case4 a b c => intro x hx; exact b85word_ascii _ x (List.mem_of_mem_take hx)
  | case5 a b c d rest ih =>
    intro x hx
    rw [b85encode, List.mem_append] at hx
    rcases hx with h | h
    · exact b85word_ascii _ x h
    · exact ih x h

theorem utf8ok_of_ascii {s : Str} (h : ∀ c ∈ s, c < 128) : utf8ok s = true := by
  simp only [utf8ok, List.all_eq_true]
  intro c hc
  have := h c hc
  simp; omega

end JP
