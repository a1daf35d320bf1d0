import Verif.JsonText
import Verif.JsonSpec
/-! # Reading back JSON text -/
namespace JP.JsonText
open JP

/-- What is assumed of `float.__repr__` and `float(...)`: the text is one word, is not an integer or a
literal, and reads back. -/
structure FloatText.Lawful (ft : FloatText) : Prop where
  back : ∀ f, FloatOk f → ft.read (ft.show f) = some f
  nonempty : ∀ f, ft.show f ≠ []
  oneWord : ∀ f, ∀ c ∈ ft.show f, isDelim c = false
  notInt : ∀ f, readInt (ft.show f) = none
  ascii : ∀ f, ∀ c ∈ ft.show f, c < 128
  notLit : ∀ f, ft.show f ≠ p!"null" ∧ ft.show f ≠ p!"true" ∧ ft.show f ≠ p!"false"

theorem unhex_hexDigit : ∀ n < 16, unhex (hexDigit n) = some n := by decide

theorem readHex4_u4 (n : Nat) (hn : n < 65536) (s : Str) :
    readHex4 (hex4 n ++ s) = some (n, s) := by
  simp only [hex4, List.cons_append, List.nil_append, readHex4]
  rw [unhex_hexDigit _ (Nat.mod_lt _ (by decide)), unhex_hexDigit _ (Nat.mod_lt _ (by decide)),
    unhex_hexDigit _ (Nat.mod_lt _ (by decide)), unhex_hexDigit _ (Nat.mod_lt _ (by decide))]
  simp only [Option.bind_eq_bind, Option.bind_some]
  congr 2
  omega

theorem readLow_u4 (n : Nat) (hn : n < 65536) (s : Str) :
    readLow (u4 n ++ s) = if 0xDC00 ≤ n ∧ n < 0xE000 then some (n, s) else none := by
  show readLow (92 :: 117 :: (hex4 n ++ s)) = _
  simp only [readLow]
  rw [readHex4_u4 n hn]

def isHigh (c : Nat) : Prop := 0xD800 ≤ c ∧ c < 0xDC00
def isLow (c : Nat) : Prop := 0xDC00 ≤ c ∧ c < 0xE000

theorem readLow_escChar (c : Nat) (hc : c < 0x110000) (h : ¬ isLow c) (r : Str) : readLow (escChar c ++ r) = none := by
  unfold escChar
  simp only [isLow] at h
  split
  · rfl
  split
  · rfl
  split
  · rfl
  split
  · rfl
  split
  · rfl
  split
  · rfl
  split
  · rfl
  split
  · next h1 h2 _ _ _ _ _ _ =>
    show readLow (c :: r) = none
    unfold readLow
    split
    · next e => injection e with e1 e2; exact absurd e1 h2
    · rfl
  split
  · rw [readLow_u4 _ (by omega), if_neg h]
  · rw [List.append_assoc, readLow_u4 _ (by omega), if_neg (by omega)]

/-- one escaped character is read back -/
theorem readStr_u4 (fuel n : Nat) (hn : n < 65536) (r : Str)
    (h : isHigh n → readLow r = none) : readStr (fuel + 1) (u4 n ++ r) = (readStr fuel r).map (fun p => (n :: p.1, p.2)) := by
  show readStr (fuel + 1) (92 :: 117 :: (hex4 n ++ r)) = _
  simp only [readStr]
  rw [if_neg (by decide), if_pos trivial, if_pos trivial, readHex4_u4 n hn]
  simp only []
  have : (if 0xD800 ≤ n ∧ n < 0xDC00 then readLow r else none) = none := by
    split
    · next h' => exact h h'
    · rfl
  rw [this]
  simp only []
  cases readStr fuel r <;> rfl

theorem readStr_esc2 (fuel e c : Nat) (he : unescape e = some c) (h117 : e ≠ 117) (r : Str) :
    readStr (fuel + 1) (92 :: e :: r) = (readStr fuel r).map (fun p => (c :: p.1, p.2)) := by
  simp only [readStr]
  rw [if_neg (by decide), if_pos trivial, if_neg h117, he]
  simp only [Option.bind_eq_bind, Option.bind_some]
  cases readStr fuel r <;> rfl

theorem pair_back (c : Nat) (h : 0x10000 ≤ c) (h2 : c < 0x110000) :
    0x10000 + (0xD800 + (c - 0x10000) / 1024 % 1024 - 0xD800) * 1024 + (0xDC00 + (c - 0x10000) % 1024 - 0xDC00) = c := by
  have e1 : 0xD800 + (c - 0x10000) / 1024 % 1024 - 0xD800 = (c - 0x10000) / 1024 % 1024 := Nat.add_sub_cancel_left ..
  have e2 : 0xDC00 + (c - 0x10000) % 1024 - 0xDC00 = (c - 0x10000) % 1024 := Nat.add_sub_cancel_left ..
  rw [e1, e2]
  omega

theorem readStr_pair (fuel hi lo : Nat) (h1 : isHigh hi) (h2 : isLow lo) (r : Str) :
    readStr (fuel + 1) (u4 hi ++ (u4 lo ++ r)) =
      (readStr fuel r).map (fun p => ((0x10000 + (hi - 0xD800) * 1024 + (lo - 0xDC00)) :: p.1, p.2)) := by
  show readStr (fuel + 1) (92 :: 117 :: (hex4 hi ++ _)) = _
  simp only [readStr]
  rw [if_neg (by decide), if_pos trivial, if_pos trivial, readHex4_u4 _ (Nat.lt_trans h1.2 (by decide))]
  simp only []
  rw [if_pos (show 0xD800 ≤ hi ∧ hi < 0xDC00 from h1), readLow_u4 _ (Nat.lt_trans h2.2 (by decide)), if_pos (show 0xDC00 ≤ lo ∧ lo < 0xE000 from h2)]
  simp only []
  cases readStr fuel r <;> rfl

theorem readStr_escChar (fuel c : Nat) (hc : c < 0x110000) (r : Str) (h : isHigh c → readLow r = none) :
    readStr (fuel + 1) (escChar c ++ r) = (readStr fuel r).map (fun p => (c :: p.1, p.2)) := by
  unfold escChar
  split
  · next e => subst e; exact readStr_esc2 fuel 34 34 rfl (by decide) r
  split
  · next e => subst e; exact readStr_esc2 fuel 92 92 rfl (by decide) r
  split
  · next e => subst e; exact readStr_esc2 fuel 110 10 rfl (by decide) r
  split
  · next e => subst e; exact readStr_esc2 fuel 114 13 rfl (by decide) r
  split
  · next e => subst e; exact readStr_esc2 fuel 116 9 rfl (by decide) r
  split
  · next e => subst e; exact readStr_esc2 fuel 102 12 rfl (by decide) r
  split
  · next e => subst e; exact readStr_esc2 fuel 98 8 rfl (by decide) r
  split
  · next h1 h2 _ _ _ _ _ h3 =>
    show readStr (fuel + 1) (c :: r) = _
    simp only [readStr]
    rw [if_neg h1, if_neg h2, if_neg (by omega)]
    cases readStr fuel r <;> rfl
  split
  · next h9 => exact readStr_u4 fuel c h9 r h
  · next h9 =>
    have hi : isHigh (0xD800 + (c - 0x10000) / 1024 % 1024) := by unfold isHigh; omega
    have lo : isLow (0xDC00 + (c - 0x10000) % 1024) := by unfold isLow; omega
    rw [List.append_assoc, readStr_pair fuel _ _ hi lo r, pair_back c (Nat.le_of_not_lt h9) hc]

theorem StrOk.tail {c : Nat} {s : Str} (h : StrOk (c :: s)) : StrOk s :=
  ⟨fun x hx => h.1 x (List.mem_cons_of_mem _ hx), fun pre hi lo post e => h.2 (c :: pre) hi lo post (by rw [e]; rfl)⟩

theorem readStr_escStr : ∀ (s : Str), StrOk s → ∀ fuel, s.length < fuel → ∀ rest,
    readStr fuel (escStr s ++ rest) = some (s, rest)
  | [], _, fuel, hf, rest => by
    obtain ⟨k, rfl⟩ : ∃ k, fuel = k + 1 := ⟨fuel - 1, by simp at hf; omega⟩
    rfl
  | c :: s, h, fuel, hf, rest => by
    obtain ⟨k, rfl⟩ : ∃ k, fuel = k + 1 := ⟨fuel - 1, by simp at hf; omega⟩
    simp only [escStr, List.append_assoc]
    rw [readStr_escChar k c (h.1 c List.mem_cons_self), readStr_escStr s (StrOk.tail h) k (by simp at hf; omega) rest]
    · rfl
    · intro hh
      cases s with
      | nil => rfl
      | cons d s =>
        simp only [escStr, List.append_assoc]
        refine readLow_escChar d (h.1 d (by simp)) ?_ _
        intro hl
        exact h.2 [] c d s rfl ⟨hh.1, hh.2, hl.1, hl.2⟩

theorem escChar_pos (c : Nat) : 1 ≤ (escChar c).length := by
  unfold escChar
  repeat' split
  all_goals simp [u4]

theorem escStr_len : ∀ s : Str, s.length < (escStr s).length
  | [] => by simp [escStr]
  | c :: s => by
    have := escStr_len s
    have := escChar_pos c
    simp only [escStr, List.length_append, List.length_cons]
    omega

theorem readStr_ok (s : Str) (h : StrOk s) (rest : Str) :
    readStr ((escStr s ++ rest).length + 1) (escStr s ++ rest) = some (s, rest) :=
  readStr_escStr s h _ (by have := escStr_len s; simp only [List.length_append]; omega) rest

/-! ### words -/

/-- the text ends here or a delimiter follows -/
def Ends (r : Str) : Prop := ∀ c t, r = c :: t → isDelim c = true

theorem word_append : ∀ (t r : Str), (∀ c ∈ t, isDelim c = false) → Ends r → word (t ++ r) = (t, r)
  | [], r, _, hr => by
    cases r with
    | nil => rfl
    | cons c r => simp [word, hr c r rfl]
  | c :: t, r, ht, hr => by
    have ih := word_append t r (fun x hx => ht x (by simp [hx])) hr
    simp only [List.cons_append, word, ht c (by simp)]
    rw [ih]
    rfl

theorem natVal_append (s : Str) (c : Nat) : natVal (s ++ [c]) = natVal s * 10 + (c - 48) := by
  simp [natVal, List.foldl_append]

theorem natText_spec : ∀ (fuel n : Nat), n < fuel →
    natVal (natText fuel n) = n ∧ (∀ c ∈ natText fuel n, isDigit c = true) ∧ isNat (natText fuel n) = true ∧
    (10 ≤ n → 2 ≤ (natText fuel n).length) ∧ (0 < n → (natText fuel n).head? ≠ some 48)
  | 0, n, h => by omega
  | fuel + 1, n, h => by
    unfold natText
    split
    · next h10 =>
      refine ⟨by simp [natVal], ?_, ?_, by omega, ?_⟩
      · intro c hc; simp at hc; subst hc; simp [isDigit]; omega
      · simp [isNat, isDigit]; omega
      · intro h0; simp; omega
    · next h10 =>
      obtain ⟨h1, h2, h3, h4, h5⟩ := natText_spec fuel (n / 10) (by omega)
      have hd : isDigit (48 + n % 10) = true := by simp [isDigit]; omega
      have hne : natText fuel (n / 10) ≠ [] := by
        intro e; rw [e] at h3; simp [isNat] at h3
      refine ⟨?_, ?_, ?_, ?_, ?_⟩
      · rw [natVal_append, h1]; omega
      · intro c hc
        rcases List.mem_append.1 hc with hc | hc
        · exact h2 c hc
        · simp at hc; subst hc; exact hd
      · have h5 := h5 (by omega)
        revert h2 hne h5
        generalize natText fuel (n / 10) = l
        intro h2 hne h5
        match l, hne with
        | c :: r, _ =>
          have h5' : c ≠ 48 := fun e => h5 (by rw [e]; rfl)
          have e1 : (c :: r) ++ [48 + n % 10] = c :: (r ++ [48 + n % 10]) := rfl
          rw [e1]
          have hc := h2 c (by simp)
          have hr : ∀ x ∈ r, isDigit x = true := fun x hx => h2 x (by simp [hx])
          cases hrr : r ++ [48 + n % 10] with
          | nil => simp at hrr
          | cons y ys =>
            simp only [isNat]
            have hall : (y :: ys).all isDigit = true := by
              rw [← hrr, List.all_append, List.all_eq_true.2 hr]
              simp [hd]
            simp only [hc, hall, Bool.and_true]
            simpa using h5'
      · intro _
        have : 1 ≤ (natText fuel (n / 10)).length := by
          cases hl : natText fuel (n / 10) with
          | nil => exact absurd hl hne
          | cons _ _ => simp
        simp only [List.length_append, List.length_cons, List.length_nil]
        omega
      · intro _
        rw [List.head?_append]
        cases hl : (natText fuel (n / 10)).head? with
        | none => rw [List.head?_eq_none_iff] at hl; exact absurd hl hne
        | some x => have := h5 (by omega); rw [hl] at this; exact this

theorem digit_not_delim (c : Nat) (h : isDigit c = true) : isDelim c = false ∧ c ≠ 45 ∧ c ≠ 34 ∧ c ≠ 91 ∧ c ≠ 123 ∧ c ≠ 110 ∧ c ≠ 116 ∧ c ≠ 102 := by
  simp only [isDigit, Bool.and_eq_true, decide_eq_true_eq] at h
  refine ⟨?_, by omega, by omega, by omega, by omega, by omega, by omega, by omega⟩
  simp only [isDelim, isWs, Bool.or_eq_false_iff, beq_eq_false_iff_ne]
  omega

theorem intText_delim (i : Int) : ∀ c ∈ intText i, isDelim c = false := by
  intro c hc
  cases i with
  | ofNat n => exact (digit_not_delim c ((natText_spec _ n (by omega)).2.1 c hc)).1
  | negSucc n =>
    simp only [intText, List.mem_cons] at hc
    rcases hc with rfl | hc
    · decide
    · exact (digit_not_delim c ((natText_spec _ (n + 1) (by omega)).2.1 c hc)).1

theorem readInt_intText (i : Int) : readInt (intText i) = some i := by
  cases i with
  | ofNat n =>
    obtain ⟨h1, h2, h3, _⟩ := natText_spec (n + 1) n (by omega)
    simp only [intText, readInt]
    split
    · next r e => have := h2 45 (by rw [e]; simp); simp [isDigit] at this
    · rw [h3, if_pos rfl, h1]; rfl
  | negSucc n =>
    obtain ⟨h1, h2, h3, _⟩ := natText_spec (n + 2) (n + 1) (by omega)
    simp only [intText, readInt]
    rw [h3, if_pos rfl, h1]
    rfl

theorem intText_head (i : Int) : ∃ c t, intText i = c :: t ∧ (c = 45 ∨ isDigit c = true) := by
  cases i with
  | ofNat n =>
    obtain ⟨h1, h2, h3, _⟩ := natText_spec (n + 1) n (by omega)
    cases e : natText (n + 1) n with
    | nil => rw [e] at h3; simp [isNat] at h3
    | cons c t => exact ⟨c, t, e, .inr (h2 c (by rw [e]; simp))⟩
  | negSucc n => exact ⟨45, _, rfl, .inl rfl⟩

variable {ft : FloatText}

theorem readWord_int (i : Int) : readWord ft (intText i) = some (.int i) := by
  obtain ⟨c, t, e, hc⟩ := intText_head i
  have hne : c ≠ 110 ∧ c ≠ 116 ∧ c ≠ 102 := by
    rcases hc with rfl | hc
    · decide
    · exact (digit_not_delim c hc).2.2.2.2.2
  unfold readWord
  rw [if_neg (by rw [e]; intro e'; injection e' with e' _; exact hne.1 e'),
    if_neg (by rw [e]; intro e'; injection e' with e' _; exact hne.2.1 e'),
    if_neg (by rw [e]; intro e'; injection e' with e' _; exact hne.2.2 e'), readInt_intText]

theorem readWord_float (hl : ft.Lawful) (f : UInt64) (h : FloatOk f) : readWord ft (ft.show f) = some (.float f) := by
  obtain ⟨h1, h2, h3⟩ := hl.notLit f
  unfold readWord
  rw [if_neg h1, if_neg h2, if_neg h3, hl.notInt, hl.back f h]
  rfl

/-- a word is read as a value -/
theorem readV_word {t : Str} {j : Json} (hne : t ≠ []) (hd : ∀ c ∈ t, isDelim c = false) (h : readWord ft t = some j)
    {fuel : Nat} {rest : Str} (hf : 1 ≤ fuel) (hr : Ends rest) : readV ft fuel (t ++ rest) = some (j, rest) := by
  obtain ⟨k, rfl⟩ : ∃ k, fuel = k + 1 := ⟨fuel - 1, by omega⟩
  have hw := word_append t rest hd hr
  match t, hne with
  | c :: t, _ =>
    have hc := hd c (by simp)
    have h34 : c ≠ 34 := by rintro rfl; revert hc; decide
    have h91 : c ≠ 91 := by rintro rfl; revert hc; decide
    have h123 : c ≠ 123 := by rintro rfl; revert hc; decide
    simp only [List.cons_append] at hw ⊢
    simp only [readV]
    rw [if_neg h34, if_neg h91, if_neg h123, hw, h]
    rfl

mutual
/-- how many nested calls reading a document takes -/
def need : Json → Nat
  | .arr xs => 1 + needL xs
  | .obj kvs => 1 + needKv kvs
  | _ => 1
def needL : List Json → Nat
  | [] => 0
  | x :: xs => 1 + need x + needL xs
def needKv : List (Str × Json) → Nat
  | [] => 0
  | (_, x) :: kvs => 1 + need x + needKv kvs
end

/-- the first character of a document -/
theorem dumps_head (hl : ft.Lawful) (j : Json) : ∃ c t, dumps ft j = c :: t ∧ isWs c = false ∧ c ≠ 93 ∧ c ≠ 125 := by
  have hw : ∀ c, isDelim c = false → isWs c = false ∧ c ≠ 93 ∧ c ≠ 125 := by
    intro c hc
    simp only [isDelim, Bool.or_eq_false_iff, beq_eq_false_iff_ne] at hc
    exact ⟨hc.1.1.1.1.1.1.1, hc.1.1.1.1.2, hc.1.1.1.2⟩
  match j with
  | .null => exact ⟨110, _, rfl, by decide⟩
  | .bool true => exact ⟨116, _, rfl, by decide⟩
  | .bool false => exact ⟨102, _, rfl, by decide⟩
  | .int i =>
    obtain ⟨c, t, e, hc⟩ := intText_head i
    exact ⟨c, t, by simp [dumps, e], hw c (intText_delim i c (by rw [e]; simp))⟩
  | .float f =>
    cases e : ft.show f with
    | nil => exact absurd e (hl.nonempty f)
    | cons c t => exact ⟨c, t, by simp [dumps, e], hw c (hl.oneWord f c (by rw [e]; simp))⟩
  | .str s => exact ⟨34, _, rfl, by decide⟩
  | .arr [] => exact ⟨91, _, rfl, by decide⟩
  | .arr (x :: xs) => exact ⟨91, _, rfl, by decide⟩
  | .obj [] => exact ⟨123, _, rfl, by decide⟩
  | .obj ((k, x) :: kvs) => exact ⟨123, _, rfl, by decide⟩

theorem skipWs_dumps (hl : ft.Lawful) (j : Json) (r : Str) : skipWs (dumps ft j ++ r) = dumps ft j ++ r := by
  obtain ⟨c, t, e, h, _⟩ := dumps_head hl j
  rw [e]
  simp [skipWs, h]

theorem ends_dumpsL (xs : List Json) (r : Str) : Ends (dumpsL ft xs ++ r) := by
  intro c t e
  cases xs with
  | nil => simp only [dumpsL] at e; injection e with e _; subst e; rfl
  | cons x xs => simp only [dumpsL] at e; injection e with e _; subst e; rfl

theorem ends_dumpsKv (kvs : List (Str × Json)) (r : Str) : Ends (dumpsKv ft kvs ++ r) := by
  intro c t e
  match kvs with
  | [] => simp only [dumpsKv] at e; injection e with e _; subst e; rfl
  | (k, x) :: kvs => simp only [dumpsKv] at e; injection e with e _; subst e; rfl

mutual
theorem readV_dumps (hl : ft.Lawful) : ∀ (j : Json) (fuel : Nat) (rest : Str), j.Writable → need j ≤ fuel → Ends rest →
    readV ft fuel (dumps ft j ++ rest) = some (j, rest)
  | .null, fuel, rest, _, hf, hr => readV_word (t := p!"null") (by simp) (by decide) rfl hf hr
  | .bool true, fuel, rest, _, hf, hr => readV_word (t := p!"true") (by simp) (by decide) rfl hf hr
  | .bool false, fuel, rest, _, hf, hr => readV_word (t := p!"false") (by simp) (by decide) rfl hf hr
  | .int i, fuel, rest, _, hf, hr => by
    simp only [dumps]
    obtain ⟨c, t, e, _⟩ := intText_head i
    exact readV_word (by rw [e]; simp) (intText_delim i) (readWord_int i) hf hr
  | .float f, fuel, rest, hw, hf, hr => by
    simp only [dumps]
    exact readV_word (hl.nonempty f) (hl.oneWord f) (readWord_float hl f hw) hf hr
  | .str s, fuel, rest, hw, hf, hr => by
    obtain ⟨k, rfl⟩ : ∃ k, fuel = k + 1 := ⟨fuel - 1, by simp only [need] at hf; omega⟩
    simp only [dumps, List.cons_append, readV]
    rw [if_pos trivial, readStr_ok s hw]
    rfl
  | .arr [], fuel, rest, _, hf, hr => by
    obtain ⟨k, rfl⟩ : ∃ k, fuel = k + 1 := ⟨fuel - 1, by simp only [need] at hf; omega⟩
    rfl
  | .arr (x :: xs), fuel, rest, hw, hf, hr => by
    simp only [need] at hf
    obtain ⟨k, rfl⟩ : ∃ k, fuel = k + 1 := ⟨fuel - 1, by omega⟩
    simp only [dumps, List.cons_append, List.append_assoc, readV]
    rw [if_neg (by decide), if_pos trivial, skipWs_dumps hl]
    have ih := readElems_dumps hl xs x k rest hw.1 hw.2 (fun fuel rest => readV_dumps hl x fuel rest hw.1) (by omega)
    obtain ⟨c, t, e, h1, h2, h3⟩ := dumps_head hl x
    rw [e] at ih ⊢
    simp only [List.cons_append] at ih ⊢
    split
    · next r e' => injection e' with e' _; exact absurd e' h2
    · rw [ih]; rfl
  | .obj [], fuel, rest, _, hf, hr => by
    obtain ⟨k, rfl⟩ : ∃ k, fuel = k + 1 := ⟨fuel - 1, by simp only [need] at hf; omega⟩
    rfl
  | .obj ((k, x) :: kvs), fuel, rest, hw, hf, hr => by
    simp only [need] at hf
    obtain ⟨n, rfl⟩ : ∃ n, fuel = n + 1 := ⟨fuel - 1, by omega⟩
    simp only [dumps, List.cons_append, List.append_assoc, readV]
    rw [if_neg (by decide), if_neg (by decide), if_pos trivial]
    have hw' := hw.2
    simp only [Json.WritableKv] at hw'
    have ih := readEntries_dumps hl kvs k x n rest [] hw'.1 hw'.2.2 (by simpa using hw.1) (fun fuel rest => readV_dumps hl x fuel rest hw'.2.1) (by omega)
    rw [show ∀ t, skipWs (34 :: t) = 34 :: t from fun _ => rfl]
    simp only []
    rw [ih]
    rfl
theorem readElems_dumps (hl : ft.Lawful) : ∀ (xs : List Json) (x : Json) (fuel : Nat) (rest : Str), x.Writable → Json.WritableL xs →
    (∀ fuel rest, need x ≤ fuel → Ends rest → readV ft fuel (dumps ft x ++ rest) = some (x, rest)) →
    needL (x :: xs) ≤ fuel →
    readElems ft fuel (dumps ft x ++ (dumpsL ft xs ++ rest)) = some (x :: xs, rest)
  | [], x, fuel, rest, hx, _, hv, hf => by
    simp only [needL] at hf
    obtain ⟨k, rfl⟩ : ∃ k, fuel = k + 1 := ⟨fuel - 1, by omega⟩
    simp only [readElems]
    rw [hv k _ (by omega) (ends_dumpsL [] rest)]
    rfl
  | y :: xs, x, fuel, rest, hx, hw, hv, hf => by
    simp only [needL] at hf
    obtain ⟨k, rfl⟩ : ∃ k, fuel = k + 1 := ⟨fuel - 1, by omega⟩
    simp only [readElems]
    rw [hv k _ (by omega) (ends_dumpsL (y :: xs) rest)]
    have ih := readElems_dumps hl xs y k rest hw.1 hw.2 (fun fuel rest => readV_dumps hl y fuel rest hw.1) (by simp only [needL]; omega)
    simp only [dumpsL, List.cons_append, List.append_assoc, Option.bind_eq_bind, Option.bind_some]
    rw [show ∀ t, skipWs (44 :: t) = 44 :: t from fun _ => rfl]
    simp only []
    rw [show ∀ t, skipWs (32 :: t) = skipWs t from fun _ => rfl, skipWs_dumps hl, ih]
    rfl
theorem readEntries_dumps (hl : ft.Lawful) : ∀ (kvs : List (Str × Json)) (k : Str) (x : Json) (fuel : Nat) (rest : Str) (acc : List (Str × Json)),
    StrOk k → Json.WritableKv kvs → (acc.map (·.1) ++ k :: kvs.map (·.1)).Nodup →
    (∀ fuel rest, need x ≤ fuel → Ends rest → readV ft fuel (dumps ft x ++ rest) = some (x, rest)) →
    needKv ((k, x) :: kvs) ≤ fuel →
    readEntries ft fuel acc (34 :: (escStr k ++ 58 :: 32 :: (dumps ft x ++ (dumpsKv ft kvs ++ rest)))) = some (acc ++ (k, x) :: kvs, rest)
  | [], k, x, fuel, rest, acc, hk, _, hn, hv, hf => by
    simp only [needKv] at hf
    obtain ⟨n, rfl⟩ : ∃ n, fuel = n + 1 := ⟨fuel - 1, by omega⟩
    simp only [readEntries]
    rw [readStr_ok k hk]
    simp only [Option.bind_eq_bind, Option.bind_some]
    rw [show ∀ t, skipWs (58 :: t) = 58 :: t from fun _ => rfl]
    simp only []
    rw [show ∀ t, skipWs (32 :: t) = skipWs t from fun _ => rfl, skipWs_dumps hl, hv n _ (by omega) (ends_dumpsKv [] rest)]
    have hni : k ∉ acc.map (·.1) := fun hm => (List.nodup_append.1 hn).2.2 k hm k (by simp) rfl
    show some (dset k x acc, rest) = _
    rw [dset_of_not_mem k x acc hni]
  | (k', y) :: kvs, k, x, fuel, rest, acc, hk, hw, hn, hv, hf => by
    simp only [needKv] at hf
    obtain ⟨n, rfl⟩ : ∃ n, fuel = n + 1 := ⟨fuel - 1, by omega⟩
    simp only [readEntries]
    rw [readStr_ok k hk]
    simp only [Option.bind_eq_bind, Option.bind_some]
    rw [show ∀ t, skipWs (58 :: t) = 58 :: t from fun _ => rfl]
    simp only []
    rw [show ∀ t, skipWs (32 :: t) = skipWs t from fun _ => rfl, skipWs_dumps hl, hv n _ (by omega) (ends_dumpsKv ((k', y) :: kvs) rest)]
    have hni : k ∉ acc.map (·.1) := fun hm => (List.nodup_append.1 hn).2.2 k hm k (by simp) rfl
    simp only [Json.WritableKv] at hw
    have ih := readEntries_dumps hl kvs k' y n rest (acc ++ [(k, x)]) hw.1 hw.2.2 (by simpa using hn) (fun fuel rest => readV_dumps hl y fuel rest hw.2.1) (by simp only [needKv]; omega)
    simp only [dumpsKv, List.cons_append, List.append_assoc, Option.bind_some]
    rw [show ∀ t, skipWs (44 :: t) = 44 :: t from fun _ => rfl]
    simp only []
    rw [show ∀ t, skipWs (32 :: 34 :: t) = 34 :: t from fun _ => rfl, dset_of_not_mem k x acc hni]
    simpa using ih
end

mutual
theorem need_le (hl : ft.Lawful) : ∀ j : Json, need j ≤ 2 * (dumps ft j).length
  | .null => by simp [need, needL, needKv, dumps]
  | .bool true => by simp [need, needL, needKv, dumps]
  | .bool false => by simp [need, needL, needKv, dumps]
  | .int i => by
    obtain ⟨c, t, e, _⟩ := intText_head i
    simp only [need, dumps, e, List.length_cons]; omega
  | .float f => by
    cases e : ft.show f with
    | nil => exact absurd e (hl.nonempty f)
    | cons c t => simp only [need, dumps, e, List.length_cons]; omega
  | .str s => by simp only [need, dumps, List.length_cons]; omega
  | .arr [] => by simp [need, needL, needKv, dumps]
  | .arr (x :: xs) => by
    have h1 := need_le hl x
    have h2 := needL_le hl xs
    simp only [need, needL, dumps, List.length_cons, List.length_append]; omega
  | .obj [] => by simp [need, needL, needKv, dumps]
  | .obj ((k, x) :: kvs) => by
    have h1 := need_le hl x
    have h2 := needKv_le hl kvs
    simp only [need, needKv, dumps, List.length_cons, List.length_append]; omega
theorem needL_le (hl : ft.Lawful) : ∀ xs : List Json, needL xs + 1 ≤ 2 * (dumpsL ft xs).length
  | [] => by simp [needL, dumpsL]
  | x :: xs => by
    have h1 := need_le hl x
    have h2 := needL_le hl xs
    simp only [needL, dumpsL, List.length_cons, List.length_append]; omega
theorem needKv_le (hl : ft.Lawful) : ∀ kvs : List (Str × Json), needKv kvs + 1 ≤ 2 * (dumpsKv ft kvs).length
  | [] => by simp [needKv, dumpsKv]
  | (k, x) :: kvs => by
    have h1 := need_le hl x
    have h2 := needKv_le hl kvs
    simp only [needKv, dumpsKv, List.length_cons, List.length_append]; omega
end

theorem loads_dumps (hl : ft.Lawful) (j : Json) (hw : j.Writable) : loads ft (dumps ft j) = some j := by
  unfold loads
  have h1 := skipWs_dumps hl j []
  rw [List.append_nil] at h1
  have h2 := readV_dumps hl j (2 * (dumps ft j).length + 1) [] hw (by have := need_le hl j; omega) (by intro c t e; cases e)
  rw [List.append_nil] at h2
  rw [h1, h2]
  rfl

/-! ### the text is ASCII (`ensure_ascii`) -/

theorem hexDigit_ascii (n : Nat) : hexDigit (n % 16) < 128 := by
  have := Nat.mod_lt n (show 16 > 0 by decide)
  unfold hexDigit
  split <;> omega

theorem u4_ascii (n : Nat) : ∀ c ∈ u4 n, c < 128 := by
  intro c hc
  simp only [u4, hex4, List.mem_cons, List.not_mem_nil, or_false] at hc
  rcases hc with rfl | rfl | rfl | rfl | rfl | rfl
  · decide
  · decide
  all_goals exact hexDigit_ascii _

theorem escChar_ascii (x : Nat) : ∀ c ∈ escChar x, c < 128 := by
  intro c hc
  unfold escChar at hc
  repeat' split at hc
  all_goals first
    | (simp only [List.mem_cons, List.not_mem_nil, or_false] at hc; omega)
    | exact u4_ascii _ c hc
    | (rcases List.mem_append.1 hc with hc | hc <;> exact u4_ascii _ c hc)

theorem escStr_ascii : ∀ (s : Str), ∀ c ∈ escStr s, c < 128
  | [], c, hc => by simp only [escStr, List.mem_singleton] at hc; omega
  | x :: s, c, hc => by
    rcases List.mem_append.1 hc with hc | hc
    · exact escChar_ascii x c hc
    · exact escStr_ascii s c hc

theorem digit_ascii {c : Nat} (h : isDigit c = true) : c < 128 := by
  simp only [isDigit, Bool.and_eq_true, decide_eq_true_eq] at h
  omega

theorem intText_ascii (i : Int) : ∀ c ∈ intText i, c < 128 := by
  intro c hc
  cases i with
  | ofNat n => exact digit_ascii ((natText_spec _ n (by omega)).2.1 c hc)
  | negSucc n =>
    rcases List.mem_cons.1 hc with rfl | hc
    · decide
    · exact digit_ascii ((natText_spec _ (n + 1) (by omega)).2.1 c hc)

mutual
theorem dumps_ascii (hl : ft.Lawful) : ∀ (j : Json), ∀ c ∈ dumps ft j, c < 128
  | .null => by simp only [dumps]; decide
  | .bool b => by cases b <;> (simp only [dumps]; decide)
  | .int i => intText_ascii i
  | .float f => hl.ascii f
  | .str s => fun c hc => by
    simp only [dumps, List.mem_cons] at hc
    rcases hc with rfl | hc
    · decide
    · exact escStr_ascii s c hc
  | .arr [] => by simp only [dumps]; decide
  | .arr (x :: xs) => fun c hc => by
    simp only [dumps, List.mem_cons, List.mem_append] at hc
    rcases hc with rfl | hc | hc
    · decide
    · exact dumps_ascii hl x c hc
    · exact dumpsL_ascii hl xs c hc
  | .obj [] => by simp only [dumps]; decide
  | .obj ((k, x) :: kvs) => fun c hc => by
    simp only [dumps, List.mem_cons, List.mem_append] at hc
    rcases hc with rfl | rfl | hc | rfl | rfl | hc | hc
    · decide
    · decide
    · exact escStr_ascii k c hc
    · decide
    · decide
    · exact dumps_ascii hl x c hc
    · exact dumpsKv_ascii hl kvs c hc
theorem dumpsL_ascii (hl : ft.Lawful) : ∀ (xs : List Json), ∀ c ∈ dumpsL ft xs, c < 128
  | [] => by simp only [dumpsL]; decide
  | x :: xs => fun c hc => by
    simp only [dumpsL, List.mem_cons, List.mem_append] at hc
    rcases hc with rfl | rfl | hc | hc
    · decide
    · decide
    · exact dumps_ascii hl x c hc
    · exact dumpsL_ascii hl xs c hc
theorem dumpsKv_ascii (hl : ft.Lawful) : ∀ (kvs : List (Str × Json)), ∀ c ∈ dumpsKv ft kvs, c < 128
  | [] => by simp only [dumpsKv]; decide
  | (k, x) :: kvs => fun c hc => by
    simp only [dumpsKv, List.mem_cons, List.mem_append] at hc
    rcases hc with rfl | rfl | rfl | hc | rfl | rfl | hc | hc
    · decide
    · decide
    · decide
    · exact escStr_ascii k c hc
    · decide
    · decide
    · exact dumps_ascii hl x c hc
    · exact dumpsKv_ascii hl kvs c hc
end

end JP.JsonText
