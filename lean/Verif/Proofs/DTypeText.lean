import Verif.DTypeText
import Verif.Proofs.JsonText
/-! # Reading back the text of a dtype -/
namespace JP.DTypeText

open JP.JsonText (hexDigit hex4 u4 unhex readHex4 natText natVal isNat isDigit unhex_hexDigit readHex4_u4 natText_spec)

/-! ### strings -/

theorem readHex2_x2 (n : Nat) (hn : n < 256) (s : Str) : readHex2 (hexDigit (n / 16 % 16) :: hexDigit (n % 16) :: s) = some (n, s) := by
  simp only [readHex2]
  rw [unhex_hexDigit _ (Nat.mod_lt _ (by decide)), unhex_hexDigit _ (Nat.mod_lt _ (by decide))]
  simp only [Option.bind_eq_bind, Option.bind_some]
  congr 2
  omega

theorem readHex8_u8 (n : Nat) (hn : n < 0x110000) (s : Str) : readHex8 (hex4 (n / 65536) ++ (hex4 (n % 65536) ++ s)) = some (n, s) := by
  unfold readHex8
  rw [readHex4_u4 _ (by omega)]
  simp only [Option.bind_eq_bind, Option.bind_some]
  rw [readHex4_u4 _ (by omega)]
  simp only [Option.bind_some]
  congr 2
  omega

theorem readChars_esc {q fuel c : Nat} {t r : Str} (hq : q ≠ 92) (h : readEscape t = some (c, r)) :
    readChars q (fuel + 1) (92 :: t) = (readChars q fuel r).map (fun p => (c :: p.1, p.2)) := by
  simp only [readChars]
  rw [if_neg (fun e => hq e.symm), if_pos trivial, h]
  simp only [Option.bind_eq_bind, Option.bind_some]
  cases readChars q fuel r <;> rfl

theorem readChars_raw {q fuel c : Nat} {r : Str} (h1 : c ≠ q) (h2 : c ≠ 92) (h3 : c ≠ 10) (h4 : c ≠ 13) :
    readChars q (fuel + 1) (c :: r) = (readChars q fuel r).map (fun p => (c :: p.1, p.2)) := by
  simp only [readChars]
  rw [if_neg h1, if_neg h2, if_neg (by simp [h3, h4])]
  cases readChars q fuel r <;> rfl

theorem readChars_reprChar (pr : Nat → Bool) {q : Nat} (hq : q = 39 ∨ q = 34) (fuel c : Nat) (hc : c < 0x110000) (r : Str) :
    readChars q (fuel + 1) (reprChar pr q c ++ r) = (readChars q fuel r).map (fun p => (c :: p.1, p.2)) := by
  have hq' : q ≠ 92 := by omega
  unfold reprChar
  split
  · next h =>
    refine readChars_esc hq' ?_
    show readEscape (c :: r) = _
    simp only [readEscape]
    rw [if_pos (by omega)]
  · next h0 =>
    split
    · next h => subst h; exact readChars_esc hq' rfl
    · next h1 =>
      split
      · next h => subst h; exact readChars_esc hq' rfl
      · next h2 =>
        split
        · next h => subst h; exact readChars_esc hq' rfl
        · next h3 =>
          split
          · next h =>
            refine readChars_esc hq' ?_
            show readHex2 (hexDigit (c / 16 % 16) :: hexDigit (c % 16) :: r) = _
            exact readHex2_x2 c (by omega) r
          · next h4 =>
            split
            · exact readChars_raw (by omega) (by omega) (by omega) (by omega)
            · next h5 =>
              split
              · exact readChars_raw (by omega) (by omega) (by omega) (by omega)
              · split
                · refine readChars_esc hq' ?_
                  show readHex2 (hexDigit (c / 16 % 16) :: hexDigit (c % 16) :: r) = _
                  exact readHex2_x2 c (by omega) r
                · split
                  · refine readChars_esc hq' ?_
                    show readHex4 (hex4 c ++ r) = _
                    exact readHex4_u4 c (by omega) r
                  · refine readChars_esc hq' ?_
                    show readHex8 ((hex4 (c / 65536) ++ hex4 (c % 65536)) ++ r) = _
                    rw [List.append_assoc]
                    exact readHex8_u8 c hc r

theorem readChars_reprChars (pr : Nat → Bool) {q : Nat} (hq : q = 39 ∨ q = 34) : ∀ (s : Str), (∀ c ∈ s, c < 0x110000) → ∀ fuel, s.length < fuel → ∀ rest,
    readChars q fuel (reprChars pr q s ++ rest) = some (s, rest)
  | [], _, fuel + 1, _, rest => by
    show readChars q (fuel + 1) (q :: rest) = _
    simp only [readChars, if_true]
  | c :: s, h, fuel + 1, hf, rest => by
    simp only [reprChars, List.append_assoc]
    rw [readChars_reprChar pr hq fuel c (h c List.mem_cons_self),
      readChars_reprChars pr hq s (fun c hc => h c (List.mem_cons_of_mem _ hc)) fuel (by simp only [List.length_cons] at hf; omega) rest]
    rfl

theorem reprChar_pos (pr : Nat → Bool) (q c : Nat) : 1 ≤ (reprChar pr q c).length := by
  unfold reprChar
  repeat (first | split | (simp only [x2, u4, u8, List.length_cons]; omega))

theorem reprChars_len (pr : Nat → Bool) (q : Nat) : ∀ s : Str, s.length < (reprChars pr q s).length
  | [] => by simp [reprChars]
  | c :: s => by
    have h1 := reprChar_pos pr q c
    have h2 := reprChars_len pr q s
    simp only [reprChars, List.length_append, List.length_cons]; omega

theorem quote_cases (s : Str) : quote s = 39 ∨ quote s = 34 := by
  unfold quote
  split
  · exact .inr rfl
  · exact .inl rfl

def CodeOk (s : Str) : Prop := ∀ c ∈ s, c < 0x110000

theorem readChars_ok (pr : Nat → Bool) (s : Str) (h : CodeOk s) (rest : Str) :
    readChars (quote s) ((reprChars pr (quote s) s ++ rest).length + 1) (reprChars pr (quote s) s ++ rest) = some (s, rest) := by
  refine readChars_reprChars pr (quote_cases s) s h _ ?_ rest
  have := reprChars_len pr (quote s) s
  simp only [List.length_append]; omega

/-! ### words -/

def Ends (r : Str) : Prop := ∀ c t, r = c :: t → isDelim c = true

theorem word_append : ∀ (t r : Str), (∀ c ∈ t, isDelim c = false) → Ends r → word (t ++ r) = (t, r)
  | [], r, _, hr => by
    cases r with
    | nil => rfl
    | cons c r => simp only [List.nil_append, word, hr c r rfl, if_true]
  | c :: t, r, ht, hr => by
    have ih := word_append t r (fun x hx => ht x (List.mem_cons_of_mem _ hx)) hr
    simp only [List.cons_append, word, ht c List.mem_cons_self, Bool.false_eq_true, if_false]
    rw [ih]

theorem delim_ne {c : Nat} (h : isDelim c = false) : c ≠ 39 ∧ c ≠ 34 ∧ c ≠ 40 ∧ c ≠ 91 ∧ c ≠ 123 ∧ c ≠ 32 ∧ c ≠ 41 ∧ c ≠ 93 ∧ c ≠ 125 ∧ c ≠ 44 := by
  simp only [isDelim, Bool.or_eq_false_iff, beq_eq_false_iff_ne] at h
  omega

theorem readL_word {t : Str} (hne : t ≠ []) (hd : ∀ c ∈ t, isDelim c = false) {fuel : Nat} (hf : 1 ≤ fuel) {rest : Str} (hr : Ends rest) :
    readL fuel (t ++ rest) = (readWord t).map (fun x => (x, rest)) := by
  obtain ⟨n, rfl⟩ : ∃ n, fuel = n + 1 := ⟨fuel - 1, by omega⟩
  obtain ⟨c, u, rfl⟩ : ∃ c u, t = c :: u := by
    cases t with
    | nil => exact absurd rfl hne
    | cons c u => exact ⟨c, u, rfl⟩
  obtain ⟨h1, h2, h3, h4, h5, _⟩ := delim_ne (hd c List.mem_cons_self)
  have e : word (c :: u ++ rest) = (c :: u, rest) := word_append _ _ hd hr
  rw [List.cons_append] at e ⊢
  simp only [readL]
  rw [if_neg (by simp [h1, h2]), if_neg h3, if_neg h4, if_neg h5, e]
  cases readWord (c :: u) <;> rfl

theorem natText_delim (n : Nat) : ∀ c ∈ natText (n + 1) n, isDelim c = false := by
  intro c hc
  have := (natText_spec (n + 1) n (by omega)).2.1 c hc
  simp only [isDigit, Bool.and_eq_true, decide_eq_true_eq] at this
  simp only [isDelim, Bool.or_eq_false_iff, beq_eq_false_iff_ne]
  omega

theorem natText_ne (n : Nat) : natText (n + 1) n ≠ [] := by
  intro e
  have := (natText_spec (n + 1) n (by omega)).2.2.1
  rw [e] at this
  cases this

theorem readWord_nat (n : Nat) : readWord (natText (n + 1) n) = some (.int n) := by
  obtain ⟨h1, h2, h3, _⟩ := natText_spec (n + 1) n (by omega)
  have hd : ∀ {w : Str}, (∃ c ∈ w, isDigit c = false) → natText (n + 1) n ≠ w := by
    rintro w ⟨c, hc, hf⟩ e
    rw [← e] at hc
    rw [h2 c hc] at hf
    cases hf
  unfold readWord
  rw [if_neg (hd ⟨84, by decide, by decide⟩), if_neg (hd ⟨70, by decide, by decide⟩), if_neg (hd ⟨78, by decide, by decide⟩), if_pos h3, h1]

/-- names of classes with their modules -/
def ClassName (c : Str) : Prop := 46 ∈ c ∧ ∀ x ∈ c, isDelim x = false

theorem readWord_class {c : Str} (h : ClassName c) : readWord c = none := by
  have hd : ∀ {w : Str}, (46 : Nat) ∉ w → c ≠ w := fun hw e => hw (e ▸ h.1)
  unfold readWord
  rw [if_neg (hd (by decide)), if_neg (hd (by decide)), if_neg (hd (by decide)), if_neg]
  intro hn
  have hall : c.all isDigit = true := by
    revert hn
    match c with
    | [] => intro hn; cases hn
    | [x] => intro hn; simpa [isNat] using hn
    | x :: y :: r =>
      intro hn
      simp only [isNat, Bool.and_eq_true] at hn
      rw [List.all_cons, hn.1.2, hn.2]
      rfl
  exact absurd (List.all_eq_true.1 hall 46 h.1) (by decide)

/-! ### values -/

mutual
def Lit.Ok : Lit → Prop
  | .str s => CodeOk s
  | .int _ | .bool _ | .none => True
  | .tuple xs | .list xs => OkL xs
  | .dict kvs => (kvs.map (·.1)).Nodup ∧ OkKv kvs
  | .named c x => ClassName c ∧ x.Ok
def OkL : List Lit → Prop
  | [] => True
  | x :: xs => x.Ok ∧ OkL xs
def OkKv : List (Str × Lit) → Prop
  | [] => True
  | (k, x) :: kvs => CodeOk k ∧ x.Ok ∧ OkKv kvs
end

mutual
/-- there is no name in the text -/
def Lit.plain : Lit → Bool
  | .str _ | .int _ | .bool _ | .none => true
  | .tuple xs | .list xs => plainL xs
  | .dict kvs => plainKv kvs
  | .named _ _ => false
def plainL : List Lit → Bool
  | [] => true
  | x :: xs => x.plain && plainL xs
def plainKv : List (Str × Lit) → Bool
  | [] => true
  | (_, x) :: kvs => x.plain && plainKv kvs
end

mutual
def need : Lit → Nat
  | .str _ | .int _ | .bool _ | .none => 1
  | .tuple xs | .list xs => needL xs + 1
  | .dict kvs => needKv kvs + 1
  | .named _ _ => 3
def needL : List Lit → Nat
  | [] => 0
  | x :: xs => need x + needL xs + 1
def needKv : List (Str × Lit) → Nat
  | [] => 0
  | (_, x) :: kvs => need x + needKv kvs + 1
end

variable {pr : Nat → Bool}

theorem repr_head (x : Lit) : ∃ c t, repr pr x = c :: t ∧ c ≠ 32 ∧ c ≠ 41 ∧ c ≠ 93 ∧ c ≠ 125 := by
  match x with
  | .str s => exact ⟨quote s, _, rfl, by rcases quote_cases s with h | h <;> rw [h] <;> decide⟩
  | .int n =>
    cases e : natText (n + 1) n with
    | nil => exact absurd e (natText_ne n)
    | cons c t =>
      obtain ⟨_, _, _, _, _, h1, h2, h3, h4, _⟩ := delim_ne (natText_delim n c (by rw [e]; exact List.mem_cons_self))
      exact ⟨c, t, by rw [repr, e], h1, h2, h3, h4⟩
  | .bool true => exact ⟨_, _, rfl, by decide⟩
  | .bool false => exact ⟨_, _, rfl, by decide⟩
  | .none => exact ⟨_, _, rfl, by decide⟩
  | .tuple [] => exact ⟨_, _, rfl, by decide⟩
  | .tuple [x] => exact ⟨40, _, rfl, by decide⟩
  | .tuple (x :: y :: xs) => exact ⟨40, _, rfl, by decide⟩
  | .list [] => exact ⟨_, _, rfl, by decide⟩
  | .list (x :: xs) => exact ⟨91, _, rfl, by decide⟩
  | .dict [] => exact ⟨_, _, rfl, by decide⟩
  | .dict ((k, x) :: kvs) => exact ⟨123, _, rfl, by decide⟩
  | .named c x => exact ⟨40, _, rfl, by decide⟩

theorem skipSp_repr (x : Lit) (r : Str) : skipSp (repr pr x ++ r) = repr pr x ++ r := by
  obtain ⟨c, t, e, h, _⟩ := repr_head (pr := pr) x
  rw [e, List.cons_append, skipSp, if_neg h]

theorem ends_reprL (e : Nat) (he : isDelim e = true) (xs : List Lit) (r : Str) : Ends (reprL pr e xs ++ r) := by
  intro c t h
  cases xs with
  | nil => injection h with h _; subst h; exact he
  | cons x xs => injection h with h _; subst h; rfl

theorem ends_reprKv (kvs : List (Str × Lit)) (r : Str) : Ends (reprKv pr kvs ++ r) := by
  intro c t h
  match kvs with
  | [] => injection h with h _; subst h; rfl
  | (k, x) :: xs => injection h with h _; subst h; rfl

/-- what reading the text of `x` gives -/
def result {α : Type} : Bool → α → Str → Option (α × Str)
  | true, x, rest => some (x, rest)
  | false, _, _ => none

theorem reprStr_cons (s : Str) (r : Str) : reprStr pr s ++ r = quote s :: (reprChars pr (quote s) s ++ r) := rfl

theorem elems_tuple {n : Nat} {s : Str} (h1 : skipSp s = s) (h2 : ∀ t, s ≠ 41 :: t) :
    readL (n + 1) (40 :: s) = (readElems n 41 s).bind (fun p => match p.1, p.2.1 with | [x], false => some (x, p.2.2) | xs, _ => some (Lit.tuple xs, p.2.2)) := by
  simp only [readL]
  rw [if_neg (by decide), if_pos trivial, h1]
  cases s with
  | nil => cases h : readElems n 41 [] <;> simp only [h] <;> rfl
  | cons c t =>
    have hc : c ≠ 41 := fun e => h2 t (e ▸ rfl)
    split
    · next e => injection e with e _; exact absurd e hc
    · cases readElems n 41 (c :: t) <;> rfl

theorem elems_list {n : Nat} {s : Str} (h1 : skipSp s = s) (h2 : ∀ t, s ≠ 93 :: t) :
    readL (n + 1) (91 :: s) = (readElems n 93 s).map (fun p => (Lit.list p.1, p.2.2)) := by
  simp only [readL]
  rw [if_neg (by decide), if_neg (by decide), if_pos trivial, h1]
  cases s with
  | nil => cases h : readElems n 93 [] <;> simp [h]
  | cons c t =>
    have hc : c ≠ 93 := fun e => h2 t (e ▸ rfl)
    split
    · next e => injection e with e _; exact absurd e hc
    · cases readElems n 93 (c :: t) <;> rfl

theorem repr_ne (e : Nat) (he : e = 41 ∨ e = 93 ∨ e = 125) (x : Lit) (r t : Str) : repr pr x ++ r ≠ e :: t := by
  obtain ⟨c, u, e1, h⟩ := repr_head (pr := pr) x
  rw [e1]
  intro e2
  injection e2 with e2 _
  omega

mutual
theorem readL_repr : ∀ (x : Lit) (fuel : Nat) (rest : Str), x.Ok → need x ≤ fuel → Ends rest → readL fuel (repr pr x ++ rest) = result x.plain x rest
  | .str s, fuel, rest, hx, hf, hr => by
    obtain ⟨k, rfl⟩ : ∃ k, fuel = k + 1 := ⟨fuel - 1, by simp only [need] at hf; omega⟩
    show readL (k + 1) (reprStr pr s ++ rest) = _
    rw [reprStr_cons]
    simp only [readL]
    rw [if_pos (quote_cases s), readChars_ok pr s hx]
    rfl
  | .int n, fuel, rest, _, hf, hr => by
    show readL fuel (natText (n + 1) n ++ rest) = _
    rw [readL_word (natText_ne n) (natText_delim n) hf hr, readWord_nat]
    rfl
  | .bool true, fuel, rest, _, hf, hr => readL_word (t := p!"True") (by simp) (by decide) hf hr
  | .bool false, fuel, rest, _, hf, hr => readL_word (t := p!"False") (by simp) (by decide) hf hr
  | .none, fuel, rest, _, hf, hr => readL_word (t := p!"None") (by simp) (by decide) hf hr
  | .tuple [], fuel, rest, _, hf, hr => by
    obtain ⟨k, rfl⟩ : ∃ k, fuel = k + 1 := ⟨fuel - 1, by simp only [need] at hf; omega⟩
    rfl
  | .tuple [x], fuel, rest, hx, hf, hr => by
    simp only [need, needL] at hf
    obtain ⟨k, rfl⟩ : ∃ k, fuel = k + 1 + 1 := ⟨fuel - 2, by omega⟩
    have ih := readL_repr x k (44 :: 41 :: rest) hx.1 (by omega) (by intro c t e; injection e with e _; subst e; rfl)
    show readL (k + 1 + 1) (40 :: ((repr pr x ++ p!",)") ++ rest)) = _
    rw [List.append_assoc, elems_tuple (skipSp_repr x _) (repr_ne 41 (by decide) x _)]
    simp only [readElems]
    rw [show p!",)" ++ rest = 44 :: 41 :: rest from rfl, ih]
    simp only [Lit.plain, plainL, Bool.and_true]
    cases x.plain <;> rfl
  | .tuple (x :: y :: xs), fuel, rest, hx, hf, hr => by
    simp only [need] at hf
    obtain ⟨k, rfl⟩ : ∃ k, fuel = k + 1 := ⟨fuel - 1, by omega⟩
    have ih := readElems_repr 41 rfl (by decide) (y :: xs) x k rest hx.1 hx.2 (fun fuel rest => readL_repr x fuel rest hx.1) (by omega)
    show readL (k + 1) (40 :: ((repr pr x ++ reprL pr 41 (y :: xs)) ++ rest)) = _
    rw [List.append_assoc, elems_tuple (skipSp_repr x _) (repr_ne 41 (by decide) x _), ih]
    simp only [Lit.plain, plainL]
    cases (x.plain && (y.plain && plainL xs)) <;> rfl
  | .list [], fuel, rest, _, hf, hr => by
    obtain ⟨k, rfl⟩ : ∃ k, fuel = k + 1 := ⟨fuel - 1, by simp only [need] at hf; omega⟩
    rfl
  | .list (x :: xs), fuel, rest, hx, hf, hr => by
    simp only [need] at hf
    obtain ⟨k, rfl⟩ : ∃ k, fuel = k + 1 := ⟨fuel - 1, by omega⟩
    have ih := readElems_repr 93 rfl (by decide) xs x k rest hx.1 hx.2 (fun fuel rest => readL_repr x fuel rest hx.1) (by omega)
    show readL (k + 1) (91 :: ((repr pr x ++ reprL pr 93 xs) ++ rest)) = _
    rw [List.append_assoc, elems_list (skipSp_repr x _) (repr_ne 93 (by decide) x _), ih]
    simp only [Lit.plain, plainL]
    cases (x.plain && plainL xs) <;> rfl
  | .dict [], fuel, rest, _, hf, hr => by
    obtain ⟨k, rfl⟩ : ∃ k, fuel = k + 1 := ⟨fuel - 1, by simp only [need] at hf; omega⟩
    rfl
  | .dict ((k, x) :: kvs), fuel, rest, hx, hf, hr => by
    simp only [need] at hf
    obtain ⟨n, rfl⟩ : ∃ n, fuel = n + 1 := ⟨fuel - 1, by omega⟩
    have ih := readEntries_repr kvs k x n rest [] hx.2.1 hx.2.2.2 (by simpa using hx.1) (fun fuel rest => readL_repr x fuel rest hx.2.2.1) (by omega)
    show readL (n + 1) (123 :: ((reprStr pr k ++ 58 :: 32 :: (repr pr x ++ reprKv pr kvs)) ++ rest)) = _
    rw [List.append_assoc, List.cons_append, List.cons_append, List.append_assoc, reprStr_cons]
    rw [reprStr_cons] at ih
    simp only [readL]
    rw [if_neg (by decide), if_neg (by decide), if_neg (by decide), if_pos trivial, skipSp, if_neg (by rcases quote_cases k with h | h <;> rw [h] <;> decide)]
    split
    · next e => injection e with e _; rcases quote_cases k with h | h <;> rw [h] at e <;> cases e
    · rw [ih]
      simp only [Lit.plain, plainKv]
      cases (x.plain && plainKv kvs) <;> rfl
  | .named c x, fuel, rest, hx, hf, hr => by
    simp only [need] at hf
    obtain ⟨k, rfl⟩ : ∃ k, fuel = k + 1 + 1 := ⟨fuel - 2, by omega⟩
    show readL (k + 1 + 1) (40 :: ((c ++ 44 :: 32 :: (repr pr x ++ [41])) ++ rest)) = _
    have hne : c ≠ [] := fun e => by have := hx.1.1; rw [e] at this; cases this
    obtain ⟨d, u, rfl⟩ : ∃ d u, c = d :: u := by
      cases c with
      | nil => exact absurd rfl hne
      | cons d u => exact ⟨d, u, rfl⟩
    obtain ⟨_, _, _, _, _, h1, h2, _⟩ := delim_ne (hx.1.2 d List.mem_cons_self)
    rw [elems_tuple (by rw [List.cons_append, List.cons_append, skipSp, if_neg h1]) (by intro t e; injection e with e _; exact h2 e)]
    simp only [readElems]
    rw [List.append_assoc, readL_word hne hx.1.2 (by omega) (by intro c t e; injection e with e _; subst e; rfl), readWord_class hx.1]
    rfl
theorem readElems_repr (e : Nat) (he : isDelim e = true) (he' : e ≠ 44 ∧ (e = 41 ∨ e = 93 ∨ e = 125)) : ∀ (xs : List Lit) (x : Lit) (fuel : Nat) (rest : Str), x.Ok → OkL xs →
    (∀ fuel rest, need x ≤ fuel → Ends rest → readL fuel (repr pr x ++ rest) = result x.plain x rest) →
    needL (x :: xs) ≤ fuel →
    readElems fuel e (repr pr x ++ (reprL pr e xs ++ rest)) = (result (x.plain && plainL xs) (x :: xs) rest).map (fun p => (p.1, false, p.2))
  | [], x, fuel, rest, hx, _, hv, hf => by
    simp only [needL] at hf
    obtain ⟨k, rfl⟩ : ∃ k, fuel = k + 1 := ⟨fuel - 1, by omega⟩
    simp only [readElems]
    rw [hv k _ (by omega) (ends_reprL e he [] rest)]
    simp only [plainL, Bool.and_true]
    have h32 : e ≠ 32 := by omega
    cases x.plain
    · rfl
    · simp only [result, Option.bind_eq_bind, Option.bind_some, reprL, List.cons_append, List.nil_append, skipSp, h32, if_false, Option.map_some]
      exact if_pos trivial
  | y :: xs, x, fuel, rest, hx, hw, hv, hf => by
    simp only [needL] at hf
    obtain ⟨k, rfl⟩ : ∃ k, fuel = k + 1 := ⟨fuel - 1, by omega⟩
    simp only [readElems]
    rw [hv k _ (by omega) (ends_reprL e he (y :: xs) rest)]
    have ih := readElems_repr e he he' xs y k rest hw.1 hw.2 (fun fuel rest => readL_repr y fuel rest hw.1) (by simp only [needL]; omega)
    simp only [plainL] at ih ⊢
    cases x.plain
    · rfl
    · simp only [result, Option.bind_eq_bind, Option.bind_some, reprL, List.cons_append, List.append_assoc, Bool.true_and]
      rw [show ∀ t, skipSp (44 :: t) = 44 :: t from fun _ => rfl]
      dsimp only
      rw [if_neg (fun h => he'.1 h.symm), if_pos rfl, show ∀ t, skipSp (32 :: t) = skipSp t from fun _ => rfl, skipSp_repr]
      obtain ⟨c, t, e1, h1⟩ := repr_head (pr := pr) y
      rw [e1, List.cons_append] at ih ⊢
      dsimp only
      rw [if_neg (by omega), ih]
      cases (y.plain && plainL xs) <;> rfl
theorem readEntries_repr : ∀ (kvs : List (Str × Lit)) (k : Str) (x : Lit) (fuel : Nat) (rest : Str) (acc : List (Str × Lit)),
    CodeOk k → OkKv kvs → (acc.map (·.1) ++ k :: kvs.map (·.1)).Nodup →
    (∀ fuel rest, need x ≤ fuel → Ends rest → readL fuel (repr pr x ++ rest) = result x.plain x rest) →
    needKv ((k, x) :: kvs) ≤ fuel →
    readEntries fuel acc (reprStr pr k ++ 58 :: 32 :: (repr pr x ++ (reprKv pr kvs ++ rest))) = result (x.plain && plainKv kvs) (acc ++ (k, x) :: kvs) rest
  | [], k, x, fuel, rest, acc, hk, _, hn, hv, hf => by
    simp only [needKv] at hf
    obtain ⟨n, rfl⟩ : ∃ n, fuel = n + 1 := ⟨fuel - 1, by omega⟩
    rw [reprStr_cons]
    simp only [readEntries]
    rw [if_pos (quote_cases k), readChars_ok pr k hk]
    simp only [Option.bind_eq_bind, Option.bind_some]
    rw [show ∀ t, skipSp (58 :: t) = 58 :: t from fun _ => rfl]
    simp only []
    rw [show ∀ t, skipSp (32 :: t) = skipSp t from fun _ => rfl, skipSp_repr, hv n _ (by omega) (ends_reprKv [] rest)]
    have hni : k ∉ acc.map (·.1) := fun hm => (List.nodup_append.1 hn).2.2 k hm k (by simp) rfl
    simp only [plainKv, Bool.and_true]
    cases x.plain
    · rfl
    · show some (dset k x acc, rest) = _
      rw [dset_of_not_mem k x acc hni]
      rfl
  | (k', y) :: kvs, k, x, fuel, rest, acc, hk, hw, hn, hv, hf => by
    simp only [needKv] at hf
    obtain ⟨n, rfl⟩ : ∃ n, fuel = n + 1 := ⟨fuel - 1, by omega⟩
    rw [reprStr_cons]
    simp only [readEntries]
    rw [if_pos (quote_cases k), readChars_ok pr k hk]
    simp only [Option.bind_eq_bind, Option.bind_some]
    rw [show ∀ t, skipSp (58 :: t) = 58 :: t from fun _ => rfl]
    simp only []
    rw [show ∀ t, skipSp (32 :: t) = skipSp t from fun _ => rfl, skipSp_repr, hv n _ (by omega) (ends_reprKv ((k', y) :: kvs) rest)]
    have hni : k ∉ acc.map (·.1) := fun hm => (List.nodup_append.1 hn).2.2 k hm k (by simp) rfl
    have ih := readEntries_repr kvs k' y n rest (acc ++ [(k, x)]) hw.1 hw.2.2 (by simpa using hn) (fun fuel rest => readL_repr y fuel rest hw.2.1) (by simp only [needKv]; omega)
    simp only [plainKv] at ih ⊢
    cases x.plain
    · rfl
    · simp only [result, reprKv, List.cons_append, List.append_assoc, Option.bind_some, Bool.true_and]
      rw [show ∀ t, skipSp (44 :: t) = 44 :: t from fun _ => rfl]
      show readEntries n (dset k x acc) (skipSp (32 :: (reprStr pr k' ++ 58 :: 32 :: (repr pr y ++ (reprKv pr kvs ++ rest))))) = result (y.plain && plainKv kvs) (acc ++ (k, x) :: (k', y) :: kvs) rest
      rw [show ∀ t, skipSp (32 :: t) = skipSp t from fun _ => rfl, dset_of_not_mem k x acc hni]
      have hs : ∀ t, skipSp (reprStr pr k' ++ t) = reprStr pr k' ++ t := by
        intro t
        rw [reprStr_cons, skipSp, if_neg (by rcases quote_cases k' with h | h <;> rw [h] <;> decide)]
      rw [hs, ih, List.append_assoc]
      rfl
end

mutual
theorem need_le : ∀ x : Lit, x.Ok → need x ≤ 2 * (repr pr x).length
  | .str s, _ => by simp only [need, repr, reprStr, List.length_cons]; omega
  | .int n, _ => by
    cases e : natText (n + 1) n with
    | nil => exact absurd e (natText_ne n)
    | cons c t => simp only [need, repr, e, List.length_cons]; omega
  | .bool true, _ => by simp [need, repr]
  | .bool false, _ => by simp [need, repr]
  | .none, _ => by simp [need, repr]
  | .tuple [], _ => by simp [need, needL, repr]
  | .tuple [x], h => by
    have h1 := need_le x h.1
    simp only [need, needL, repr, List.length_cons, List.length_append]; omega
  | .tuple (x :: y :: xs), h => by
    have h1 := need_le x h.1
    have h2 := needL_le 41 (y :: xs) h.2
    simp only [need, repr, List.length_cons, List.length_append]
    rw [needL]
    omega
  | .list [], _ => by simp [need, needL, repr]
  | .list (x :: xs), h => by
    have h1 := need_le x h.1
    have h2 := needL_le 93 xs h.2
    simp only [need, needL, repr, List.length_cons, List.length_append]; omega
  | .dict [], _ => by simp [need, needKv, repr]
  | .dict ((k, x) :: kvs), h => by
    have h1 := need_le x h.2.2.1
    have h2 := needKv_le kvs h.2.2.2
    simp only [need, needKv, repr, List.length_cons, List.length_append]; omega
  | .named c x, _ => by simp only [need, repr, List.length_cons, List.length_append]; omega
theorem needL_le (e : Nat) : ∀ xs : List Lit, OkL xs → needL xs + 1 ≤ 2 * (reprL pr e xs).length
  | [], _ => by simp [needL, reprL]
  | x :: xs, h => by
    have h1 := need_le x h.1
    have h2 := needL_le e xs h.2
    simp only [needL, reprL, List.length_cons, List.length_append]; omega
theorem needKv_le : ∀ kvs : List (Str × Lit), OkKv kvs → needKv kvs + 1 ≤ 2 * (reprKv pr kvs).length
  | [], _ => by simp [needKv, reprKv]
  | (k, x) :: kvs, h => by
    have h1 := need_le x h.2.1
    have h2 := needKv_le kvs h.2.2
    simp only [needKv, reprKv, List.length_cons, List.length_append]; omega
end

/-- `literal_eval(repr(x))` is `x`, and fails if there is a name in the text -/
theorem literalEval_repr (x : Lit) (hx : x.Ok) : literalEval (repr pr x) = if x.plain then some x else none := by
  unfold literalEval
  have h := readL_repr (pr := pr) x (2 * (repr pr x).length + 1) [] hx (by have := need_le (pr := pr) x hx; omega) (by intro c t e; cases e)
  rw [List.append_nil] at h
  rw [h]
  cases x.plain <;> rfl

end JP.DTypeText
