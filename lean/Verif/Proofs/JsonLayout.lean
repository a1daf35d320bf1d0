import Verif.JsonLayout
import Verif.Proofs.JsonText
/-!
# Reading JSON text in any layout
-/
namespace JP.JsonText
open JP

/-- blanks, tabs and line breaks only -/
def Blank (s : Str) : Prop := ∀ c ∈ s, c = 32 ∨ c = 9 ∨ c = 10 ∨ c = 13

/-- the character `c` with blanks around it -/
def Around (c : Nat) (s : Str) : Prop := ∃ a b, s = a ++ c :: b ∧ Blank a ∧ Blank b

/-- the layout adds nothing but white space -/
structure Layout.Ok (L : Layout) : Prop where
  opening : ∀ n, Blank (L.opening n)
  between : ∀ n, Around 44 (L.between n)
  closing : ∀ n, Blank (L.closing n)
  colon : Around 58 L.colon

theorem isWs_of {c : Nat} (h : c = 32 ∨ c = 9 ∨ c = 10 ∨ c = 13) : isWs c = true := by
  rcases h with rfl | rfl | rfl | rfl <;> rfl

theorem skipWs_blank : ∀ (b : Str), Blank b → ∀ r, skipWs (b ++ r) = skipWs r
  | [], _, _ => rfl
  | c :: b, h, r => by
    simp only [List.cons_append, skipWs]
    rw [if_pos (isWs_of (h c (by simp)))]
    exact skipWs_blank b (fun x hx => h x (by simp [hx])) r

theorem skipWs_solid {c : Nat} (h : isWs c = false) (r : Str) : skipWs (c :: r) = c :: r := by
  simp [skipWs, h]

/-! ### what is read back -/

/-- what is read when the text of the string `s` is read: a pair of surrogates becomes one character -/
def merge : Str → Str
  | [] => []
  | [c] => [c]
  | hi :: lo :: r =>
    if 0xD800 ≤ hi ∧ hi < 0xDC00 ∧ 0xDC00 ≤ lo ∧ lo < 0xE000 then (0x10000 + (hi - 0xD800) * 1024 + (lo - 0xDC00)) :: merge r
    else hi :: merge (lo :: r)

mutual
/-- what is read when the text of the document is read, if anything; of entries with the same key the last one counts, at the place of the first -/
def norm (ft : FloatText) : Json → Option Json
  | .null => some .null
  | .bool b => some (.bool b)
  | .int i => some (.int i)
  | .float f => readWord ft (ft.show f)
  | .str s => some (.str (merge s))
  | .arr xs => (normL ft xs).map .arr
  | .obj kvs => (normKv ft [] kvs).map .obj
def normL (ft : FloatText) : List Json → Option (List Json)
  | [] => some []
  | x :: xs => do
    let y ← norm ft x
    let ys ← normL ft xs
    some (y :: ys)
def normKv (ft : FloatText) (acc : List (Str × Json)) : List (Str × Json) → Option (List (Str × Json))
  | [] => some acc
  | (k, x) :: kvs => do
    let y ← norm ft x
    normKv ft (dset (merge k) y acc) kvs
end

/-- all characters are code points -/
def Points (s : Str) : Prop := ∀ c ∈ s, c < 0x110000

mutual
/-- all strings of the document consist of code points -/
def PointsJ : Json → Prop
  | .str s => Points s
  | .arr xs => PointsL xs
  | .obj kvs => PointsKv kvs
  | _ => True
def PointsL : List Json → Prop
  | [] => True
  | x :: xs => PointsJ x ∧ PointsL xs
def PointsKv : List (Str × Json) → Prop
  | [] => True
  | (k, x) :: kvs => Points k ∧ PointsJ x ∧ PointsKv kvs
end

/-- a low surrogate is read as the second half of a pair -/
theorem escChar_surrogate (c : Nat) (h : 0xD800 ≤ c) (h2 : c < 0xE000) : escChar c = u4 c := by
  unfold escChar
  repeat (rw [if_neg (by omega)])
  rw [if_pos (by omega)]

theorem readStr_merge : ∀ (n : Nat) (s : Str), s.length ≤ n → Points s → ∀ fuel, s.length < fuel → ∀ rest,
    readStr fuel (escStr s ++ rest) = some (merge s, rest)
  | _, [], _, _, fuel, hf, rest => by
    obtain ⟨k, rfl⟩ : ∃ k, fuel = k + 1 := ⟨fuel - 1, by simp at hf; omega⟩
    simp [escStr, readStr, merge]
  | 0, _ :: _, h, _, _, _, _ => by simp at h
  | n + 1, [c], _, hp, fuel, hf, rest => by
    obtain ⟨k, rfl⟩ : ∃ k, fuel = k + 1 := ⟨fuel - 1, by simp at hf; omega⟩
    simp only [List.length_cons, List.length_nil] at hf
    simp only [escStr, List.append_assoc, merge]
    rw [readStr_escChar k c (hp c (by simp)) _ (fun _ => rfl)]
    obtain ⟨m, rfl⟩ : ∃ m, k = m + 1 := ⟨k - 1, by omega⟩
    simp [readStr]
  | n + 1, hi :: lo :: r, h, hp, fuel, hf, rest => by
    obtain ⟨k, rfl⟩ : ∃ k, fuel = k + 1 := ⟨fuel - 1, by simp at hf; omega⟩
    simp only [List.length_cons] at h hf
    by_cases hs : 0xD800 ≤ hi ∧ hi < 0xDC00 ∧ 0xDC00 ≤ lo ∧ lo < 0xE000
    · obtain ⟨a1, a2, a3, a4⟩ := hs
      have ih := readStr_merge n r (by omega) (fun c hc => hp c (by simp [hc])) k (by omega) rest
      simp only [escStr, List.append_assoc, merge]
      rw [if_pos ⟨a1, a2, a3, a4⟩, escChar_surrogate hi a1 (by omega), escChar_surrogate lo (by omega) a4,
        readStr_pair k hi lo ⟨a1, a2⟩ ⟨a3, a4⟩, ih]
      rfl
    · have ih := readStr_merge n (lo :: r) (by simp only [List.length_cons]; omega) (fun c hc => hp c (by simp [List.mem_cons.1 hc])) k (by simp only [List.length_cons]; omega) rest
      have e : merge (hi :: lo :: r) = hi :: merge (lo :: r) := by simp only [merge]; rw [if_neg hs]
      rw [e]
      rw [show escStr (hi :: lo :: r) ++ rest = escChar hi ++ (escStr (lo :: r) ++ rest) by simp [escStr]]
      rw [readStr_escChar k hi (hp hi (by simp)) _ (fun hh => ?_), ih]
      · rfl
      · simp only [escStr, List.append_assoc]
        exact readLow_escChar lo (hp lo (by simp)) (fun hl => hs ⟨hh.1, hh.2, hl.1, hl.2⟩) _

theorem readStr_points (s : Str) (h : Points s) (rest : Str) :
    readStr ((escStr s ++ rest).length + 1) (escStr s ++ rest) = some (merge s, rest) :=
  readStr_merge s.length s (Nat.le_refl _) h _ (by have := escStr_len s; simp only [List.length_append]; omega) rest

variable {ft : FloatText} {L : Layout}

theorem readV_word' {t : Str} (hne : t ≠ []) (hd : ∀ c ∈ t, isDelim c = false)
    {fuel : Nat} (hf : 1 ≤ fuel) {r : Str} (hr : Ends r) : readV ft fuel (t ++ r) = (readWord ft t).map (fun j => (j, r)) := by
  obtain ⟨k, rfl⟩ : ∃ k, fuel = k + 1 := ⟨fuel - 1, by omega⟩
  have hw := word_append t r hd hr
  cases t with
  | nil => exact absurd rfl hne
  | cons c s =>
    have hc := hd c (by simp)
    simp only [List.cons_append] at hw ⊢
    simp only [readV]
    rw [if_neg (by rintro rfl; revert hc; decide), if_neg (by rintro rfl; revert hc; decide), if_neg (by rintro rfl; revert hc; decide), hw]
    cases readWord ft (c :: s) <;> rfl

theorem pretty_head (hl : ft.Lawful) (n : Nat) (j : Json) : ∃ c t, pretty ft L n j = c :: t ∧ isWs c = false ∧ c ≠ 93 ∧ c ≠ 125 := by
  cases j with
  | arr xs => cases xs <;> exact ⟨91, _, rfl, rfl, by decide, by decide⟩
  | obj kvs => cases kvs <;> exact ⟨123, _, rfl, rfl, by decide, by decide⟩
  | null => exact dumps_head (ft := ft) hl .null
  | bool b => exact dumps_head (ft := ft) hl (.bool b)
  | int i => exact dumps_head (ft := ft) hl (.int i)
  | float f => exact dumps_head (ft := ft) hl (.float f)
  | str s => exact dumps_head (ft := ft) hl (.str s)

theorem skipWs_pretty (hl : ft.Lawful) (n : Nat) (j : Json) (r : Str) : skipWs (pretty ft L n j ++ r) = pretty ft L n j ++ r := by
  obtain ⟨c, t, e, h, _⟩ := pretty_head (L := L) hl n j
  rw [e]
  exact skipWs_solid h _

theorem ends_blank {b : Str} (hb : Blank b) {c : Nat} (hc : isDelim c = true) (r : Str) : Ends (b ++ c :: r) := by
  intro d t e
  cases b with
  | nil =>
    injection e with e1 _
    subst e1
    exact hc
  | cons x b =>
    injection e with e1 _
    subst e1
    rcases hb x (by simp) with rfl | rfl | rfl | rfl <;> rfl

theorem ends_prettyL (hL : L.Ok) (n : Nat) (xs : List Json) (r : Str) : Ends (prettyL ft L n xs ++ r) := by
  cases xs with
  | nil => simp only [prettyL, List.append_assoc]; exact ends_blank (hL.closing n) rfl _
  | cons x xs =>
    obtain ⟨a, b, e, ha, hb⟩ := hL.between n
    simp only [prettyL, e, List.append_assoc, List.cons_append]
    exact ends_blank ha rfl _

theorem ends_prettyKv (hL : L.Ok) (n : Nat) (kvs : List (Str × Json)) (r : Str) : Ends (prettyKv ft L n kvs ++ r) := by
  cases kvs with
  | nil => simp only [prettyKv, List.append_assoc]; exact ends_blank (hL.closing n) rfl _
  | cons x xs =>
    obtain ⟨a, b, e, ha, hb⟩ := hL.between n
    simp only [prettyKv, e, List.append_assoc, List.cons_append]
    exact ends_blank ha rfl _

mutual
theorem readV_pretty (hl : ft.Lawful) (hL : L.Ok) : ∀ (j : Json) (n fuel : Nat) (rest : Str), PointsJ j → need j ≤ fuel → Ends rest →
    readV ft fuel (pretty ft L n j ++ rest) = (norm ft j).map (fun y => (y, rest))
  | .null, n, fuel, rest, _, hf, hr => readV_word' (t := p!"null") (by simp) (by decide) hf hr
  | .bool true, n, fuel, rest, _, hf, hr => readV_word' (t := p!"true") (by simp) (by decide) hf hr
  | .bool false, n, fuel, rest, _, hf, hr => readV_word' (t := p!"false") (by simp) (by decide) hf hr
  | .int i, n, fuel, rest, _, hf, hr => by
    simp only [pretty, norm]
    obtain ⟨c, t, e, _⟩ := intText_head i
    rw [readV_word' (by rw [e]; simp) (intText_delim i) hf hr, readWord_int i]
  | .float f, n, fuel, rest, _, hf, hr => by
    simp only [pretty, norm]
    exact readV_word' (hl.nonempty f) (hl.oneWord f) hf hr
  | .str s, n, fuel, rest, hw, hf, hr => by
    obtain ⟨k, rfl⟩ : ∃ k, fuel = k + 1 := ⟨fuel - 1, by simp only [need] at hf; omega⟩
    simp only [pretty, List.cons_append, readV]
    rw [if_pos trivial, readStr_points s hw]
    rfl
  | .arr [], n, fuel, rest, _, hf, hr => by
    obtain ⟨k, rfl⟩ : ∃ k, fuel = k + 1 := ⟨fuel - 1, by simp only [need] at hf; omega⟩
    rfl
  | .arr (x :: xs), n, fuel, rest, hw, hf, hr => by
    simp only [need] at hf
    obtain ⟨k, rfl⟩ : ∃ k, fuel = k + 1 := ⟨fuel - 1, by omega⟩
    simp only [pretty, List.cons_append, List.append_assoc, readV]
    rw [if_neg (by decide), if_pos trivial, skipWs_blank _ (hL.opening n), skipWs_pretty hl]
    have ih := readElems_pretty hl hL xs x n k rest hw.2 (fun fuel rest => readV_pretty hl hL x (n + 1) fuel rest hw.1) (by omega)
    obtain ⟨c, t, e, h1, h2, h3⟩ := pretty_head (L := L) hl (n + 1) x
    rw [e] at ih ⊢
    simp only [List.cons_append] at ih ⊢
    split
    · next r e' => injection e' with e' _; exact absurd e' h2
    · rw [ih]
      simp only [norm]
      cases normL ft (x :: xs) <;> rfl
  | .obj [], n, fuel, rest, _, hf, hr => by
    obtain ⟨k, rfl⟩ : ∃ k, fuel = k + 1 := ⟨fuel - 1, by simp only [need] at hf; omega⟩
    rfl
  | .obj ((k, x) :: kvs), n, fuel, rest, hw, hf, hr => by
    simp only [need] at hf
    obtain ⟨m, rfl⟩ : ∃ m, fuel = m + 1 := ⟨fuel - 1, by omega⟩
    simp only [pretty, List.cons_append, List.append_assoc, readV]
    rw [if_neg (by decide), if_neg (by decide), if_pos trivial, skipWs_blank _ (hL.opening n), skipWs_solid rfl]
    have ih := readEntries_pretty hl hL kvs k x n m rest [] hw.1 hw.2.2 (fun fuel rest => readV_pretty hl hL x (n + 1) fuel rest hw.2.1) (by omega)
    simp only []
    rw [ih]
    simp only [norm]
    cases normKv ft [] ((k, x) :: kvs) <;> rfl
theorem readElems_pretty (hl : ft.Lawful) (hL : L.Ok) : ∀ (xs : List Json) (x : Json) (n fuel : Nat) (rest : Str), PointsL xs →
    (∀ fuel rest, need x ≤ fuel → Ends rest → readV ft fuel (pretty ft L (n + 1) x ++ rest) = (norm ft x).map (fun y => (y, rest))) →
    needL (x :: xs) ≤ fuel →
    readElems ft fuel (pretty ft L (n + 1) x ++ (prettyL ft L n xs ++ rest)) = (normL ft (x :: xs)).map (fun ys => (ys, rest))
  | [], x, n, fuel, rest, _, hv, hf => by
    simp only [needL] at hf
    obtain ⟨k, rfl⟩ : ∃ k, fuel = k + 1 := ⟨fuel - 1, by omega⟩
    simp only [readElems]
    rw [hv k _ (by omega) (ends_prettyL hL n [] rest)]
    simp only [normL]
    cases norm ft x with
    | none => rfl
    | some y =>
      simp only [Option.map_some, Option.bind_eq_bind, Option.bind_some, prettyL, List.append_assoc]
      rw [skipWs_blank _ (hL.closing n)]
      rfl
  | y :: xs, x, n, fuel, rest, hw, hv, hf => by
    simp only [needL] at hf
    obtain ⟨k, rfl⟩ : ∃ k, fuel = k + 1 := ⟨fuel - 1, by omega⟩
    simp only [readElems]
    rw [hv k _ (by omega) (ends_prettyL hL n (y :: xs) rest)]
    have ih := readElems_pretty hl hL xs y n k rest hw.2 (fun fuel rest => readV_pretty hl hL y (n + 1) fuel rest hw.1) (by simp only [needL]; omega)
    obtain ⟨a, b, e, ha, hb⟩ := hL.between n
    rw [normL]
    cases norm ft x with
    | none => rfl
    | some z =>
      simp only [prettyL, e, List.cons_append, List.append_assoc, Option.map_some, Option.bind_eq_bind, Option.bind_some]
      rw [skipWs_blank _ ha, skipWs_solid rfl]
      simp only []
      rw [skipWs_blank _ hb, skipWs_pretty hl, ih]
      cases normL ft (y :: xs) <;> rfl
theorem readEntries_pretty (hl : ft.Lawful) (hL : L.Ok) : ∀ (kvs : List (Str × Json)) (k : Str) (x : Json) (n fuel : Nat) (rest : Str) (acc : List (Str × Json)),
    Points k → PointsKv kvs →
    (∀ fuel rest, need x ≤ fuel → Ends rest → readV ft fuel (pretty ft L (n + 1) x ++ rest) = (norm ft x).map (fun y => (y, rest))) →
    needKv ((k, x) :: kvs) ≤ fuel →
    readEntries ft fuel acc (34 :: (escStr k ++ (L.colon ++ (pretty ft L (n + 1) x ++ (prettyKv ft L n kvs ++ rest))))) = (normKv ft acc ((k, x) :: kvs)).map (fun ys => (ys, rest))
  | [], k, x, n, fuel, rest, acc, hk, _, hv, hf => by
    simp only [needKv] at hf
    obtain ⟨m, rfl⟩ : ∃ m, fuel = m + 1 := ⟨fuel - 1, by omega⟩
    obtain ⟨a, b, e, ha, hb⟩ := hL.colon
    simp only [readEntries]
    rw [readStr_points k hk]
    simp only [e, List.append_assoc, List.cons_append, Option.bind_eq_bind, Option.bind_some]
    rw [skipWs_blank _ ha, skipWs_solid rfl]
    simp only []
    rw [skipWs_blank _ hb, skipWs_pretty hl, hv m _ (by omega) (ends_prettyKv hL n [] rest)]
    simp only [normKv]
    cases norm ft x with
    | none => rfl
    | some y =>
      simp only [Option.map_some, Option.bind_eq_bind, Option.bind_some, prettyKv, List.append_assoc]
      rw [skipWs_blank _ (hL.closing n)]
      rfl
  | (k', y) :: kvs, k, x, n, fuel, rest, acc, hk, hw, hv, hf => by
    simp only [needKv] at hf
    obtain ⟨m, rfl⟩ : ∃ m, fuel = m + 1 := ⟨fuel - 1, by omega⟩
    obtain ⟨a, b, e, ha, hb⟩ := hL.colon
    obtain ⟨a', b', e', ha', hb'⟩ := hL.between n
    simp only [readEntries]
    rw [readStr_points k hk]
    simp only [Option.bind_eq_bind, Option.bind_some]
    rw [show ∀ t : Str, L.colon ++ t = a ++ 58 :: (b ++ t) from fun t => by rw [e]; simp]
    rw [skipWs_blank _ ha, skipWs_solid rfl]
    simp only []
    rw [skipWs_blank _ hb, skipWs_pretty hl, hv m _ (by omega) (ends_prettyKv hL n ((k', y) :: kvs) rest)]
    rw [normKv]
    cases norm ft x with
    | none => rfl
    | some z =>
      have ih := readEntries_pretty hl hL kvs k' y n m rest (dset (merge k) z acc) hw.1 hw.2.2 (fun fuel rest => readV_pretty hl hL y (n + 1) fuel rest hw.2.1) (by simp only [needKv]; omega)
      simp only [prettyKv, e', List.cons_append, List.append_assoc, Option.map_some, Option.bind_eq_bind, Option.bind_some]
      rw [skipWs_blank _ ha', skipWs_solid rfl]
      simp only []
      rw [skipWs_blank _ hb', skipWs_solid rfl, ih]
end

mutual
theorem need_pretty (hl : ft.Lawful) (hL : L.Ok) : ∀ (j : Json) (n : Nat), need j ≤ 2 * (pretty ft L n j).length
  | .null, _ => by simp [need, needL, needKv, pretty]
  | .bool true, _ => by simp [need, needL, needKv, pretty]
  | .bool false, _ => by simp [need, needL, needKv, pretty]
  | .int i, _ => by
    obtain ⟨c, t, e, _⟩ := intText_head i
    simp only [need, pretty, e, List.length_cons]; omega
  | .float f, _ => by
    cases e : ft.show f with
    | nil => exact absurd e (hl.nonempty f)
    | cons c t => simp only [need, pretty, e, List.length_cons]; omega
  | .str s, _ => by simp only [need, pretty, List.length_cons]; omega
  | .arr [], _ => by simp [need, needL, needKv, pretty]
  | .arr (x :: xs), n => by
    have h1 := need_pretty hl hL x (n + 1)
    have h2 := needL_pretty hl hL xs n
    simp only [need, needL, pretty, List.length_cons, List.length_append]; omega
  | .obj [], _ => by simp [need, needL, needKv, pretty]
  | .obj ((k, x) :: kvs), n => by
    have h1 := need_pretty hl hL x (n + 1)
    have h2 := needKv_pretty hl hL kvs n
    simp only [need, needKv, pretty, List.length_cons, List.length_append]; omega
theorem needL_pretty (hl : ft.Lawful) (hL : L.Ok) : ∀ (xs : List Json) (n : Nat), needL xs + 1 ≤ 2 * (prettyL ft L n xs).length
  | [], n => by simp only [needL, prettyL, List.length_append, List.length_cons]; omega
  | x :: xs, n => by
    have h1 := need_pretty hl hL x (n + 1)
    have h2 := needL_pretty hl hL xs n
    obtain ⟨a, b, e, _⟩ := hL.between n
    simp only [needL, prettyL, e, List.length_cons, List.length_append]; omega
theorem needKv_pretty (hl : ft.Lawful) (hL : L.Ok) : ∀ (kvs : List (Str × Json)) (n : Nat), needKv kvs + 1 ≤ 2 * (prettyKv ft L n kvs).length
  | [], n => by simp only [needKv, prettyKv, List.length_append, List.length_cons]; omega
  | (k, x) :: kvs, n => by
    have h1 := need_pretty hl hL x (n + 1)
    have h2 := needKv_pretty hl hL kvs n
    obtain ⟨a, b, e, _⟩ := hL.between n
    simp only [needKv, prettyKv, e, List.length_cons, List.length_append]; omega
end

theorem loads_pretty (hl : ft.Lawful) (hL : L.Ok) (j : Json) (hp : PointsJ j) (n : Nat) : loads ft (pretty ft L n j) = norm ft j := by
  unfold loads
  have h1 := skipWs_pretty (L := L) hl n j []
  rw [List.append_nil] at h1
  have h2 := readV_pretty hl hL j n (2 * (pretty ft L n j).length + 1) [] hp (by have := need_pretty hl hL j n; omega) (by intro c t e; cases e)
  rw [List.append_nil] at h2
  rw [h1, h2]
  cases norm ft j <;> rfl

/-! ### the default layout -/

theorem default_ok : (Layout.of none none).Ok where
  opening _ := by intro c hc; cases hc
  between _ := ⟨[], [32], rfl, (fun c hc => by cases hc), (fun c hc => by simp at hc; exact .inl hc)⟩
  closing _ := by intro c hc; cases hc
  colon := ⟨[], [32], rfl, (fun c hc => by cases hc), (fun c hc => by simp at hc; exact .inl hc)⟩

mutual
theorem pretty_default : ∀ (j : Json) (n : Nat), pretty ft (Layout.of none none) n j = dumps ft j
  | .null, _ => rfl
  | .bool _, _ => rfl
  | .int _, _ => rfl
  | .float _, _ => rfl
  | .str _, _ => rfl
  | .arr [], _ => rfl
  | .arr (x :: xs), n => by
    simp only [pretty, dumps, pretty_default x (n + 1), prettyL_default xs n]
    rfl
  | .obj [], _ => rfl
  | .obj ((k, x) :: kvs), n => by
    simp only [pretty, dumps, pretty_default x (n + 1), prettyKv_default kvs n]
    rfl
theorem prettyL_default : ∀ (xs : List Json) (n : Nat), prettyL ft (Layout.of none none) n xs = dumpsL ft xs
  | [], _ => rfl
  | x :: xs, n => by
    simp only [prettyL, dumpsL, pretty_default x (n + 1), prettyL_default xs n]
    rfl
theorem prettyKv_default : ∀ (kvs : List (Str × Json)) (n : Nat), prettyKv ft (Layout.of none none) n kvs = dumpsKv ft kvs
  | [], _ => rfl
  | (k, x) :: kvs, n => by
    simp only [prettyKv, dumpsKv, pretty_default x (n + 1), prettyKv_default kvs n]
    rfl
end

theorem newline_blank {t : Str} (h : Blank t) : ∀ n, Blank (newline t n)
  | 0 => by intro c hc; simp [newline] at hc; exact .inr (.inr (.inl hc))
  | n + 1 => by
    intro c hc
    rcases List.mem_append.1 hc with hc | hc
    · exact newline_blank h n c hc
    · exact h c hc

end JP.JsonText
