import Verif.Proofs.DTypeText
import Verif.Sample
/-!
# C83 — the text of a numpy dtype

Which dtypes come back from the text that the numpy handlers store: `back` gives the result for every dtype, `roundtrip_iff` the ones that come back
unchanged.  Subarray dtypes and dtypes with record classes inside are written and cannot be read (`subarray_raises`, `nested_record_raises`); record dtypes come
back as plain structured dtypes (`record_lost`).
-/
namespace JP.C83
open JP DTypeText

variable {pr : Nat → Bool} {sc : Scalars}

/-- the texts of scalar dtypes name them, and do not look like descriptions -/
structure Lawful (sc : Scalars) : Prop where
  long : ∀ s, sc.read (sc.long s) = some s
  short : ∀ s, sc.read (sc.short s) = some s
  head : ∀ s, ∃ c t, sc.long s = c :: t ∧ c ≠ 91 ∧ c ≠ 123 ∧ c ≠ 40
  parens : ∀ t, sc.read (40 :: t) = none
  ok : ∀ s, CodeOk (sc.short s)

mutual
/-- dtypes as numpy makes them: subarrays have dimensions and are not nested; names are strings of code points; classes have dotted names -/
def Valid {S : Type} : DType S → Prop
  | .scalar _ => True
  | .sub b shape => Valid b ∧ shape ≠ [] ∧ ∀ b' sh, b ≠ .sub b' sh
  | .struct cls fs _ => (∀ c, cls = some c → ClassName c) ∧ ValidL fs
def ValidL {S : Type} : Fields S → Prop
  | [] => True
  | (n, t, d, _) :: fs => CodeOk n ∧ (∀ s, t = some s → CodeOk s) ∧ Valid d ∧ ValidL fs
end

mutual
/-- no structured dtype inside has a class other than `numpy.void` -/
def plain {S : Type} : DType S → Bool
  | .scalar _ => true
  | .sub b _ => plain b
  | .struct cls fs _ => cls.isNone && plainFields fs
def plainFields {S : Type} : Fields S → Bool
  | [] => true
  | (_, _, d, _) :: fs => plain d && plainFields fs
end

/-! ### the description -/

theorem okL_ints : ∀ (xs : List Nat), OkL (xs.map .int) ∧ plainL (xs.map .int) = true
  | [] => ⟨trivial, rfl⟩
  | _ :: xs => ⟨⟨trivial, (okL_ints xs).1⟩, (okL_ints xs).2⟩

theorem shape_ok (shape : List Nat) : (shapeLit shape).Ok ∧ (shapeLit shape).plain = true := okL_ints shape

theorem name_ok {n : Str} {t : Option Str} (hn : CodeOk n) (ht : ∀ s, t = some s → CodeOk s) : (nameLit n t).Ok ∧ (nameLit n t).plain = true := by
  cases t with
  | none => exact ⟨hn, rfl⟩
  | some s => exact ⟨⟨ht s rfl, hn, trivial⟩, rfl⟩

theorem parts_ok {d : DType sc.S} {x : Lit} (h : x.Ok) : OkL (parts sc d x) ∧ plainL (parts sc d x) = x.plain := by
  unfold parts
  split
  · exact ⟨h, rfl⟩
  · exact ⟨⟨h, trivial⟩, by simp only [plainL, Bool.and_true]⟩

theorem dict_ok {fs : Fields sc.S} (hv : ValidL fs) {formats : List Lit} (hf : OkL formats) (n : Nat) :
    (dictLit sc fs formats n).Ok ∧ (dictLit sc fs formats n).plain = plainL formats := by
  have h1 : ∀ (fs : Fields sc.S), ValidL fs → OkL (fs.map (fun f => Lit.str f.1)) ∧ plainL (fs.map (fun f => Lit.str f.1)) = true ∧
      OkL (fs.map (fun f => titleLit f.2.1)) ∧ plainL (fs.map (fun f => titleLit f.2.1)) = true ∧
      OkL (fs.map (fun f => Lit.int f.2.2.2)) ∧ plainL (fs.map (fun f => Lit.int f.2.2.2)) = true := by
    intro fs
    induction fs with
    | nil => intro _; exact ⟨trivial, rfl, trivial, rfl, trivial, rfl⟩
    | cons f fs ih =>
      obtain ⟨n, t, d, o⟩ := f
      intro h
      obtain ⟨a1, a2, a3, a4, a5, a6⟩ := ih h.2.2.2
      have ht : (titleLit t).Ok ∧ (titleLit t).plain = true := by
        cases t with
        | none => exact ⟨trivial, rfl⟩
        | some s => exact ⟨h.2.1 s rfl, rfl⟩
      refine ⟨⟨h.1, a1⟩, a2, ⟨ht.1, a3⟩, ?_, ⟨trivial, a5⟩, a6⟩
      show ((titleLit t).plain && plainL (fs.map (fun f => titleLit f.2.1))) = true
      rw [ht.2, a4]
      rfl
  obtain ⟨a1, a2, a3, a4, a5, a6⟩ := h1 fs hv
  have hk : ∀ s : Str, (∀ c ∈ s, c < 128) → CodeOk s := fun s h c hc => by have := h c hc; omega
  unfold dictLit
  cases fs.any (fun f => f.2.1.isSome)
  · refine ⟨⟨show [p!"names", p!"formats", p!"offsets", p!"itemsize"].Nodup by decide, hk _ (by decide), a1, hk _ (by decide), hf, hk _ (by decide), a5, hk _ (by decide), trivial, trivial⟩, ?_⟩
    show (plainL _ && (plainL formats && (plainL _ && true))) = _
    rw [a2, a6, Bool.true_and, Bool.and_true, Bool.and_true]
  · refine ⟨⟨show [p!"names", p!"formats", p!"offsets", p!"titles", p!"itemsize"].Nodup by decide, hk _ (by decide), a1, hk _ (by decide), hf, hk _ (by decide), a5, hk _ (by decide), a3, hk _ (by decide), trivial, trivial⟩, ?_⟩
    show (plainL _ && (plainL formats && (plainL _ && (plainL _ && true)))) = _
    rw [a2, a6, a4, Bool.true_and, Bool.and_true, Bool.and_true, Bool.and_true]

mutual
theorem lit_ok (hl : Lawful sc) : ∀ d : DType sc.S, Valid d → (lit sc d).Ok ∧ (lit sc d).plain = plain d
  | .scalar s, _ => ⟨hl.ok s, rfl⟩
  | .sub b shape, h => by
    obtain ⟨h1, h2⟩ := lit_ok hl b h.1
    obtain ⟨h3, h4⟩ := shape_ok shape
    refine ⟨⟨h1, h3, trivial⟩, ?_⟩
    show ((lit sc b).plain && ((shapeLit shape).plain && true)) = plain b
    rw [h2, h4, Bool.and_true, Bool.and_true]
  | .struct cls fs n, h => by
    have h1 := items_ok hl fs h.2
    have h2 := formats_ok hl fs h.2
    have h3 := dict_ok h.2 h2.1 n
    have hx : ∀ x : Lit, x.Ok → x.plain = plainFields fs → (withClass cls x).Ok ∧ (withClass cls x).plain = (cls.isNone && plainFields fs) := by
      intro x h4 h5
      cases cls with
      | none => exact ⟨h4, h5⟩
      | some c => exact ⟨⟨h.1 c rfl, h4⟩, rfl⟩
    rw [lit]
    split
    · exact hx _ h1.1 h1.2
    · exact hx _ h3.1 (h3.2.trans h2.2)
theorem items_ok (hl : Lawful sc) : ∀ fs : Fields sc.S, ValidL fs → OkL (litItems sc fs) ∧ plainL (litItems sc fs) = plainFields fs
  | [], _ => ⟨trivial, rfl⟩
  | (n, t, d, o) :: fs, h => by
    obtain ⟨h1, h2⟩ := lit_ok hl d h.2.2.1
    obtain ⟨h3, h4⟩ := items_ok hl fs h.2.2.2
    obtain ⟨h5, h6⟩ := parts_ok (sc := sc) (d := d) h1
    obtain ⟨h7, h8⟩ := name_ok h.1 h.2.1
    refine ⟨⟨⟨h7, h5⟩, h3⟩, ?_⟩
    show (((nameLit n t).plain && plainL (parts sc d (lit sc d))) && plainL (litItems sc fs)) = _
    rw [h8, h6, h2, h4]
    rfl
theorem formats_ok (hl : Lawful sc) : ∀ fs : Fields sc.S, ValidL fs → OkL (litFormats sc fs) ∧ plainL (litFormats sc fs) = plainFields fs
  | [], _ => ⟨trivial, rfl⟩
  | (n, t, d, o) :: fs, h => by
    obtain ⟨h1, h2⟩ := lit_ok hl d h.2.2.1
    obtain ⟨h3, h4⟩ := formats_ok hl fs h.2.2.2
    refine ⟨⟨h1, h3⟩, ?_⟩
    show ((lit sc d).plain && plainL (litFormats sc fs)) = _
    rw [h2, h4]
    rfl
end

/-! ### reading the description -/

theorem asInts_map : ∀ xs : List Nat, asInts (xs.map .int) = some xs
  | [] => rfl
  | x :: xs => by
    show (asInts (xs.map .int)).map (x :: ·) = _
    rw [asInts_map xs]
    rfl

theorem asName_lit (n : Str) (t : Option Str) : asName (nameLit n t) = some (n, t) := by cases t <;> rfl

theorem mkItem_sub {nm x : Lit} {n : Str} {t : Option Str} {sh : List Nat} {d : DType sc.S} (hn : asName nm = some (n, t))
    (h : mk sc (.tuple [x, shapeLit sh]) = some d) : mkItem sc [nm, x, shapeLit sh] (mkAll sc [nm, x, shapeLit sh]) = some (n, t, d) := by
  simp only [mk, mkAll, mkItem, shapeLit] at h ⊢
  cases hx : mk sc x with
  | none => rw [hx] at h; cases h
  | some e =>
    rw [hx] at h
    simp only [asInts_map, Option.map_some, Option.some.injEq] at h
    show (asName nm).bind (fun p => (asInts (sh.map .int)).bind (fun sh => some (p.1, p.2, mkSub sc e sh))) = _
    rw [hn, asInts_map]
    simp only [Option.bind_some, h]

theorem mkItem_lit {n : Str} {t : Option Str} {d : DType sc.S} (h : mk sc (lit sc d) = some d) :
    mkItem sc (nameLit n t :: parts sc d (lit sc d)) (mkAll sc (nameLit n t :: parts sc d (lit sc d))) = some (n, t, d) := by
  cases d with
  | sub b sh =>
    exact mkItem_sub (asName_lit n t) h
  | scalar s =>
    show mkItem sc [nameLit n t, lit sc (.scalar s)] [mk sc (nameLit n t), mk sc (lit sc (.scalar s))] = _
    rw [h]
    simp only [mkItem, asName_lit, Option.map_some]
  | struct c fs m =>
    show mkItem sc [nameLit n t, lit sc (.struct c fs m)] [mk sc (nameLit n t), mk sc (lit sc (.struct c fs m))] = _
    rw [h]
    simp only [mkItem, asName_lit, Option.map_some]

theorem mkDict_lit {fs : Fields sc.S} {formats : List Lit} (h : mkAll sc formats = fs.map (fun f => some f.2.2.1)) (n : Nat) :
    mk sc (dictLit sc fs formats n) = some (.struct none fs n) := by
  have h1 : ∀ fs : Fields sc.S, asStrs (fs.map (fun f => Lit.str f.1)) = some (fs.map (·.1)) := by
    intro fs
    induction fs with
    | nil => rfl
    | cons f fs ih => simp only [List.map_cons, asStrs, ih, Option.map_some]
  have h2 : ∀ fs : Fields sc.S, asInts (fs.map (fun f => Lit.int f.2.2.2)) = some (fs.map (·.2.2.2)) := by
    intro fs
    induction fs with
    | nil => rfl
    | cons f fs ih => simp only [List.map_cons, asInts, ih, Option.map_some]
  have h3 : ∀ fs : Fields sc.S, asTitles (fs.map (fun f => titleLit f.2.1)) = some (fs.map (·.2.1)) := by
    intro fs
    induction fs with
    | nil => rfl
    | cons f fs ih =>
      obtain ⟨n, t, d, o⟩ := f
      cases t with
      | none =>
        show (asTitles (fs.map (fun f => titleLit f.2.1))).map (none :: ·) = _
        rw [ih]
        rfl
      | some s =>
        show (asTitles (fs.map (fun f => titleLit f.2.1))).map (some s :: ·) = _
        rw [ih]
        rfl
  have h4 : ∀ fs : Fields sc.S, zipFields sc (fs.map (·.1)) (fs.map (·.2.1)) (fs.map (fun f => some f.2.2.1)) (fs.map (·.2.2.2)) = some fs := by
    intro fs
    induction fs with
    | nil => rfl
    | cons f fs ih => simp only [List.map_cons, zipFields, ih, Option.map_some]
  have h5 : ∀ fs : Fields sc.S, fs.any (fun f => f.2.1.isSome) = false → (fs.map (·.1)).map (fun _ => none) = fs.map (fun f => f.2.1) := by
    intro fs
    induction fs with
    | nil => intro _; rfl
    | cons f fs ih =>
      intro h
      rw [List.any_cons, Bool.or_eq_false_iff] at h
      obtain ⟨n, t, d, o⟩ := f
      cases t with
      | none => simp only [List.map_cons, ih h.2]
      | some s => exact absurd h.1 (by simp)
  unfold dictLit
  cases ha : fs.any (fun f => f.2.1.isSome)
  · rw [if_neg (by simp)]
    show mkDict sc _ (mkEntries sc _) = _
    simp only [List.cons_append, List.nil_append, mkEntries, h]
    show (((some (fs.map (fun f => Lit.str f.1))).bind asStrs).bind fun names => ((some (fs.map (fun f => Lit.int f.2.2.2))).bind asInts).bind fun offsets =>
      (some (names.map (fun _ => none))).bind fun titles => (some (fs.map (fun f => some f.2.2.1))).bind fun formats => (some n).bind fun n =>
      (zipFields sc names titles formats offsets).bind fun fs => some (DType.struct none fs n)) = _
    simp only [Option.bind_some, h1, h2, h5 fs ha, h4]
  · rw [if_pos rfl]
    show mkDict sc _ (mkEntries sc _) = _
    simp only [List.cons_append, List.nil_append, mkEntries, h]
    show (((some (fs.map (fun f => Lit.str f.1))).bind asStrs).bind fun names => ((some (fs.map (fun f => Lit.int f.2.2.2))).bind asInts).bind fun offsets =>
      (asTitles (fs.map (fun f => titleLit f.2.1))).bind fun titles => (some (fs.map (fun f => some f.2.2.1))).bind fun formats => (some n).bind fun n =>
      (zipFields sc names titles formats offsets).bind fun fs => some (DType.struct none fs n)) = _
    simp only [Option.bind_some, h1, h2, h3, h4]

mutual
theorem mk_lit (hl : Lawful sc) : ∀ d : DType sc.S, Valid d → plain d = true → mk sc (lit sc d) = some d
  | .scalar s, _, _ => by
    show (sc.read (sc.short s)).map DType.scalar = _
    rw [hl.short]
    rfl
  | .sub b shape, h, hp => by
    have ih := mk_lit hl b h.1 hp
    show (match mkAll sc [lit sc b, shapeLit shape], [lit sc b, shapeLit shape] with
      | [some d, _], [_, .tuple sh] => (asInts sh).map (mkSub sc d)
      | _, _ => none) = _
    simp only [mkAll, ih, shapeLit, asInts_map, Option.map_some]
    unfold mkSub
    rw [if_neg h.2.1]
    cases b with
    | sub b' sh => exact absurd rfl (h.2.2 b' sh)
    | _ => rfl
  | .struct cls fs n, h, hp => by
    have hp' : cls.isNone = true ∧ plainFields fs = true := by
      rw [plain, Bool.and_eq_true] at hp
      exact hp
    have hc : cls = none := Option.isNone_iff_eq_none.1 hp'.1
    subst hc
    rw [lit]
    show mk sc (if packed sc n 0 fs then .list (litItems sc fs) else dictLit sc fs (litFormats sc fs) n) = _
    split
    · next hk =>
      show (mkItems sc 0 (litItems sc fs)).map _ = _
      rw [mkItems_lit hl fs h.2 hp'.2 hk]
      rfl
    · exact mkDict_lit (mkAll_formats hl fs h.2 hp'.2) n
theorem mkItems_lit (hl : Lawful sc) {n : Nat} : ∀ (fs : Fields sc.S) {off : Nat}, ValidL fs → plainFields fs = true → packed sc n off fs = true →
    mkItems sc off (litItems sc fs) = some (fs, n)
  | [], off, _, _, hk => by
    simp only [packed, beq_iff_eq] at hk
    subst hk
    rfl
  | (nm, t, d, o) :: fs, off, h, hp, hk => by
    simp only [packed, Bool.and_eq_true, beq_iff_eq] at hk
    simp only [plainFields, Bool.and_eq_true] at hp
    have ih := mkItem_lit (n := nm) (t := t) (mk_lit hl d h.2.2.1 hp.1)
    have ih2 := mkItems_lit hl fs h.2.2.2 hp.2 hk.2
    obtain ⟨rfl, _⟩ := hk
    simp only [litItems, mkItems]
    rw [ih]
    simp only [ih2, Option.map_some]
theorem mkAll_formats (hl : Lawful sc) : ∀ (fs : Fields sc.S), ValidL fs → plainFields fs = true → mkAll sc (litFormats sc fs) = fs.map (fun f => some f.2.2.1)
  | [], _, _ => rfl
  | (nm, t, d, o) :: fs, h, hp => by
    simp only [plainFields, Bool.and_eq_true] at hp
    simp only [litFormats, mkAll, List.map_cons]
    rw [mk_lit hl d h.2.2.1 hp.1, mkAll_formats hl fs h.2.2.2 hp.2]
end

/-! ### the theorems -/

/-- what comes back -/
def expected {S : Type} : DType S → Option (DType S)
  | .scalar s => some (.scalar s)
  | .sub _ _ => none
  | .struct cls fs n => if (cls = none ∨ cls = some p!"numpy.record") ∧ plainFields fs = true then some (.struct none fs n) else none

theorem body_head (fs : Fields sc.S) (n : Nat) : ∃ c t, repr pr (lit sc (.struct none fs n)) = c :: t ∧ (c = 91 ∨ c = 123) := by
  rw [lit]
  show ∃ c t, repr pr (if packed sc n 0 fs then .list (litItems sc fs) else dictLit sc fs (litFormats sc fs) n) = c :: t ∧ _
  split
  · cases litItems sc fs with
    | nil => exact ⟨91, _, rfl, .inl rfl⟩
    | cons x xs => exact ⟨91, _, rfl, .inl rfl⟩
  · exact ⟨123, _, rfl, .inr rfl⟩

theorem read_body (hl : Lawful sc) (fs : Fields sc.S) (n : Nat) (h : ValidL fs) :
    restoreDtype sc (repr pr (lit sc (.struct none fs n))) = if plainFields fs = true then some (.struct none fs n) else none := by
  have hv : Valid (DType.struct none fs n) := ⟨(fun c hc => by cases hc), h⟩
  obtain ⟨h1, h2⟩ := lit_ok hl _ hv
  unfold restoreDtype
  obtain ⟨c, t, e, hc⟩ := body_head (pr := pr) (sc := sc) fs n
  have hs : (startsWith (repr pr (lit sc (.struct none fs n))) p!"{" || startsWith (repr pr (lit sc (.struct none fs n))) p!"[") = true := by
    rw [e]
    rcases hc with rfl | rfl <;> rfl
  rw [if_pos hs, literalEval_repr _ h1, h2]
  show (if (true && plainFields fs) = true then _ else _ : Option Lit).bind _ = _
  rw [Bool.true_and]
  cases hp : plainFields fs
  · rfl
  · exact mk_lit hl _ hv hp

theorem skipSp_nil : ∀ {r : Str}, skipSp r = [] ↔ ∀ c ∈ r, c = 32
  | [] => ⟨(fun _ c hc => by cases hc), fun _ => rfl⟩
  | c :: r => by
    unfold skipSp
    by_cases h : c = 32
    · rw [if_pos h, skipSp_nil]
      exact ⟨fun hr d hd => (List.mem_cons.1 hd).elim (fun e => e.trans h) (hr d), fun hr d hd => hr d (List.mem_cons_of_mem _ hd)⟩
    · rw [if_neg h]
      exact ⟨(fun e => by cases e), fun hr => absurd (hr c List.mem_cons_self) h⟩

/-- After the description of a structured dtype only spaces may follow, at least if what follows begins with a character that can end a number. -/
theorem trailing (pr : Nat → Bool) (hl : Lawful sc) (fs : Fields sc.S) (n : Nat) (h : ValidL fs) (c : Nat) (r : Str) (hc : isDelim c = true) :
    restoreDtype sc (repr pr (lit sc (.struct none fs n)) ++ c :: r) =
      if (∀ d ∈ c :: r, d = 32) ∧ plainFields fs = true then some (.struct none fs n) else none := by
  have hv : Valid (DType.struct none fs n) := ⟨(fun c hc => by cases hc), h⟩
  obtain ⟨h1, h2⟩ := lit_ok hl _ hv
  unfold restoreDtype
  obtain ⟨b, t, e, hb⟩ := body_head (pr := pr) (sc := sc) fs n
  have hs : (startsWith (repr pr (lit sc (.struct none fs n)) ++ c :: r) p!"{" || startsWith (repr pr (lit sc (.struct none fs n)) ++ c :: r) p!"[") = true := by
    rw [e]
    rcases hb with rfl | rfl <;> rfl
  rw [if_pos hs]
  have hr := readL_repr (pr := pr) (lit sc (.struct none fs n)) (2 * (repr pr (lit sc (.struct none fs n)) ++ c :: r).length + 1) (c :: r) h1
    (by have := need_le (pr := pr) _ h1; rw [List.length_append]; omega) (by intro d t e; injection e with e1 e2; subst e1; exact hc)
  unfold literalEval
  rw [hr, h2]
  have hpl : plain (DType.struct none fs n) = plainFields fs := by
    show (true && plainFields fs) = _
    rw [Bool.true_and]
  rw [hpl]
  cases hp : plainFields fs
  · simp [result]
  · have hmk := mk_lit hl _ hv (hpl.trans hp)
    simp only [result, skipSp_nil, and_true, if_true]
    split
    · exact hmk
    · rfl

theorem comma_prefix : ∀ {a c r b : Str}, (44 : Nat) ∉ a → (44 : Nat) ∉ c → (a ++ 44 :: b).isPrefixOf (c ++ 44 :: r) = true → a = c
  | [], [], _, _, _, _, _ => rfl
  | [], x :: c, r, b, _, hc, h => by
    simp only [List.nil_append, List.cons_append, List.isPrefixOf, Bool.and_eq_true, beq_iff_eq] at h
    exact absurd (by rw [h.1]; exact List.mem_cons_self) hc
  | x :: a, [], r, b, ha, _, h => by
    simp only [List.nil_append, List.cons_append, List.isPrefixOf, Bool.and_eq_true, beq_iff_eq] at h
    exact absurd (by rw [h.1]; exact List.mem_cons_self) ha
  | x :: a, y :: c, r, b, ha, hc, h => by
    simp only [List.cons_append, List.isPrefixOf, Bool.and_eq_true, beq_iff_eq] at h
    rw [h.1, comma_prefix (fun hm => ha (List.mem_cons_of_mem _ hm)) (fun hm => hc (List.mem_cons_of_mem _ hm)) h.2]

/-- The text that is stored for a dtype is read as follows: a scalar dtype comes back; for a subarray dtype reading raises; a structured dtype comes
back, as a plain one if it is a record dtype, and reading raises if there is another class, or any class inside. -/
theorem back (pr : Nat → Bool) (hl : Lawful sc) (d : DType sc.S) (h : Valid d) : restoreDtype sc (flattenDtype pr sc d) = expected d := by
  cases d with
  | scalar s =>
    obtain ⟨c, t, e, h1, h2, h3⟩ := hl.head s
    have hp : startsWith (sc.long s) prefix_ = false := by
      rw [e]
      show (prefix_.isPrefixOf (c :: t)) = false
      have : (40 == c) = false := by rw [beq_eq_false_iff_ne]; exact fun e => h3 e.symm
      simp only [prefix_, List.isPrefixOf, this, Bool.false_and]
    show restoreDtype sc (cutRecord (sc.long s)) = _
    rw [cutRecord, hp, if_neg (by simp)]
    unfold restoreDtype
    have hs : (startsWith (sc.long s) p!"{" || startsWith (sc.long s) p!"[") = false := by
      rw [e]
      have e1 : (123 == c) = false := by rw [beq_eq_false_iff_ne]; exact fun e => h2 e.symm
      have e2 : (91 == c) = false := by rw [beq_eq_false_iff_ne]; exact fun e => h1 e.symm
      simp only [startsWith, List.isPrefixOf, e1, e2, Bool.false_and, Bool.or_false]
    rw [hs, if_neg (by simp), hl.long]
    rfl
  | sub b shape =>
    have e : ∃ c t, repr pr (lit sc b) = c :: t ∧ c ≠ 110 := by
      cases b with
      | scalar s => exact ⟨quote (sc.short s), _, rfl, by rcases quote_cases (sc.short s) with h | h <;> rw [h] <;> decide⟩
      | sub b' sh => exact absurd rfl (h.2.2 b' sh)
      | struct cls fs n =>
        cases cls with
        | none =>
          obtain ⟨c, t, e, hc⟩ := body_head (pr := pr) (sc := sc) fs n
          exact ⟨c, t, e, by omega⟩
        | some c => exact ⟨40, _, by rw [lit]; rfl, by decide⟩
    obtain ⟨c, t, e, hc⟩ := e
    have es : repr pr (lit sc (.sub b shape)) = 40 :: c :: (t ++ reprL pr 41 [shapeLit shape]) := by
      rw [lit]
      show 40 :: (repr pr (lit sc b) ++ reprL pr 41 [shapeLit shape]) = _
      rw [e]
      rfl
    show restoreDtype sc (cutRecord (repr pr (lit sc (.sub b shape)))) = _
    have hp : startsWith (repr pr (lit sc (.sub b shape))) prefix_ = false := by
      rw [es]
      have : (110 == c) = false := by rw [beq_eq_false_iff_ne]; exact fun e => hc e.symm
      simp only [startsWith, prefix_, List.isPrefixOf, this, Bool.false_and, Bool.and_false]
    rw [cutRecord, hp, if_neg (by simp), es]
    show (sc.read _).map DType.scalar = none
    rw [hl.parens]
    rfl
  | struct cls fs n =>
    cases cls with
    | none =>
      obtain ⟨c, t, e, hc⟩ := body_head (pr := pr) (sc := sc) fs n
      have hp : startsWith (repr pr (lit sc (.struct none fs n))) prefix_ = false := by
        rw [e]
        have : (40 == c) = false := by rw [beq_eq_false_iff_ne]; omega
        simp only [startsWith, prefix_, List.isPrefixOf, this, Bool.false_and]
      show restoreDtype sc (cutRecord (repr pr (lit sc (.struct none fs n)))) = _
      rw [cutRecord, hp, if_neg (by simp), read_body hl fs n h.2]
      simp only [expected, true_or, true_and]
    | some c =>
      have hcn := h.1 c rfl
      have e : repr pr (lit sc (.struct (some c) fs n)) = 40 :: (c ++ 44 :: 32 :: (repr pr (lit sc (.struct none fs n)) ++ [41])) := by
        rw [lit, lit]; rfl
      have hcomma : (44 : Nat) ∉ c := fun hm => absurd (hcn.2 44 hm) (by decide)
      show restoreDtype sc (cutRecord (repr pr (lit sc (.struct (some c) fs n)))) = _
      by_cases hc : c = p!"numpy.record"
      · subst hc
        rw [e, cutRecord, if_pos (by
          show (prefix_.isPrefixOf _) = true
          exact List.isPrefixOf_iff_prefix.2 ⟨_, rfl⟩)]
        rw [show List.drop prefix_.length (40 :: (p!"numpy.record" ++ 44 :: 32 :: (repr pr (lit sc (.struct none fs n)) ++ [41]))) = repr pr (lit sc (.struct none fs n)) ++ [41] from rfl,
          List.dropLast_concat, read_body hl fs n h.2]
        simp only [expected, or_true, true_and]
      · rw [e]
        have hp : startsWith (40 :: (c ++ 44 :: 32 :: (repr pr (lit sc (.struct none fs n)) ++ [41]))) prefix_ = false := by
          rw [Bool.eq_false_iff]
          intro hs
          have : (p!"numpy.record" ++ 44 :: [32]).isPrefixOf (c ++ 44 :: 32 :: (repr pr (lit sc (.struct none fs n)) ++ [41])) = true := by
            have h2 : (40 == 40 && (p!"numpy.record" ++ 44 :: [32]).isPrefixOf (c ++ 44 :: 32 :: (repr pr (lit sc (.struct none fs n)) ++ [41]))) = true := hs
            rwa [beq_self_eq_true, Bool.true_and] at h2
          exact hc (comma_prefix (by decide) hcomma this).symm
        rw [cutRecord, hp, if_neg (by simp)]
        show (sc.read _).map DType.scalar = _
        rw [hl.parens]
        simp only [expected, Option.some.injEq, hc, reduceCtorEq, or_self, false_and, if_false, Option.map_none]

/-- A dtype comes back unchanged exactly if it is a scalar dtype or a structured dtype without record classes, itself and inside. -/
theorem roundtrip_iff (pr : Nat → Bool) (hl : Lawful sc) (d : DType sc.S) (h : Valid d) :
    restoreDtype sc (flattenDtype pr sc d) = some d ↔ (∀ b shape, d ≠ .sub b shape) ∧ plain d = true := by
  rw [back pr hl d h]
  cases d with
  | scalar s => exact ⟨fun _ => ⟨(fun _ _ e => by cases e), rfl⟩, fun _ => rfl⟩
  | sub b sh => exact ⟨(fun e => by cases e), fun e => absurd rfl (e.1 b sh)⟩
  | struct cls fs n =>
    simp only [expected, plain, Bool.and_eq_true, Option.isNone_iff_eq_none]
    constructor
    · intro e
      split at e
      · next hc =>
        injection e with e
        injection e with e
        exact ⟨(fun _ _ e => by cases e), e.symm, hc.2⟩
      · cases e
    · rintro ⟨_, rfl, hf⟩
      rw [if_pos ⟨.inl rfl, hf⟩]

/-- A record dtype comes back as a plain structured dtype with the same fields. -/
theorem record_lost (pr : Nat → Bool) (hl : Lawful sc) (fs : Fields sc.S) (n : Nat) (h : ValidL fs) (hp : plainFields fs = true) :
    restoreDtype sc (flattenDtype pr sc (.struct (some p!"numpy.record") fs n)) = some (.struct none fs n) := by
  rw [back pr hl (.struct (some p!"numpy.record") fs n) (show (∀ c, some p!"numpy.record" = some c → ClassName c) ∧ ValidL fs from ⟨(fun c hc => by cases hc; exact ⟨by decide, by decide⟩), h⟩)]
  simp only [expected, or_true, true_and, hp, if_true]

/-- Subarray dtypes are written, and reading them raises. -/
theorem subarray_raises (pr : Nat → Bool) (hl : Lawful sc) (b : DType sc.S) (shape : List Nat) (h : Valid (.sub b shape)) :
    restoreDtype sc (flattenDtype pr sc (.sub b shape)) = none := back pr hl _ h

/-- So are dtypes with a record dtype inside. -/
theorem nested_record_raises (pr : Nat → Bool) (hl : Lawful sc) (cls : Option Str) (fs : Fields sc.S) (n : Nat) (h : Valid (.struct cls fs n)) (hp : plainFields fs = false) :
    restoreDtype sc (flattenDtype pr sc (.struct cls fs n)) = none := by
  rw [back pr hl _ h]
  simp only [expected, hp, Bool.false_eq_true, and_false, if_false]

/-! ### examples -/

/-- `int32`, `float64` and texts of five characters -/
def names : Scalars where
  S := Fin 3
  long := fun s => if s = 0 then p!"int32" else if s = 1 then p!"float64" else p!"<U5"
  short := fun s => if s = 0 then p!"<i4" else if s = 1 then p!"<f8" else p!"<U5"
  size := fun s => if s = 0 then 4 else if s = 1 then 8 else 20
  read := fun t =>
    if t = p!"int32" ∨ t = p!"<i4" then some 0
    else if t = p!"float64" ∨ t = p!"<f8" then some 1
    else if t = p!"<U5" then some 2
    else none

theorem names_lawful : Lawful names where
  long := fun (s : Fin 3) => match s with
    | 0 => rfl
    | 1 => rfl
    | 2 => rfl
  short := fun (s : Fin 3) => match s with
    | 0 => rfl
    | 1 => rfl
    | 2 => rfl
  head := fun (s : Fin 3) => match s with
    | 0 => ⟨105, _, rfl, by decide⟩
    | 1 => ⟨102, _, rfl, by decide⟩
    | 2 => ⟨60, _, rfl, by decide⟩
  parens := fun t => by simp [names]
  ok := fun (s : Fin 3) => match s with
    | 0 => fun c hc => (by decide : ∀ c ∈ p!"<i4", c < 0x110000) c hc
    | 1 => fun c hc => (by decide : ∀ c ∈ p!"<f8", c < 0x110000) c hc
    | 2 => fun c hc => (by decide : ∀ c ∈ p!"<U5", c < 0x110000) c hc

/-- `[('it's', '<i4'), (('t', 'b'), '<f8', (2, 3)), ('c', {'names': ['x', 'y'], 'formats': ['<i4', '<i4'], 'offsets': [0, 4], 'itemsize': 16})]` -/
def nested : DType names.S := .struct none [(p!"it's", none, .scalar (0 : Fin 3), 0), (p!"b", some p!"t", .sub (.scalar (1 : Fin 3)) [2, 3], 4),
  (p!"c", none, .struct none [(p!"x", none, .scalar (0 : Fin 3), 0), (p!"y", none, .scalar (0 : Fin 3), 4)] 16, 52)] 68

theorem ascii {s : Str} (h : ∀ c ∈ s, c < 128) : CodeOk s := fun c hc => by have := h c hc; omega

theorem nested_valid : Valid nested := by
  simp only [nested, Valid, ValidL, reduceCtorEq, false_implies, implies_true, true_and, and_true, ne_eq, not_false_eq_true, List.cons_ne_nil, Option.some.injEq, forall_eq']
  exact ⟨ascii (by decide), ascii (by decide), ascii (by decide), ascii (by decide), ascii (by decide), ascii (by decide)⟩

example : flattenDtype (fun _ => true) names nested =
    p!"[(\"it's\", '<i4'), (('t', 'b'), '<f8', (2, 3)), ('c', {'names': ['x', 'y'], 'formats': ['<i4', '<i4'], 'offsets': [0, 4], 'itemsize': 16})]" := by decide +kernel

example : restoreDtype names (flattenDtype (fun _ => true) names nested) = some nested :=
  (roundtrip_iff _ names_lawful _ nested_valid).2 ⟨(fun _ _ e => by cases e), rfl⟩

/-- `np.dtype(('<i4', (2,)))` -/
example : Valid (DType.sub (.scalar (0 : Fin 3)) [2] : DType names.S) ∧ flattenDtype (fun _ => true) names (.sub (.scalar (0 : Fin 3)) [2]) = p!"('<i4', (2,))" :=
  ⟨⟨trivial, by decide, fun _ _ e => by cases e⟩, by decide +kernel⟩

/-- a record dtype, and one inside another -/
example : flattenDtype (fun _ => true) names (.struct (some p!"numpy.record") [(p!"x", none, .scalar (0 : Fin 3), 0)] 4) = p!"[('x', '<i4')]" ∧
    flattenDtype (fun _ => true) names (.struct none [(p!"r", none, .struct (some p!"numpy.record") [(p!"x", none, .scalar (0 : Fin 3), 0)] 4, 0)] 4) =
      p!"[('r', (numpy.record, [('x', '<i4')]))]" := by decide +kernel

example : restoreDtype names (p!"[('x', '<i4')]" ++ p!" ") = some (.struct none [(p!"x", none, .scalar (0 : Fin 3), 0)] 4) ∧
    (restoreDtype names (p!"[('x', '<i4')]" ++ p!" 1")).isNone = true := by
  have ht : p!"[('x', '<i4')]" = repr (fun _ => true) (lit names (.struct none [(p!"x", none, .scalar (0 : Fin 3), 0)] 4)) := by decide +kernel
  have hv : ValidL (S := names.S) [(p!"x", none, .scalar (0 : Fin 3), 0)] := ⟨ascii (by decide), (fun s hs => by cases hs), trivial, trivial⟩
  rw [ht, trailing _ names_lawful _ _ hv _ _ rfl, trailing _ names_lawful _ _ hv _ _ rfl]
  exact ⟨by rw [if_pos (by decide)], by rw [if_neg (by decide)]; rfl⟩

example : ClassName p!"numpy.record" := ⟨by decide, by decide⟩

end JP.C83
