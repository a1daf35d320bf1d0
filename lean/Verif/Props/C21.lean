import Verif.Pandas
/-!
# C21: run-length encoding of column types is lossless
-/
namespace JP.Pandas.C21
open JP JP.Pandas
variable {α : Type} [DecidableEq α]

/-- Adjacent runs have different codes, and no run is empty. -/
def Canonical (l : List (α × Nat)) : Prop :=
  (∀ x ∈ l, 0 < x.2) ∧ ∀ pre a b post, l = pre ++ a :: b :: post → a.1 ≠ b.1

/-- Meaning of a run-length list. -/
def expand (l : List (α × Nat)) : List α := l.flatMap (fun tc => List.replicate tc.2 tc.1)

omit [DecidableEq α] in
theorem foldl_append_flatMap (l : List (α × Nat)) (acc : List α) :
    l.foldl (fun d tc => d ++ List.replicate tc.2 tc.1) acc
      = acc ++ l.flatMap (fun tc => List.replicate tc.2 tc.1) := by
  induction l generalizing acc with
  | nil => simp
  | cons x l ih => simp [ih]

omit [DecidableEq α] in
theorem rleDecode_eq_expand (l : List (α × Nat)) : rleDecode l = expand l := by
  rw [rleDecode, foldl_append_flatMap, List.nil_append, expand]

theorem expand_rleLoop (e : List (α × Nat)) (c : α) (n : Nat) (r : List α) :
    expand (rleLoop e c n r) = expand e ++ List.replicate n c ++ r := by
  induction r generalizing e c n with
  | nil => simp [rleLoop, expand]
  | cons t r ih =>
    simp only [rleLoop]
    split
    · next h => subst h; rw [ih, List.replicate_succ']; simp
    · rw [ih]; simp [expand]

/-- no two neighbours with equal codes, the last code before `c` differs from `c` -/
def Chain : List (α × Nat) → α → Prop
  | [], _ => True
  | [a], c => a.1 ≠ c
  | a :: b :: r, c => a.1 ≠ b.1 ∧ Chain (b :: r) c

omit [DecidableEq α] in
theorem chain_snoc (e : List (α × Nat)) (c d : α) (n : Nat) (h : Chain e c) (hcd : c ≠ d) :
    Chain (e ++ [(c, n)]) d := by
  induction e with
  | nil => exact hcd
  | cons a e ih =>
    cases e with
    | nil => exact ⟨h, hcd⟩
    | cons b r => exact ⟨h.1, ih h.2⟩

theorem chain_loop (e : List (α × Nat)) (c : α) (n : Nat) (r : List α) (h : Chain e c) (hn : 0 < n)
    (hp : ∀ x ∈ e, 0 < x.2) : ∃ f d m, rleLoop e c n r = f ++ [(d, m)] ∧ Chain f d ∧ 0 < m ∧ ∀ x ∈ f, 0 < x.2 := by
  induction r generalizing e c n with
  | nil => exact ⟨e, c, n, rfl, h, hn, hp⟩
  | cons t r ih =>
    simp only [rleLoop]
    split
    · exact ih e c (n + 1) h (by omega) hp
    · next hne =>
      refine ih _ _ _ (chain_snoc e c t n h (fun e => hne e.symm)) (by omega) ?_
      intro x hx
      rcases List.mem_append.mp hx with hx | hx
      · exact hp x hx
      · simp only [List.mem_singleton] at hx; subst hx; exact hn

omit [DecidableEq α] in
theorem chain_adj (f : List (α × Nat)) (d : α) (m : Nat) (h : Chain f d) :
    ∀ pre a b post, f ++ [(d, m)] = pre ++ a :: b :: post → a.1 ≠ b.1 := by
  induction f with
  | nil =>
    intro pre a b post he
    have := congrArg List.length he
    simp at this; omega
  | cons x f ih =>
    intro pre a b post he
    cases pre with
    | nil =>
      simp only [List.nil_append, List.cons_append, List.cons.injEq] at he
      obtain ⟨rfl, he⟩ := he
      cases f with
      | nil =>
        simp only [List.nil_append, List.cons.injEq] at he
        obtain ⟨rfl, _⟩ := he
        exact h
      | cons y f =>
        simp only [List.cons_append, List.cons.injEq] at he
        obtain ⟨rfl, _⟩ := he
        exact h.1
    | cons p pre =>
      simp only [List.cons_append, List.cons.injEq] at he
      refine ih ?_ pre a b post he.2
      cases f with
      | nil => trivial
      | cons y f => exact h.2

/-- **C21**: decoding what was encoded gives the list back, for every list of codes. -/
theorem rle_roundtrip (xs : List α) : rleDecode (rleEncode xs) = xs := by
  cases xs with
  | nil => rfl
  | cons t r => rw [rleEncode, rleDecode_eq_expand, expand_rleLoop]; simp [expand]

/-- **C21**: runs are maximal and counts positive. -/
theorem rle_canonical (xs : List α) : Canonical (rleEncode xs) := by
  cases xs with
  | nil =>
    refine ⟨by simp [rleEncode], ?_⟩
    intro pre a b post h
    have := congrArg List.length h
    simp [rleEncode] at this
  | cons t r =>
    obtain ⟨f, d, m, h1, h2, h3, h4⟩ := chain_loop [] t 1 r trivial (by omega) (by simp)
    simp only [rleEncode, h1]
    refine ⟨?_, chain_adj f d m h2⟩
    intro x hx
    rcases List.mem_append.mp hx with hx | hx
    · exact h4 x hx
    · simp only [List.mem_singleton] at hx; subst hx; exact h3

theorem rleLoop_replicate (e : List (α × Nat)) (c : α) (n k : Nat) (r : List α) :
    rleLoop e c n (List.replicate k c ++ r) = rleLoop e c (n + k) r := by
  induction k generalizing n with
  | zero => simp
  | succ k ih =>
    rw [List.replicate_succ, List.cons_append, rleLoop, if_pos rfl, ih]
    congr 1; omega

theorem rleLoop_expand (l : List (α × Nat)) (e : List (α × Nat)) (c : α) (n : Nat)
    (h : Canonical ((c, n) :: l)) : rleLoop e c n (expand l) = e ++ (c, n) :: l := by
  induction l generalizing e c n with
  | nil => simp [expand, rleLoop]
  | cons x l ih =>
    obtain ⟨d, m⟩ := x
    have hm : 0 < m := h.1 (d, m) (by simp)
    have hne : c ≠ d := h.2 [] (c, n) (d, m) l rfl
    obtain ⟨k, rfl⟩ := Nat.exists_eq_succ_of_ne_zero (Nat.pos_iff_ne_zero.mp hm)
    have hex : expand ((d, k + 1) :: l) = d :: (List.replicate k d ++ expand l) := by
      simp [expand, List.replicate_succ]
    rw [hex, rleLoop, if_neg (Ne.symm hne), rleLoop_replicate, ih]
    · simp [Nat.add_comm]
    · refine ⟨?_, ?_⟩
      · intro y hy
        rcases List.mem_cons.mp hy with rfl | hy
        · show 0 < 1 + k; omega
        · exact h.1 y (by simp [hy])
      · intro pre a b post he
        cases pre with
        | nil =>
          simp only [List.nil_append, List.cons.injEq] at he
          obtain ⟨rfl, rfl⟩ := he
          exact h.2 [(c, n)] (d, k + 1) b post rfl
        | cons p pre =>
          simp only [List.cons_append, List.cons.injEq] at he
          exact h.2 ((c, n) :: (d, k + 1) :: pre) a b post (by rw [he.2]; rfl)

/-- **C21**: the encoding is the only canonical one: any canonical run list is the encoding of what it
stands for (so no shorter run list exists for the same data). -/
theorem rle_unique (l : List (α × Nat)) (h : Canonical l) : rleEncode (rleDecode l) = l := by
  rw [rleDecode_eq_expand]
  cases l with
  | nil => rfl
  | cons x l =>
    obtain ⟨c, n⟩ := x
    have hn : 0 < n := h.1 (c, n) (by simp)
    obtain ⟨k, rfl⟩ := Nat.exists_eq_succ_of_ne_zero (Nat.pos_iff_ne_zero.mp hn)
    have hex : expand ((c, k + 1) :: l) = c :: (List.replicate k c ++ expand l) := by
      simp [expand, List.replicate_succ]
    rw [hex, rleEncode, rleLoop_replicate, Nat.add_comm 1 k, rleLoop_expand l [] c (k + 1) h]
    rfl

example : rleEncode [1, 1, 2, 2, 2, 1] = [(1, 2), (2, 3), (1, 1)] := by decide
example : Canonical [(1, 2), (2, 3), (1, 1)] := by
  have := rle_canonical [1, 1, 2, 2, 2, 1]
  simpa [rleEncode, rleLoop] using this

end JP.Pandas.C21
