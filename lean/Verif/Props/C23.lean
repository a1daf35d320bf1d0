import Verif.TagsPd
import Verif.DecEq
/-!
# C23: column type tags are unambiguous
-/
namespace JP.TagsPd.C23
open JP JP.TagsPd

/-! ### helper lemmas -/

theorem shortest_fresh {used : List Str} {l t : Str} (h : shortest used l = some t) : t ∉ used := by
  have := List.find?_some h
  simpa using this

theorem choose_fresh {used ul : List Str} {l n b t : Str} (h : choose used ul l n b = .ok (some t)) :
    t ∉ used := by
  have fr : ∀ x y : Str, (if x ∈ used then none else some x) = some y → y ∉ used := by
    intro x y hxy
    split at hxy
    · cases hxy
    · cases hxy; assumption
  unfold choose at h
  simp only at h
  split at h
  · exact fr _ _ (Except.ok.inj h)
  split at h
  · exact fr _ _ (Except.ok.inj h)
  split at h
  · split at h
    · split at h
      · cases h
      · split at h
        · next t' ht =>
          have := fr _ _ ht
          cases h; exact this
        · exact fr _ _ (Except.ok.inj h)
    · exact shortest_fresh (Except.ok.inj h)
  · exact shortest_fresh (Except.ok.inj h)

/-- Earlier and later entries of the result. -/
def Inv (st : St) : Prop :=
  (∀ kv ∈ st.result, kv.2 ∈ st.used) ∧
  st.result.Pairwise (fun a b => a.2 = b.2 → b.2 = b.1)

theorem step_inv {ch : Chars} {st st' : St} {s : Str} (h : step ch st s = .ok st')
    (hs : s ∉ st.result.map (·.1)) (hi : Inv st) :
    Inv st' ∧ ∃ t, st'.result = st.result ++ [(s, t)] := by
  unfold step at h
  simp only at h
  split at h
  · cases h
  · next t ht =>
    cases h
    simp only [Inv, dset_of_not_mem _ _ _ hs]
    refine ⟨⟨?_, ?_⟩, _, rfl⟩
    · intro kv hkv
      rcases List.mem_append.mp hkv with hkv | hkv
      · exact List.mem_cons_of_mem _ (hi.1 kv hkv)
      · simp only [List.mem_singleton] at hkv; subst hkv; exact List.mem_cons_self
    · rw [List.pairwise_append]
      refine ⟨hi.2, List.pairwise_singleton _ _, ?_⟩
      intro a ha b hb
      simp only [List.mem_singleton] at hb
      subst hb
      intro heq
      cases t with
      | none => rfl
      | some t =>
        simp only [Option.getD_some] at heq ⊢
        exact absurd (heq ▸ hi.1 a ha) (choose_fresh ht)

theorem loop_inv {ch : Chars} (l : List Str) {st st' : St} (h : loop ch st l = .ok st')
    (hn : (st.result.map (·.1) ++ l).Nodup) (hi : Inv st) :
    Inv st' ∧ st'.result.map (·.1) = st.result.map (·.1) ++ l := by
  induction l generalizing st with
  | nil => cases h; exact ⟨hi, by simp⟩
  | cons s l ih =>
    simp only [loop] at h
    split at h
    · cases h
    · next st1 h1 =>
      have hs : s ∉ st.result.map (·.1) := by
        intro hm
        rw [List.nodup_append] at hn
        exact hn.2.2 s hm s List.mem_cons_self rfl
      obtain ⟨hi1, t, ht⟩ := step_inv h1 hs hi
      have hk : st1.result.map (·.1) ++ l = st.result.map (·.1) ++ s :: l := by simp [ht]
      obtain ⟨a, b⟩ := ih h (by rw [hk]; exact hn) hi1
      exact ⟨a, by rw [b, hk]⟩

/-! ### the property -/

/-- What went into the map: one entry per dtype name, in order. -/
theorem tags_names (ch : Chars) (l : List Str) (hl : l.Nodup) (pre : Str) (res : List (Str × Str))
    (h : tags ch l pre = .ok res) : res.map (·.1) = l := by
  unfold tags at h
  split at h
  · cases h
  · next st hst =>
    cases h
    obtain ⟨_, b⟩ := loop_inv l hst (by simpa using hl) ⟨by simp, List.Pairwise.nil⟩
    simpa [Function.comp_def] using b

/-- **C23**, shape of any collision: for every list of distinct names, if two names get the same tag then
one of them got its own full name as its tag (the unchecked last resort), so the other one's short tag
is that full name. -/
theorem tag_collision (ch : Chars) (l : List Str) (hl : l.Nodup) (pre : Str) (res : List (Str × Str))
    (h : tags ch l pre = .ok res) (a b ta : Str) (hab : a ≠ b) (ha : (a, ta) ∈ res) (hb : (b, ta) ∈ res) :
    ta = pre ++ p!"/" ++ a ∨ ta = pre ++ p!"/" ++ b := by
  unfold tags at h
  split at h
  · cases h
  · next st hst =>
    cases h
    obtain ⟨⟨_, hp⟩, _⟩ := loop_inv l hst (by simpa using hl) ⟨by simp, List.Pairwise.nil⟩
    obtain ⟨⟨a', x⟩, hx, ex⟩ := List.mem_map.mp ha
    obtain ⟨⟨b', y⟩, hy, ey⟩ := List.mem_map.mp hb
    simp only [Prod.mk.injEq] at ex ey
    obtain ⟨rfl, rfl⟩ := ex
    obtain ⟨rfl, ey⟩ := ey
    have hxy : y = x := List.append_cancel_left ey
    subst hxy
    obtain ⟨i, hi, ei⟩ := List.getElem_of_mem hx
    obtain ⟨j, hj, ej⟩ := List.getElem_of_mem hy
    have hp' := List.pairwise_iff_getElem.mp hp
    rcases Nat.lt_trichotomy i j with hij | hij | hij
    · have := hp' i j hi hj hij
      rw [ei, ej] at this
      exact Or.inr (congrArg (pre ++ p!"/" ++ ·) (this rfl))
    · subst hij; rw [ei] at ej; cases ej; exact absurd rfl hab
    · have := hp' j i hj hi hij
      rw [ei, ej] at this
      exact Or.inl (congrArg (pre ++ p!"/" ++ ·) (this rfl))

theorem reverse_get (m : List (Str × Str)) (k t : Str) (hm : (k, t) ∈ m)
    (huniq : ∀ a b ta, (a, ta) ∈ m → (b, ta) ∈ m → a = b) :
    dget t (reverseMap m) = some k := by
  have key : ∀ (l acc : List (Str × Str)), (∀ kv ∈ l, kv ∈ m) →
      (dget t acc = some k ∨ (k, t) ∈ l) →
      dget t (l.foldl (fun a kv => dset kv.2 kv.1 a) acc) = some k := by
    intro l
    induction l with
    | nil => intro acc _ h; simpa using h
    | cons x l ih =>
      intro acc hl h
      rw [List.foldl_cons]
      refine ih _ (fun kv hkv => hl kv (List.mem_cons_of_mem _ hkv)) ?_
      obtain ⟨a, ta⟩ := x
      by_cases e : t = ta
      · subst e
        have := huniq a k t (hl _ List.mem_cons_self) hm
        subst this
        exact Or.inl (by simp)
      · rw [dget_dset_ne e]
        rcases h with h | h
        · exact Or.inl h
        · rcases List.mem_cons.mp h with h | h
          · cases h; exact absurd rfl e
          · exact Or.inr h
  exact key m [] (fun _ h => h) (Or.inr hm)

/-- **C23** (partial): for every list of distinct dtype names, if no name is the short tag of another
name, the tags are pairwise different and the reverse map recovers every name.  Missing for the full
statement: that condition, which is necessary (`tags_collide`); and the list must not make the function
raise (`tags_raise`). -/
theorem tags_distinct_partial (ch : Chars) (l : List Str) (hl : l.Nodup) (pre : Str)
    (res : List (Str × Str)) (h : tags ch l pre = .ok res)
    (hno : ∀ a b, a ≠ b → b ∈ l → (a, pre ++ p!"/" ++ b) ∉ res) :
    (∀ a b ta, (a, ta) ∈ res → (b, ta) ∈ res → a = b) ∧
    (∀ a ta, (a, ta) ∈ res → dget ta (reverseMap res) = some a) := by
  have hu : ∀ a b ta, (a, ta) ∈ res → (b, ta) ∈ res → a = b := by
    intro a b ta ha hb
    refine Classical.byContradiction fun hab => ?_
    have hn := tags_names ch l hl pre res h
    have hal : a ∈ l := by rw [← hn]; exact List.mem_map_of_mem ha
    have hbl : b ∈ l := by rw [← hn]; exact List.mem_map_of_mem hb
    rcases tag_collision ch l hl pre res h a b ta hab ha hb with e | e
    · subst e; exact hno b a (Ne.symm hab) hal hb
    · subst e; exact hno a b hab hbl ha
  exact ⟨hu, fun a ta ha => reverse_get res a ta ha hu⟩

/-! ### concrete cases -/

/-- The names numpy reports, with some of the date variants (tags_pd.py:170-198). -/
def npNames : List Str := [p!"bool", p!"float16", p!"float32", p!"float64", p!"longdouble", p!"complex64",
  p!"complex128", p!"clongdouble", p!"bytes", p!"str", p!"void", p!"object", p!"datetime64", p!"timedelta64",
  p!"int8", p!"int16", p!"int32", p!"int64", p!"uint8", p!"uint16", p!"uint32", p!"uint64",
  p!"datetime64[Y]", p!"datetime64[ns]", p!"timedelta64[Y]", p!"timedelta64[ns]"]

/-- A test (not the unbounded claim): on this list the condition of `tags_distinct_partial` holds. -/
example : (match tags ascii npNames p!"np" with
    | .ok res => npNames.all (fun b => res.all (fun kv => decide (kv.1 = b ∨ kv.2 ≠ p!"np/" ++ b)))
    | .error _ => false) = true := by decide +kernel
example : npNames.Nodup := by decide +kernel
example : tags ascii [p!"int8", p!"int16", p!"uint8"] p!"np"
    = .ok [(p!"int8", p!"np/i"), (p!"int16", p!"np/i16"), (p!"uint8", p!"np/u")] := by decide +kernel

/-- The tags of dates and time differences are kept apart by their prefixes. -/
theorem date_tags : (match tags ascii npNames p!"np" with
    | .ok res => res.drop 22
    | .error _ => []) = [(p!"datetime64[Y]", p!"np/d64[Y]"), (p!"datetime64[ns]", p!"np/d64[ns]"),
      (p!"timedelta64[Y]", p!"np/t64[Y]"), (p!"timedelta64[ns]", p!"np/t64[ns]")] := by decide +kernel

/-- **C23** is false in general: of the names `ab` and `a`, both get the tag `np/a`, and decoding the
column type of an `ab` column gives `a`. -/
theorem tags_collide :
    tags ascii [p!"ab", p!"a"] p!"np" = .ok [(p!"ab", p!"np/a"), (p!"a", p!"np/a")] ∧
    dget p!"np/a" (reverseMap [(p!"ab", p!"np/a"), (p!"a", p!"np/a")]) = some p!"a" := by decide +kernel

/-- ... and two names that consist of digits only make it raise `IndexError`. -/
theorem tags_raise : tags ascii [p!"1", p!"2"] p!"np" = .error .indexError := by decide +kernel

/-- The name of a dtype is split into letters, digits at the end and the first part in brackets, every occurrence of which is taken out; brackets do not
stretch over lines. -/
theorem split_parts : split ascii p!"x[a][a]b12" = (p!"xb", p!"12", p!"[a]") ∧ split ascii p!"x[\na]12" = (p!"x[\na]", p!"12", []) ∧
    split ascii p!"x[y\n[a]12" = (p!"x[y\n", p!"12", p!"[a]") := by decide +kernel

end JP.TagsPd.C23
