import Verif.DTypeNames
import Verif.Props.C23
import Verif.Props.C61
/-!
# C92 — column types mean the same in every process

`TYPE_MAP` is built when `tags_pd.py` is imported, from the subclasses of `ExtensionDtype` in the order in which a *set* lists them, and a tag depends on the names before
it.  So the tags of one process can mean something else in another one (`tags_differ`, `values_damaged`).  They do mean the same for the names that only numpy has, and for
names of pandas that do not share their first letter.
-/
namespace JP.C92
open JP TagsPd DTypeNames

/-! ### the classes that are found -/

/-- `d` is a subclass of `c`, directly or not, and not `c` itself -/
inductive Below (subs : Nat → List Nat) : Nat → Nat → Prop
  | direct {c d : Nat} : d ∈ subs c → Below subs c d
  | step {c d e : Nat} : d ∈ subs c → Below subs d e → Below subs c e

theorem mem_add {xs : List Nat} {x y : Nat} : y ∈ add xs x ↔ y ∈ xs ∨ y = x := by
  unfold add
  split
  · next h => exact ⟨.inl, fun h' => h'.elim id (fun e => e ▸ h)⟩
  · simp

theorem nodup_add {xs : List Nat} {x : Nat} (h : xs.Nodup) : (add xs x).Nodup := by
  unfold add
  split
  · exact h
  · next hx =>
    refine List.nodup_append.2 ⟨h, by simp, fun a ha b hb e => ?_⟩
    rw [List.mem_singleton] at hb
    exact hx (hb ▸ e ▸ ha)

theorem mem_update {y : Nat} : ∀ {ys xs : List Nat}, y ∈ update xs ys ↔ y ∈ xs ∨ y ∈ ys
  | [], xs => by simp [update]
  | x :: ys, xs => by
    show y ∈ update (add xs x) ys ↔ _
    rw [mem_update, mem_add]
    simp [or_assoc]

theorem nodup_update : ∀ {ys xs : List Nat}, xs.Nodup → (update xs ys).Nodup
  | [], _, h => h
  | _ :: ys, _, h => nodup_update (ys := ys) (nodup_add h)

/-- `all_subclasses` finds exactly the classes below the given one, each once. -/
theorem all_subclasses_iff (subs : Nat → List Nat) : ∀ (n c : Nat) (l : List Nat), allSubclasses subs n c = some l → l.Nodup ∧ ∀ d, d ∈ l ↔ Below subs c d
  | 0, _, _, h => by cases h
  | n + 1, c, l, h => by
    have ih := all_subclasses_iff subs n
    have key : ∀ (ds acc l : List Nat), ds.foldlM (fun acc d => (allSubclasses subs n d).map (fun ds => update (add acc d) ds)) acc = some l →
        acc.Nodup → l.Nodup ∧ ∀ e, e ∈ l ↔ e ∈ acc ∨ ∃ d ∈ ds, e = d ∨ Below subs d e := by
      intro ds
      induction ds with
      | nil => intro acc l h hn; cases h; exact ⟨hn, by simp⟩
      | cons d ds ihd =>
        intro acc l h hn
        rw [List.foldlM_cons] at h
        cases hd : allSubclasses subs n d with
        | none => rw [hd] at h; cases h
        | some r =>
          rw [hd] at h
          obtain ⟨h1, h2⟩ := ihd _ l h (nodup_update (nodup_add hn))
          refine ⟨h1, fun e => ?_⟩
          rw [h2, mem_update, mem_add, (ih d r hd).2 e]
          simp only [List.mem_cons, exists_eq_or_imp]
          constructor
          · rintro (((h | h) | h) | h)
            · exact .inl h
            · exact .inr (.inl (.inl h))
            · exact .inr (.inl (.inr h))
            · exact .inr (.inr h)
          · rintro (h | (h | h) | h)
            · exact .inl (.inl (.inl h))
            · exact .inl (.inl (.inr h))
            · exact .inl (.inr h)
            · exact .inr h
    unfold allSubclasses at h
    obtain ⟨h1, h2⟩ := key _ _ _ h List.nodup_nil
    refine ⟨h1, fun e => ?_⟩
    rw [h2]
    constructor
    · rintro (h | ⟨d, hd, rfl | h⟩)
      · cases h
      · exact .direct hd
      · exact .step hd h
    · intro h
      cases h with
      | direct h => exact .inr ⟨e, h, .inl rfl⟩
      | step h h' => exact .inr ⟨_, h, .inr h'⟩

/-- It comes to an end, because no class is below itself: the recursion is bounded by any measure that decreases from classes to subclasses. -/
theorem all_subclasses_ends (subs : Nat → List Nat) (rank : Nat → Nat) (hr : ∀ c, ∀ d ∈ subs c, rank d < rank c) :
    ∀ (n c : Nat), rank c < n → ∃ l, allSubclasses subs n c = some l
  | 0, _, h => absurd h (Nat.not_lt_zero _)
  | n + 1, c, h => by
    have ih := all_subclasses_ends subs rank hr n
    have key : ∀ (ds acc : List Nat), (∀ d ∈ ds, d ∈ subs c) → ∃ l, ds.foldlM (fun acc d => (allSubclasses subs n d).map (fun ds => update (add acc d) ds)) acc = some l := by
      intro ds
      induction ds with
      | nil => exact fun acc _ => ⟨acc, rfl⟩
      | cons d ds ihd =>
        intro acc hs
        obtain ⟨r, hd⟩ := ih d (by have := hr c d (hs d (by simp)); omega)
        obtain ⟨l, h2⟩ := ihd (update (add acc d) r) (fun e he => hs e (by simp [he]))
        exact ⟨l, by rw [List.foldlM_cons, hd]; exact h2⟩
    exact key _ _ (fun _ h => h)

/-! ### the names that are found -/

theorem fromkeys_aux : ∀ (names acc : List Str), acc.Nodup →
    (names.foldl (fun acc s => if s ∈ acc then acc else acc ++ [s]) acc).Nodup ∧
    ∀ s, s ∈ names.foldl (fun acc s => if s ∈ acc then acc else acc ++ [s]) acc ↔ s ∈ acc ∨ s ∈ names
  | [], acc, h => ⟨h, by simp⟩
  | x :: names, acc, h => by
    rw [List.foldl_cons]
    have hn : (if x ∈ acc then acc else acc ++ [x]).Nodup := by
      split
      · exact h
      · next hx =>
        refine List.nodup_append.2 ⟨h, by simp, fun a ha b hb e => ?_⟩
        rw [List.mem_singleton] at hb
        exact hx (hb ▸ e ▸ ha)
    obtain ⟨h1, h2⟩ := fromkeys_aux names _ hn
    refine ⟨h1, fun s => ?_⟩
    rw [h2]
    have : s ∈ (if x ∈ acc then acc else acc ++ [x]) ↔ s ∈ acc ∨ s = x := by
      split
      · next hx => exact ⟨.inl, fun h' => h'.elim id (fun e => e ▸ hx)⟩
      · simp
    rw [this, List.mem_cons, or_assoc]

theorem fromkeys_nodup (names : List Str) : (fromkeys names).Nodup := (fromkeys_aux names [] List.nodup_nil).1

theorem mem_fromkeys {names : List Str} {s : Str} : s ∈ fromkeys names ↔ s ∈ names := by
  rw [fromkeys, (fromkeys_aux names [] List.nodup_nil).2]
  simp

/-- The same names are found in every process, whatever the order of the set, and each once. -/
theorem same_names {subs : Nat → List Nat} {n root : Nat} {l l1 l2 : List Nat} {name : Nat → Option Str} {storage : List Str}
    (h : allSubclasses subs n root = some l) (h1 : l1.Perm l) (h2 : l2.Perm l) :
    (pandasNames l1 name storage).Perm (pandasNames l2 name storage) ∧
    ∀ s, s ∈ pandasNames l1 name storage ↔ (∃ c, Below subs root c ∧ name c = some s) ∨ s ∈ storage := by
  have key : ∀ l', l'.Perm l → ∀ s, s ∈ pandasNames l' name storage ↔ (∃ c, Below subs root c ∧ name c = some s) ∨ s ∈ storage := by
    intro l' hl s
    unfold pandasNames
    rw [mem_fromkeys, List.mem_append, List.mem_filterMap]
    simp only [hl.mem_iff, (all_subclasses_iff subs n root l h).2]
  exact ⟨(List.perm_ext_iff_of_nodup (fromkeys_nodup _) (fromkeys_nodup _)).2 (fun s => (key l1 h1 s).trans (key l2 h2 s).symm), key l1 h1⟩

/-! ### the tables -/

theorem dget_nodup {α : Type} : ∀ {l : List (Str × α)}, (l.map (·.1)).Nodup → ∀ {k : Str} {v : α}, (k, v) ∈ l → dget k l = some v
  | [], _, _, _, h => by cases h
  | (k', v') :: r, hn, k, v, h => by
    simp only [List.map_cons, List.nodup_cons] at hn
    unfold dget
    rcases List.mem_cons.1 h with e | e
    · cases e
      rw [if_pos rfl]
    · rw [if_neg (fun e' => hn.1 (List.mem_map.2 ⟨(k, v), e, e'.symm⟩))]
      exact dget_nodup hn.2 e

/-- looking up in the table: first among the names of pandas, then among those of numpy -/
theorem dget_typeMap (k : Str) : ∀ (pd np : List (Str × Str)), (pd.map (·.1)).Nodup → dget k (typeMap np pd) = (dget k pd).orElse (fun _ => dget k np)
  | [], np, _ => by simp [typeMap]
  | (k', v) :: pd, np, hn => by
    simp only [List.map_cons, List.nodup_cons] at hn
    show dget k (typeMap (dset k' v np) pd) = _
    rw [dget_typeMap k pd _ hn.2, dget_dset, dget_cons]
    by_cases e : k = k'
    · subst e
      rw [if_pos rfl, if_pos rfl, (dget_eq_none_iff k pd).2 hn.1]
      rfl
    · rw [if_neg e, if_neg (fun h => e h.symm)]

theorem typeMap_nodup : ∀ (pd np : List (Str × Str)), (np.map (·.1)).Nodup → ((typeMap np pd).map (·.1)).Nodup
  | [], _, h => h
  | (k, v) :: pd, np, h => by
    show ((typeMap (dset k v np) pd).map (·.1)).Nodup
    refine typeMap_nodup pd _ ?_
    by_cases hk : k ∈ np.map (·.1)
    · rw [show (dset k v np).map (·.1) = np.map (·.1) from ?_]
      · exact h
      · have : ∀ d : List (Str × Str), k ∈ d.map (·.1) → (dset k v d).map (·.1) = d.map (·.1) := by
          intro d
          induction d with
          | nil => intro h; cases h
          | cons x d ih =>
            intro hx
            unfold dset
            split
            · rfl
            · next hne =>
              rw [List.map_cons, List.map_cons, ih]
              rcases List.mem_cons.1 hx with e | e
              · exact absurd e.symm hne
              · exact e
        exact this np hk
    · rw [dset_of_not_mem _ _ _ hk, List.map_append]
      exact List.nodup_append.2 ⟨h, by simp, fun a ha b hb e => hk (by simp at hb; rw [← hb, ← e]; exact ha)⟩

/-- a tag that only one name has is read as that name -/
theorem reverse_of_unique {m : List (Str × Str)} {k t : Str} (hm : (k, t) ∈ m) (hu : ∀ a, (a, t) ∈ m → a = k) : dget t (reverseMap m) = some k := by
  have key : ∀ (l acc : List (Str × Str)), (∀ kv ∈ l, kv ∈ m) → (dget t acc = some k ∨ (k, t) ∈ l) → dget t (l.foldl (fun a kv => dset kv.2 kv.1 a) acc) = some k := by
    intro l
    induction l with
    | nil => intro acc _ h; simpa using h
    | cons x l ih =>
      intro acc hl h
      rw [List.foldl_cons]
      refine ih _ (fun kv hkv => hl kv (List.mem_cons_of_mem _ hkv)) ?_
      obtain ⟨a, ta⟩ := x
      by_cases e : t = ta
      · subst e
        rw [hu a (hl _ List.mem_cons_self)]
        exact Or.inl (by simp)
      · rw [dget_dset_ne e]
        rcases h with h | h
        · exact Or.inl h
        · rcases List.mem_cons.mp h with h | h
          · cases h; exact absurd rfl e
          · exact Or.inr h
  exact key m [] (fun _ h => h) (Or.inr hm)

theorem tags_prefix {ch : Chars} {l : List Str} {pre : Str} {res : List (Str × Str)} (h : tags ch l pre = .ok res) : ∀ kv ∈ res, ∃ t, kv.2 = pre ++ p!"/" ++ t := by
  unfold tags at h
  split at h
  · cases h
  · cases h
    intro kv hkv
    obtain ⟨kv', _, e⟩ := List.mem_map.1 hkv
    exact ⟨kv'.2, by rw [← e]⟩

/-- what a table consists of -/
theorem table_parts {ch : Chars} {np pd : List Str} {m : List (Str × Str)} (hnp : np.Nodup) (hpd : pd.Nodup) (h : typeTable ch np pd = .ok m) :
    ∃ a b, tags ch np p!"np" = .ok a ∧ tags ch pd p!"pd" = .ok b ∧ m = typeMap a b ∧ (a.map (·.1)).Nodup ∧ (b.map (·.1)).Nodup := by
  unfold typeTable at h
  cases ha : tags ch np p!"np" with
  | error e => rw [ha] at h; cases h
  | ok a =>
    cases hb : tags ch pd p!"pd" with
    | error e => rw [ha, hb] at h; cases h
    | ok b =>
      rw [ha, hb] at h
      cases h
      exact ⟨a, b, rfl, rfl, rfl, by rw [C23.tags_names ch np hnp _ _ ha]; exact hnp, by rw [C23.tags_names ch pd hpd _ _ hb]; exact hpd⟩

theorem mem_typeMap {a b : List (Str × Str)} (ha : (a.map (·.1)).Nodup) (hb : (b.map (·.1)).Nodup) {k t : Str} :
    (k, t) ∈ typeMap a b ↔ (k, t) ∈ b ∨ ((k, t) ∈ a ∧ k ∉ b.map (·.1)) := by
  have h0 : (k, t) ∈ typeMap a b ↔ dget k (typeMap a b) = some t := ⟨dget_nodup (typeMap_nodup b a ha), dget_mem⟩
  rw [h0, dget_typeMap k b a hb]
  cases hk : dget k b with
  | some v =>
    show some v = some t ↔ _
    constructor
    · intro e; cases e; exact .inl (dget_mem hk)
    · rintro (h | ⟨_, h⟩)
      · rw [dget_nodup hb h] at hk; exact hk.symm
      · rw [(dget_eq_none_iff k b).2 h] at hk; cases hk
  | none =>
    show dget k a = some t ↔ _
    have hn := (dget_eq_none_iff k b).1 hk
    constructor
    · intro e; exact .inr ⟨dget_mem e, hn⟩
    · rintro (h | ⟨h, _⟩)
      · exact absurd (List.mem_map.2 ⟨_, h, rfl⟩) hn
      · exact dget_nodup ha h

/-- What `tag` of one process is to the other: every name is read back as it was written. -/
def Agree (m1 m2 : List (Str × Str)) (k : Str) : Prop := ∀ t, dget k m1 = some t → dget t (reverseMap m2) = some k

/-- **The types that only numpy has** mean the same in every process: whatever order the names of pandas are in (even if they are others), a name of numpy that is not one of
them is read back.  Missing from the full property: the names that pandas has, too (see below); and as for C23, the tags of numpy must be distinct. -/
theorem numpy_types_partial {ch : Chars} {np pd1 pd2 : List Str} {m1 m2 : List (Str × Str)} (hnp : np.Nodup) (h1 : pd1.Nodup) (h2 : pd2.Nodup)
    (e1 : typeTable ch np pd1 = .ok m1) (e2 : typeTable ch np pd2 = .ok m2) {k : Str} (hk1 : k ∉ pd1) (hk2 : k ∉ pd2)
    (hu : ∀ a, tags ch np p!"np" = .ok a → ∀ x t, (k, t) ∈ a → (x, t) ∈ a → x = k) : Agree m1 m2 k := by
  obtain ⟨a, b1, ea, eb1, rfl, na, nb1⟩ := table_parts hnp h1 e1
  obtain ⟨a', b2, ea', eb2, rfl, _, nb2⟩ := table_parts hnp h2 e2
  rw [ea] at ea'
  cases ea'
  have kb1 : k ∉ b1.map (·.1) := by rw [C23.tags_names ch pd1 h1 _ _ eb1]; exact hk1
  have kb2 : k ∉ b2.map (·.1) := by rw [C23.tags_names ch pd2 h2 _ _ eb2]; exact hk2
  intro t ht
  have hm := (mem_typeMap na nb1).1 (dget_mem ht)
  have hka : (k, t) ∈ a := by
    rcases hm with h | h
    · exact absurd (List.mem_map.2 ⟨_, h, rfl⟩) kb1
    · exact h.1
  refine reverse_of_unique ((mem_typeMap na nb2).2 (.inr ⟨hka, kb2⟩)) (fun x hx => ?_)
  rcases (mem_typeMap na nb2).1 hx with h | h
  · exfalso
    obtain ⟨t1, g1⟩ := tags_prefix ea _ hka
    obtain ⟨t2, g2⟩ := tags_prefix eb2 _ h
    simp only at g1 g2
    rw [g1] at g2
    injection g2 with g2 _
    exact absurd g2 (by decide)
  · exact hu a ea x t hka h.1

/-! ### names with a first letter of their own -/

/-- lower-case letter of an ASCII letter -/
def low (x : Nat) : Nat := if 65 ≤ x ∧ x ≤ 90 then x + 32 else x

theorem removeAll_head {pat : Str} {x : Nat} {r : Str} (hp : pat.head? = some 91) (hx : x ≠ 91) : (removeAll pat 0 (x :: r)).head? = some x := by
  unfold removeAll
  rw [if_neg]
  · rfl
  · cases pat with
    | nil => cases hp
    | cons y p =>
      injection hp with hp
      subst hp
      intro h
      unfold startsWith at h
      simp only [List.isPrefixOf, Bool.and_eq_true, beq_iff_eq] at h
      exact hx h.1.symm

theorem brackets_head : ∀ {s b : Str}, brackets s = some b → b.head? = some 91
  | [], _, h => by cases h
  | c :: r, b, h => by
    unfold brackets at h
    split at h
    · next hc =>
      split at h
      · cases h; subst hc; rfl
      · exact brackets_head h
    · exact brackets_head h

theorem head_take {s : Str} (n : Nat) (c : Nat) (h : (s.take n).head? = some c) : s.head? = some c := by
  cases s with
  | nil => simp at h
  | cons x r =>
    cases n with
    | zero => simp at h
    | succ n => simpa using h

/-- the letters begin as the name does -/
theorem split_head {ch : Chars} {s : Str} (hs : s.head? ≠ some 91) {c : Nat} (h : (split ch s).1.head? = some c) : s.head? = some c := by
  unfold split at h
  cases hb : brackets s with
  | none =>
    rw [hb] at h
    exact head_take _ c h
  | some b =>
    rw [hb] at h
    have := head_take _ c h
    cases s with
    | nil => cases hb
    | cons x r =>
      rw [removeAll_head (brackets_head hb) (fun e => hs (by rw [e]; rfl))] at this
      exact this

theorem shortest_head {used : List Str} {l t : Str} (h : shortest used l = some t) : t.head? = l.head? := by
  unfold shortest at h
  have hm := List.mem_of_find?_eq_some h
  obtain ⟨k, hk, rfl⟩ := List.mem_map.1 hm
  cases l with
  | nil => simp at hk
  | cons x r => rfl

/-- what is chosen begins as the letters do -/
theorem choose_head {used ul : List Str} {l n b t : Str} (h : choose used ul l n b = .ok (some t)) : t.head? = l.head? := by
  have fr : ∀ x y : Str, (if x ∈ used then none else some x) = some y → y = x := by
    intro x y hxy
    split at hxy
    · cases hxy
    · cases hxy; rfl
  unfold choose at h
  simp only at h
  split at h
  · next hc => rw [fr _ _ (Except.ok.inj h), hc.1]; rfl
  split at h
  · next hc => rw [fr _ _ (Except.ok.inj h), hc.1]; rfl
  split at h
  · split at h
    · cases l with
      | nil => cases h
      | cons c r =>
        simp only at h
        split at h
        · next t' ht =>
          cases h
          rw [fr _ _ ht]
          rfl
        · rw [fr _ _ (Except.ok.inj h)]
          rfl
    · exact shortest_head (Except.ok.inj h)
  · exact shortest_head (Except.ok.inj h)

section
variable {k : Str} {c : Nat}

/-- the other names do not begin with `c`, nor with a bracket -/
def Other (c : Nat) (s : Str) : Prop := ∀ x, s.head? = some x → low x ≠ c ∧ x ≠ c ∧ x ≠ 91

theorem letters_other {s : Str} (h : Other c s) : (ascii.lower (split ascii s).1).head? ≠ some c := by
  intro e
  have e' : ((split ascii s).1.map low).head? = some c := e
  rw [List.head?_map] at e'
  cases hh : (split ascii s).1.head? with
  | none => rw [hh] at e'; cases e'
  | some x =>
    rw [hh] at e'
    injection e' with e'
    have hne : s.head? ≠ some 91 := fun e => (h 91 e).2.2 rfl
    exact (h x (split_head hne hh)).1 e'

/-- the state when the name has had its turn, or not yet -/
def J (k : Str) (c : Nat) (st : St) : Prop :=
  (∀ kv ∈ st.result, (kv.1 = k → kv.2 = [c]) ∧ (kv.1 ≠ k → kv.2.head? ≠ some c)) ∧
  (k ∈ st.result.map (·.1) ∨ ((∀ u ∈ st.used, u.head? ≠ some c) ∧ ∀ u ∈ st.usedLetters, u.head? ≠ some c))

theorem J_step {st st' : St} {s : Str} (h : step ascii st s = .ok st') (hs : s ∉ st.result.map (·.1)) (hj : J k c st)
    (hk : k.head? = some c) (hlow : low c = c) (hdig : ascii.isDigit c = false) (hbr : 91 ∉ k) (hother : s ≠ k → Other c s) : J k c st' := by
  unfold step at h
  simp only at h
  split at h
  · cases h
  · next t ht =>
    cases h
    simp only [J, dset_of_not_mem _ _ _ hs]
    by_cases e : s = k
    · subst e
      have hfree := hj.2.resolve_left hs
      -- the letters of `k`
      have hbk : brackets s = none := by
        have : ∀ r : Str, 91 ∉ r → brackets r = none := by
          intro r
          induction r with
          | nil => exact fun _ => rfl
          | cons y r ih =>
            intro hr
            unfold brackets
            rw [if_neg (fun e => hr (by rw [e]; simp)), ih (fun h => hr (List.mem_cons_of_mem _ h))]
        exact this s hbr
      have hsp : split ascii s = ((splitTrailing ascii.isDigit s).1, (splitTrailing ascii.isDigit s).2, []) := by
        unfold split
        rw [hbk]
      obtain ⟨r, hr⟩ : ∃ r, s = c :: r := by
        cases s with
        | nil => cases hk
        | cons y r => injection hk with hk; exact ⟨r, by rw [hk]⟩
      have hlet : ∃ q, ascii.lower (splitTrailing ascii.isDigit s).1 = c :: q := by
        have hlen : (s.reverse.takeWhile ascii.isDigit).length < s.length := by
          rw [hr]
          have : ((c :: r).reverse.takeWhile ascii.isDigit).length ≠ (c :: r).length := by
            intro e
            have hall : (c :: r).reverse.takeWhile ascii.isDigit = (c :: r).reverse :=
              (List.takeWhile_sublist _).eq_of_length (by rw [e]; simp)
            have := List.all_eq_true.1 (List.all_takeWhile (p := ascii.isDigit) (l := (c :: r).reverse)) c (by rw [hall]; simp)
            rw [hdig] at this
            cases this
          have h2 : ((c :: r).reverse.takeWhile ascii.isDigit).length ≤ (c :: r).length := by
            have := (List.takeWhile_sublist (l := (c :: r).reverse) ascii.isDigit).length_le
            simpa using this
          omega
        have ht1 : (splitTrailing ascii.isDigit s).1 = s.take (s.length - (s.reverse.takeWhile ascii.isDigit).length) := by
          simp [splitTrailing]
        rw [ht1]
        obtain ⟨j, hj'⟩ : ∃ j, s.length - (s.reverse.takeWhile ascii.isDigit).length = j + 1 := ⟨s.length - (s.reverse.takeWhile ascii.isDigit).length - 1, by omega⟩
        rw [hj']
        conv => enter [1, q, 1, 2]; rw [hr]
        refine ⟨(r.take j).map low, ?_⟩
        show (low c :: (r.take j).map low) = _
        rw [hlow]
      obtain ⟨q, hq⟩ := hlet
      have hch : choose st.used st.usedLetters (ascii.lower (split ascii s).1) (split ascii s).2.1 (split ascii s).2.2 = .ok (some [c]) := by
        rw [hsp]
        simp only
        rw [hq]
        unfold choose
        simp only [ne_eq, not_true_eq_false, and_false, if_false]
        rw [if_neg (fun hm => hfree.2 _ hm rfl)]
        unfold shortest
        have : ((List.range (c :: q).length).map (fun k => (c :: q).take (k + 1))).find? (fun p => decide (p ∉ st.used)) = some [c] := by
          rw [List.length_cons, List.range_succ_eq_map, List.map_cons, List.find?_cons_of_pos]
          · simp
          · simp only [List.take_succ_cons, Nat.zero_add, List.take_zero, decide_eq_true_eq]
            exact fun hm => hfree.1 _ hm rfl
        rw [this]
      rw [hch] at ht
      injection ht with ht
      subst ht
      refine ⟨fun kv hkv => ?_, .inl (by simp)⟩
      rcases List.mem_append.1 hkv with h | h
      · exact hj.1 kv h
      · rw [List.mem_singleton] at h
        subst h
        exact ⟨fun _ => rfl, fun h => absurd rfl h⟩
    · have ho := hother e
      have hl := letters_other ho
      have hs' : s.head? ≠ some c := fun h => (ho c h).2.1 rfl
      have htag : (t.getD s).head? ≠ some c := by
        cases t with
        | none => exact hs'
        | some t => rw [Option.getD_some, choose_head ht]; exact hl
      refine ⟨fun kv hkv => ?_, ?_⟩
      · rcases List.mem_append.1 hkv with h | h
        · exact hj.1 kv h
        · rw [List.mem_singleton] at h
          subst h
          exact ⟨fun h => absurd h e, fun _ => htag⟩
      · rcases hj.2 with h | ⟨h1, h2⟩
        · exact .inl (by rw [List.map_append]; exact List.mem_append_left _ h)
        · refine .inr ⟨fun u hu => ?_, fun u hu => ?_⟩
          · rcases List.mem_cons.1 hu with e | e
            · rw [e]; exact htag
            · exact h1 u e
          · split at hu
            · rcases List.mem_cons.1 hu with e | e
              · rw [e]; exact hl
              · exact h2 u e
            · exact h2 u hu

theorem J_loop (hk : k.head? = some c) (hlow : low c = c) (hdig : ascii.isDigit c = false) (hbr : 91 ∉ k) : ∀ (l : List Str) {st st' : St}, loop ascii st l = .ok st' →
    (st.result.map (·.1) ++ l).Nodup → J k c st → (∀ s ∈ l, s ≠ k → Other c s) → J k c st'
  | [], _, _, h, _, hj, _ => by cases h; exact hj
  | s :: l, st, st', h, hn, hj, ho => by
    simp only [loop] at h
    split at h
    · cases h
    · next st1 h1 =>
      have hs : s ∉ st.result.map (·.1) := by
        intro hm
        rw [List.nodup_append] at hn
        exact hn.2.2 s hm s List.mem_cons_self rfl
      have hres : st1.result.map (·.1) = st.result.map (·.1) ++ [s] := by
        unfold step at h1
        simp only at h1
        split at h1
        · cases h1
        · cases h1
          rw [dset_of_not_mem _ _ _ hs, List.map_append]
          rfl
      refine J_loop hk hlow hdig hbr l h ?_ (J_step h1 hs hj hk hlow hdig hbr (ho s List.mem_cons_self)) (fun s' hs' => ho s' (List.mem_cons_of_mem _ hs'))
      rw [hres, List.append_assoc]
      exact hn

/-- the tag is the first letter, and no other name has it -/
theorem own_letter_tag {l : List Str} {pre : Str} {res : List (Str × Str)} (hl : l.Nodup) (h : tags ascii l pre = .ok res) (hkl : k ∈ l)
    (hk : k.head? = some c) (hlow : low c = c) (hdig : ascii.isDigit c = false) (hbr : 91 ∉ k) (ho : ∀ s ∈ l, s ≠ k → Other c s) :
    (k, pre ++ p!"/" ++ [c]) ∈ res ∧ ∀ a, (a, pre ++ p!"/" ++ [c]) ∈ res → a = k := by
  have hnames := C23.tags_names ascii l hl pre res h
  unfold tags at h
  split at h
  · cases h
  · next st hst =>
    cases h
    obtain ⟨hj, _⟩ := J_loop hk hlow hdig hbr l hst (by simpa using hl) ⟨by simp, .inr ⟨by simp, by simp⟩⟩ ho
    have hin : k ∈ st.result.map (·.1) := by
      rw [List.map_map] at hnames
      have : st.result.map (·.1) = l := hnames
      rw [this]
      exact hkl
    obtain ⟨⟨k', t⟩, hkt, rfl⟩ := List.mem_map.1 hin
    have ht := (hj _ hkt).1 rfl
    simp only at ht
    refine ⟨List.mem_map.2 ⟨_, hkt, by rw [ht]⟩, fun a ha => ?_⟩
    obtain ⟨⟨a', x⟩, hx, ex⟩ := List.mem_map.1 ha
    injection ex with e1 e2
    have e3 : x = [c] := List.append_cancel_left e2
    refine Classical.byContradiction fun hne => ?_
    refine (hj _ hx).2 (fun e => hne (e1.symm.trans e)) ?_
    simp only [e3]
    rfl

/-- **A name of pandas that shares its first letter with no other one** means the same in every process: its tag is that letter.  Missing from the full property: the
other names, for which it is false (`tags_differ`). -/
theorem own_letter_partial {np pd1 pd2 : List Str} {m1 m2 : List (Str × Str)} (hnp : np.Nodup) (h1 : pd1.Nodup) (hp : pd1.Perm pd2)
    (e1 : typeTable ascii np pd1 = .ok m1) (e2 : typeTable ascii np pd2 = .ok m2) (hkl : k ∈ pd1)
    (hk : k.head? = some c) (hlow : low c = c) (hdig : ascii.isDigit c = false) (hbr : 91 ∉ k) (ho : ∀ s ∈ pd1, s ≠ k → Other c s) :
    dget k m1 = some (p!"pd/" ++ [c]) ∧ Agree m1 m2 k := by
  have h2 : pd2.Nodup := hp.nodup_iff.1 h1
  obtain ⟨a, b1, ea, eb1, rfl, na, nb1⟩ := table_parts hnp h1 e1
  obtain ⟨a', b2, ea', eb2, rfl, na2, nb2⟩ := table_parts hnp h2 e2
  rw [ea] at ea'
  cases ea'
  obtain ⟨t1, _⟩ := own_letter_tag h1 eb1 hkl hk hlow hdig hbr ho
  obtain ⟨t2, u2⟩ := own_letter_tag h2 eb2 (hp.mem_iff.1 hkl) hk hlow hdig hbr (fun s hs => ho s (hp.mem_iff.2 hs))
  have hg : dget k (typeMap a b1) = some (p!"pd" ++ p!"/" ++ [c]) := dget_nodup (typeMap_nodup b1 a na) ((mem_typeMap na nb1).2 (.inl t1))
  refine ⟨hg, fun t ht => ?_⟩
  rw [hg] at ht
  injection ht with ht
  subst ht
  refine reverse_of_unique ((mem_typeMap na nb2).2 (.inl t2)) (fun x hx => ?_)
  rcases (mem_typeMap na nb2).1 hx with h | h
  · exact u2 x h
  · exfalso
    obtain ⟨t, g⟩ := tags_prefix ea _ h.1
    injection g with g _
    exact absurd g (by decide)

end

/-! ### columns -/

open PandasTypes in
/-- A column whose dtype means the same in both processes comes back in the other process, if `astype` with its own dtype changes nothing. -/
theorem column_partial {c : Codec} {L : Lib} {same : Py → Py → Bool} {np1 pd1 np2 pd2 : List (Str × Str)} {col : Column}
    (hp : ¬ C61.Mixed col) {t : Str} (ht : dget col.dtype (typeMap np1 pd1) = some t) (htn : t ≠ p!"py/jp")
    (ha : Agree (typeMap np1 pd1) (typeMap np2 pd2) col.dtype) (hc : L.convert col.dtype col.values = .ok col.values) :
    ∃ fc, flattenColumn c (C61.table np1 pd1) col = .ok fc ∧ ∀ l cols, PandasTypes.lookup same l cols = .ok fc.1 →
      restoreColumn c L (C61.table np2 pd2) same cols (l, fc.2) = .ok col := by
  refine ⟨(col.values, t), ?_, fun l cols hl => ?_⟩
  · unfold flattenColumn
    rw [if_neg (fun h => hp ((C61.mixed_iff col).1 h))]
    show Except.ok (col.values, (dget col.dtype (typeMap np1 pd1)).getD p!"object") = _
    rw [ht]
    rfl
  · unfold restoreColumn
    simp only [hl, bind, Except.bind, if_neg htn]
    have : (dget t (C61.table np2 pd2).name).getD p!"object" = col.dtype := by
      show (dget t (reverseMap (typeMap np2 pd2))).getD p!"object" = _
      rw [ha t ht]
      rfl
    rw [this, hc]
    rfl

/-! ### examples -/

/-- `ExtensionDtype` (0) has the subclasses `BaseMaskedDtype` (1), which has no name, and `CategoricalDtype` (2); the first one has `Int8Dtype` (3), `Int64Dtype` (4),
`BooleanDtype` (5); 6 is a subclass of both 1 and 2 -/
def subs : Nat → List Nat
  | 0 => [1, 2]
  | 1 => [3, 4, 5, 6]
  | 2 => [6]
  | _ => []

def name : Nat → Option Str
  | 2 => some p!"category"
  | 3 => some p!"int8"
  | 4 => some p!"int64"
  | 5 => some p!"boolean"
  | _ => none

/-- the same set, as two processes list it -/
def listing1 : List Nat := [1, 3, 4, 5, 6, 2]
def listing2 : List Nat := [2, 4, 5, 1, 3, 6]
def storage : List Str := [p!"string", p!"string"]
def npNames : List Str := numpyNames [some p!"bool", some p!"int64", none, some p!"int64", some p!"float64"] [p!"M8", p!"M8[ns]", p!"<M8[ns]"] []

example : allSubclasses subs 3 0 = some listing1 := by decide +kernel
example : npNames = [p!"bool", p!"int64", p!"float64", p!"datetime64[ns]"] := by decide +kernel
example : ∃ l, allSubclasses subs 3 0 = some l :=
  all_subclasses_ends subs (fun c => match c with | 0 => 2 | 1 => 1 | 2 => 1 | _ => 0)
    (fun c d h => by
      match c with
      | 0 => simp [subs] at h; rcases h with rfl | rfl <;> decide
      | 1 => simp [subs] at h; rcases h with rfl | rfl | rfl | rfl <;> decide
      | 2 => simp [subs] at h; subst h; decide
      | n + 3 => simp [subs] at h) 3 0 (by decide)
example : ∃ c, Below subs 0 c ∧ name c = some p!"int64" := ⟨4, .step (d := 1) (by decide) (.direct (by decide)), rfl⟩

def pd1 : List Str := pandasNames listing1 name storage
def pd2 : List Str := pandasNames listing2 name storage

/-- both processes have the same names -/
theorem pd_perm : pd1.Perm pd2 := (same_names (n := 3) (by decide +kernel : allSubclasses subs 3 0 = some listing1) (.refl _) (by decide +kernel)).1

/-- the tables of the two processes -/
theorem table1 : typeTable ascii npNames pd1 = .ok [(p!"bool", p!"np/b"), (p!"int64", p!"pd/i64"), (p!"float64", p!"np/f"), (p!"datetime64[ns]", p!"np/d64[ns]"),
    (p!"int8", p!"pd/i"), (p!"boolean", p!"pd/b"), (p!"category", p!"pd/c"), (p!"string", p!"pd/s")] := by rfl

theorem table2 : typeTable ascii npNames pd2 = .ok [(p!"bool", p!"np/b"), (p!"int64", p!"pd/i"), (p!"float64", p!"np/f"), (p!"datetime64[ns]", p!"np/d64[ns]"),
    (p!"category", p!"pd/c"), (p!"boolean", p!"pd/b"), (p!"int8", p!"pd/i8"), (p!"string", p!"pd/s")] := by rfl

/-- `float64` and the dates, which only numpy has -/
example : ∃ m1 m2, typeTable ascii npNames pd1 = .ok m1 ∧ typeTable ascii npNames pd2 = .ok m2 ∧ Agree m1 m2 p!"float64" ∧ Agree m1 m2 p!"datetime64[ns]" := by
  refine ⟨_, _, table1, table2, ?_, ?_⟩
  · refine numpy_types_partial (fromkeys_nodup _) (fromkeys_nodup _) (fromkeys_nodup _) table1 table2 (by decide +kernel) (by decide +kernel) ?_
    intro a ha x t h1 h2
    have : a = [(p!"bool", p!"np/b"), (p!"int64", p!"np/i"), (p!"float64", p!"np/f"), (p!"datetime64[ns]", p!"np/d64[ns]")] := (Except.ok.inj ha).symm
    subst this
    simp at h1 h2
    simp_all
  · refine numpy_types_partial (fromkeys_nodup _) (fromkeys_nodup _) (fromkeys_nodup _) table1 table2 (by decide +kernel) (by decide +kernel) ?_
    intro a ha x t h1 h2
    have : a = [(p!"bool", p!"np/b"), (p!"int64", p!"np/i"), (p!"float64", p!"np/f"), (p!"datetime64[ns]", p!"np/d64[ns]")] := (Except.ok.inj ha).symm
    subst this
    simp at h1 h2
    simp_all

/-- `category`, the only name with a "c" -/
theorem category_agrees {m1 m2 : List (Str × Str)} (e1 : typeTable ascii npNames pd1 = .ok m1) (e2 : typeTable ascii npNames pd2 = .ok m2) :
    dget p!"category" m1 = some p!"pd/c" ∧ Agree m1 m2 p!"category" :=
  own_letter_partial (c := 99) (fromkeys_nodup _) (fromkeys_nodup _) pd_perm e1 e2 (by decide +kernel) rfl rfl rfl (by decide)
    (fun s hs hne x hx => by
      have : s = p!"int8" ∨ s = p!"int64" ∨ s = p!"boolean" ∨ s = p!"category" ∨ s = p!"string" := by
        have h : pd1 = [p!"int8", p!"int64", p!"boolean", p!"category", p!"string"] := by rfl
        have hs' : s ∈ pd1 := hs
        rw [h] at hs'
        simpa using hs'
      rcases this with rfl | rfl | rfl | rfl | rfl
      · cases hx; decide
      · cases hx; decide
      · cases hx; decide
      · exact absurd rfl hne
      · cases hx; decide)

/-- **False of the code**: two processes with the same names and the same classes, of which one lists `Int8Dtype` first and the other `Int64Dtype`.  What the second one
writes for `int64` is `int8` to the first one; what the first one writes for `int64` is nothing to the second one. -/
theorem tags_differ : ∃ l1 l2 m1 m2, allSubclasses subs 3 0 = some l1 ∧ l2.Perm l1 ∧ typeTable ascii npNames (pandasNames l1 name storage) = .ok m1 ∧
    typeTable ascii npNames (pandasNames l2 name storage) = .ok m2 ∧ ¬ Agree m1 m2 p!"int64" ∧ ¬ Agree m2 m1 p!"int64" ∧
    (∃ t, dget p!"int64" m2 = some t ∧ dget t (reverseMap m1) = some p!"int8") ∧ ∃ t, dget p!"int64" m1 = some t ∧ dget t (reverseMap m2) = none := by
  refine ⟨listing1, listing2, _, _, by decide +kernel, by decide +kernel, table1, table2, ?_, ?_, ⟨p!"pd/i", by decide +kernel, by decide +kernel⟩, ⟨p!"pd/i64", by decide +kernel, by decide +kernel⟩⟩
  · intro h
    exact absurd (h p!"pd/i64" (by decide +kernel)) (by decide +kernel)
  · intro h
    exact absurd (h p!"pd/i" (by decide +kernel)) (by decide +kernel)

/-- `astype("int8")` keeps the last eight bits -/
def wrap : PandasTypes.Py → PandasTypes.Py
  | .int i => .int ((i + 128) % 256 - 128)
  | x => x

def lib : PandasTypes.Lib := { convert := fun t vs => .ok (if t = p!"int8" then vs.map wrap else vs), infer := fun _ => p!"int64" }

open PandasTypes in
/-- a column of `float64` comes back in the other process -/
example {c : Codec} {same : Py → Py → Bool} : ∃ a1 b1 b2, tags ascii npNames p!"np" = .ok a1 ∧ tags ascii pd1 p!"pd" = .ok b1 ∧ tags ascii pd2 p!"pd" = .ok b2 ∧
    ∃ fc, flattenColumn c (C61.table a1 b1) { values := [.float 0, .none], dtype := p!"float64" } = .ok fc ∧ ∀ l cols, PandasTypes.lookup same l cols = .ok fc.1 →
      restoreColumn c lib (C61.table a1 b2) same cols (l, fc.2) = .ok { values := [.float 0, .none], dtype := p!"float64" } :=
  ⟨_, _, _, rfl, rfl, rfl, column_partial (col := { values := [.float 0, .none], dtype := p!"float64" }) (t := p!"np/f") (by rintro ⟨h, _⟩; revert h; decide) (by decide +kernel) (by decide)
    (by
      intro t ht
      have : t = p!"np/f" := by
        have h : some t = some p!"np/f" := ht.symm.trans (by decide +kernel)
        exact Option.some.inj h
      subst this
      decide +kernel) rfl⟩

open PandasTypes in
/-- **The values are damaged**: the column `[300]` of `int64`, written by the second process and read by the first one, is `[44]` of `int8`. -/
theorem values_damaged {c : Codec} {same : Py → Py → Bool} : ∃ a b1 b2, tags ascii npNames p!"np" = .ok a ∧ tags ascii pd1 p!"pd" = .ok b1 ∧ tags ascii pd2 p!"pd" = .ok b2 ∧
    ∃ fc, flattenColumn c (C61.table a b2) { values := [.int 300], dtype := p!"int64" } = .ok fc ∧ ∀ l cols, PandasTypes.lookup same l cols = .ok fc.1 →
      restoreColumn c lib (C61.table a b1) same cols (l, fc.2) = .ok { values := [.int 44], dtype := p!"int8" } := by
  refine ⟨_, _, _, rfl, rfl, rfl, ([.int 300], p!"pd/i"), rfl, fun l cols hl => ?_⟩
  unfold restoreColumn
  simp only [hl, bind, Except.bind, if_neg (by decide : ¬ p!"pd/i" = p!"py/jp")]
  rfl

end JP.C92
