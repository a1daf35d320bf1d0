import Verif.Proofs.UPrune
/-! # Documents that are the same to the decoder -/
namespace JP.Pickler.WithProps
open JP Unpickler Unpickler.Pruning

variable {env : UEnv}

/-- the two documents are the same up to entries that are not read -/
def Eqv (env : UEnv) (j j' : Json) : Prop := prune env j = prune env j'

def EqvL (env : UEnv) (xs xs' : List Json) : Prop := xs.map (prune env) = xs'.map (prune env)

/-- the entries with their payloads pruned -/
def keep (env : UEnv) (d : List (Str × Json)) : List (Str × Json) := d.map (fun kv => (kv.1, payload env kv.1 kv.2))

theorem dget_keep (t : Str) (d : List (Str × Json)) : dget t (keep env d) = (dget t d).map (payload env t) := by
  induction d with
  | nil => rfl
  | cons x d ih =>
    obtain ⟨k, v⟩ := x
    show dget t ((k, payload env k v) :: keep env d) = _
    rw [dget_cons, dget_cons, ih]
    split
    · next h => subst h; rfl
    · rfl

theorem keep_dset (k : Str) (j : Json) (d : List (Str × Json)) : keep env (dset k j d) = dset k (payload env k j) (keep env d) := by
  induction d with
  | nil => rfl
  | cons x d ih =>
    obtain ⟨k', v⟩ := x
    show keep env (dset k j ((k', v) :: d)) = dset k _ ((k', payload env k' v) :: keep env d)
    unfold dset
    split
    · next h => subst h; rfl
    · next h => show (k', payload env k' v) :: keep env (dset k j d) = _; rw [ih]

/-- the class is found, has no handler and can be instantiated -/
def Found (env : UEnv) (c : Str) : Prop :=
  env.handler c = none ∧ env.loadclass c ≠ none ∧ (env.classInfo c).blankOk = true

/-- no entry makes the object one that is kept whole -/
def KeysOk (env : UEnv) (d : List (Str × Json)) : Prop :=
  ∀ kv ∈ d, kv.1 ≠ Tags.TYPE ∧ kv.1 ≠ Tags.PROPERTY ∧ (kv.1 = Tags.OBJECT → ∃ c, kv.2 = .str c ∧ Found env c)

theorem dset_mem {k : Str} {j : Json} {kv : Str × Json} : ∀ {d : List (Str × Json)}, kv ∈ dset k j d → kv = (k, j) ∨ kv ∈ d
  | [], h => by
    unfold dset at h
    exact .inl (List.mem_singleton.1 h)
  | (k', v) :: d, h => by
    unfold dset at h
    split at h
    · next hk =>
      subst hk
      cases h with
      | head => exact .inl rfl
      | tail _ h => exact .inr (List.mem_cons_of_mem _ h)
    · cases h with
      | head => exact .inr (List.mem_cons_self ..)
      | tail _ h => exact (dset_mem h).imp id (List.mem_cons_of_mem _)

theorem KeysOk.dset {d : List (Str × Json)} {k : Str} {j : Json} (h : KeysOk env d) (h1 : k ≠ Tags.TYPE) (h2 : k ≠ Tags.PROPERTY)
    (h3 : k = Tags.OBJECT → ∃ c, j = .str c ∧ Found env c) : KeysOk env (JP.dset k j d) := by
  intro kv hkv
  cases dset_mem hkv with
  | inl e => subst e; exact ⟨h1, h2, h3⟩
  | inr e => exact h kv e

theorem tag_dset {k : Str} {j : Json} {d : List (Str × Json)} (h : k ∈ wireTags ∨ tagOf d ≠ none) : tagOf (JP.dset k j d) ≠ none := by
  intro hn
  cases h with
  | inl h =>
    have := tagOf_none hn h
    unfold dhas at this
    rw [dget_dset_same] at this
    cases this
  | inr h =>
    refine h (List.findSome?_eq_none_iff.2 (fun t ht => ?_))
    have := tagOf_none hn ht
    unfold dhas at this
    rw [dget_dset] at this
    split at this
    · cases this
    · cases hd : dget t d with
      | none => rfl
      | some _ => rw [hd] at this; cases this

/-- `d'`, up to what is not read, is `d` with a `py/property` in front, if `b`, and `d` otherwise; if `g`, there is a tag in `d` -/
def R (env : UEnv) (b g : Bool) (d d' : List (Str × Json)) : Prop :=
  (g = true → tagOf d ≠ none) ∧ KeysOk env d ∧ ∃ e, keep env e = keep env d ∧ KeysOk env e ∧ (b = false ∧ d' = e ∨ b = true ∧ ∃ p, d' = (Tags.PROPERTY, p) :: e)

theorem R.nil : R env false false [] [] :=
  ⟨(fun h => by cases h), (fun kv h => by cases h), [], rfl, (fun kv h => by cases h), .inl ⟨rfl, rfl⟩⟩

theorem R.start (p : Json) : R env true false [] [(Tags.PROPERTY, p)] :=
  ⟨(fun h => by cases h), (fun kv h => by cases h), [], rfl, (fun kv h => by cases h), .inr ⟨rfl, p, rfl⟩⟩

theorem R.dset {b g : Bool} {d d' : List (Str × Json)} {k : Str} {j j' : Json} (h : R env b g d d') (h1 : k ≠ Tags.TYPE) (h2 : k ≠ Tags.PROPERTY)
    (h3 : k = Tags.OBJECT → ∃ c, j = .str c ∧ Found env c) (hj : payload env k j = payload env k j') :
    R env b g (JP.dset k j d) (JP.dset k j' d') := by
  obtain ⟨hg, hk, e, he, hke, hd⟩ := h
  have h3' : k = Tags.OBJECT → ∃ c, j' = .str c ∧ Found env c := by
    intro hk
    obtain ⟨c, hc, hf⟩ := h3 hk
    subst hk
    rw [payload_object, payload_object] at hj
    exact ⟨c, hj ▸ hc, hf⟩
  refine ⟨fun e => tag_dset (.inr (hg e)), hk.dset h1 h2 h3, JP.dset k j' e, by rw [keep_dset, keep_dset, he, hj], hke.dset h1 h2 h3', ?_⟩
  cases hd with
  | inl hd => exact .inl ⟨hd.1, by rw [hd.2]⟩
  | inr hd =>
    obtain ⟨hb, p, hd⟩ := hd
    refine .inr ⟨hb, p, ?_⟩
    rw [hd]
    show JP.dset k j' ((Tags.PROPERTY, p) :: e) = _
    rw [JP.dset, if_neg (fun e => h2 e.symm)]

/-- now there is a tag -/
theorem R.tag {b g : Bool} {d d' : List (Str × Json)} {k : Str} {j j' : Json} (h : R env b g d d') (hk : k ∈ wireTags) (h1 : k ≠ Tags.TYPE)
    (h3 : k = Tags.OBJECT → ∃ c, j = .str c ∧ Found env c) (hj : payload env k j = payload env k j') :
    R env b true (JP.dset k j d) (JP.dset k j' d') := by
  obtain ⟨_, h'⟩ := h.dset h1 (fun e => by subst e; exact absurd hk (by decide)) h3 hj
  exact ⟨fun _ => tag_dset (.inl hk), h'⟩

/-- the entry `py/property` is replaced -/
theorem R.property {g : Bool} {d d' : List (Str × Json)} {p : Json} (h : R env true g d d') : R env true g d (JP.dset Tags.PROPERTY p d') := by
  obtain ⟨hg, hk, e, he, hke, hd⟩ := h
  cases hd with
  | inl hd => cases hd.1
  | inr hd =>
    obtain ⟨hb, q, hd⟩ := hd
    refine ⟨hg, hk, e, he, hke, .inr ⟨rfl, p, ?_⟩⟩
    rw [hd, JP.dset, if_pos rfl]

theorem R.dhas {b g : Bool} {d d' : List (Str × Json)} (h : R env b g d d') {t : Str} (ht : t ≠ Tags.PROPERTY) : JP.dhas t d' = JP.dhas t d := by
  obtain ⟨_, _, e, he, _, hd⟩ := h
  have h1 : JP.dhas t e = JP.dhas t d := by
    have := congrArg (dget t) he
    rw [dget_keep, dget_keep] at this
    unfold JP.dhas
    cases h1 : dget t e <;> cases h2 : dget t d <;> rw [h1, h2] at this <;> first | rfl | cases this
  rw [← h1]
  cases hd with
  | inl hd => rw [hd.2]
  | inr hd =>
    obtain ⟨_, p, hd⟩ := hd
    rw [hd]
    unfold JP.dhas
    rw [dget_cons, if_neg (fun e => ht e.symm)]

theorem lead_map (d : List (Str × Json)) (ts : List Str) :
    ts.findSome? (fun t => (dget t (keep env d)).map (fun j => (t, j))) =
      (ts.findSome? (fun t => (dget t d).map (fun j => (t, j)))).map (fun tj => (tj.1, payload env tj.1 tj.2)) := by
  induction ts with
  | nil => rfl
  | cons t ts ih =>
    rw [List.findSome?_cons, List.findSome?_cons, dget_keep]
    cases dget t d with
    | none => exact ih
    | some j => rfl

theorem tagOf_keep (d : List (Str × Json)) : tagOf (keep env d) = (tagOf d).map (fun tj => (tj.1, payload env tj.1 tj.2)) :=
  lead_map d wireTags

theorem KeysOk.part {d : List (Str × Json)} (h : KeysOk env d) : keptWhole env d = false := by
  unfold keptWhole
  cases ht : tagOf d with
  | none => rfl
  | some tj =>
    obtain ⟨t, j⟩ := tj
    obtain ⟨hd, _, _⟩ := tagOf_before ht
    have hk := h _ (dget_mem hd)
    dsimp only at hk
    by_cases ho : t = p!"py/object"
    · obtain ⟨c, hc, h1, h2, h3⟩ := hk.2.2 ho
      subst hc
      dsimp only
      rw [if_pos ho, h1, h3]
      cases he : env.loadclass c with
      | none => exact absurd he h2
      | some _ => rfl
    · cases j with
      | str n => dsimp only; rw [if_neg ho, if_neg (show ¬ t = p!"py/type" from hk.1)]
      | _ => exact decide_eq_false ho

theorem reads_keep {d e : List (Str × Json)} (h : keep env e = keep env d) : reads env e = reads env d := by
  have hg : ∀ t, dhas t e = dhas t d := by
    intro t
    have := congrArg (dget t) h
    rw [dget_keep, dget_keep] at this
    unfold dhas
    cases h1 : dget t e <;> cases h2 : dget t d <;> rw [h1, h2] at this <;> first | rfl | cases this
  have ht : (tagOf e).map (fun tj => (tj.1, payload env tj.1 tj.2)) = (tagOf d).map (fun tj => (tj.1, payload env tj.1 tj.2)) := by
    rw [← tagOf_keep, ← tagOf_keep, h]
  funext k
  unfold reads
  cases h1 : tagOf e with
  | none => cases h2 : tagOf d with
    | none => rfl
    | some _ => rw [h1, h2] at ht; cases ht
  | some tj => cases h2 : tagOf d with
    | none => rw [h1, h2] at ht; cases ht
    | some tj' =>
      obtain ⟨t, j⟩ := tj
      obtain ⟨t', j'⟩ := tj'
      rw [h1, h2] at ht
      simp only [Option.map_some, Option.some.injEq, Prod.mk.injEq] at ht
      obtain ⟨e1, e2⟩ := ht
      subst e1
      dsimp only
      by_cases ho : t = p!"py/object"
      · subst ho
        rw [if_pos rfl, if_pos rfl]
        have : j = j' := by
          have a := payload_object (env := env) j
          have b := payload_object (env := env) j'
          rw [show Tags.OBJECT = p!"py/object" from rfl] at a b
          rw [← a, ← b, e2]
        subst this
        cases j with
        | str n => dsimp only; unfold readsObject; simp only [mentions_dhas, hg]
        | _ => rfl
      · rw [if_neg ho, if_neg ho]

theorem prune_property {d : List (Str × Json)} (p : Json) (hk : keptWhole env d = false) (ht : tagOf d ≠ none) :
    prune env (.obj ((Tags.PROPERTY, p) :: d)) = prune env (.obj d) := by
  have hg : ∀ t, t ≠ Tags.PROPERTY → dget t ((Tags.PROPERTY, p) :: d) = dget t d := by
    intro t h
    rw [dget_cons, if_neg (fun e => h e.symm)]
  have ht' : tagOf ((Tags.PROPERTY, p) :: d) = tagOf d := by
    unfold tagOf wireTags
    simp only [List.findSome?]
    repeat rw [hg _ (by decide)]
  have hk' : keptWhole env ((Tags.PROPERTY, p) :: d) = false := by
    unfold keptWhole at hk ⊢; rw [ht']; exact hk
  have hm : ∀ t, t ≠ Tags.PROPERTY → mentions t ((Tags.PROPERTY, p) :: d) = mentions t d := by
    intro t h
    rw [mentions_dhas, mentions_dhas]
    unfold dhas
    rw [hg t h]
  have hr : reads env ((Tags.PROPERTY, p) :: d) = reads env d := by
    funext k
    unfold reads
    rw [ht']
    unfold readsObject
    rw [hm p!"py/newargsex" (by decide), hm p!"py/newargs" (by decide), hm p!"py/initargs" (by decide)]
  rw [prune, prune, hk, hk', hr, pruneKvs_map, pruneKvs_map]
  simp only [Bool.false_eq_true, if_false, List.map_cons, List.filter_cons]
  have hf : reads env d Tags.PROPERTY = false := by
    unfold reads
    cases h : tagOf d with
    | none => exact absurd h ht
    | some tj =>
      obtain ⟨t, j⟩ := tj
      obtain ⟨_, hw, _⟩ := tagOf_before h
      dsimp only
      by_cases ho : t = p!"py/object"
      · rw [if_pos ho]
        cases j with
        | str n =>
          dsimp only
          unfold readsObject
          rw [if_neg (by decide), if_neg (by decide), if_neg (by decide)]
          split
          · rw [show decide (Tags.PROPERTY = p!"py/seq") = false from by decide]; rfl
          · rw [if_neg (by decide), if_neg (by decide)]; decide
        | _ =>
          unfold keptWhole at hk
          rw [h] at hk
          exact absurd ho (of_decide_eq_false hk)
      · rw [if_neg ho]
        refine decide_eq_false (fun e => ?_)
        subst e
        exact absurd hw (by decide)
  rw [hf]
  rfl

/-- the two objects are the same to the decoder -/
theorem R.eqv {b g : Bool} {d d' : List (Str × Json)} (h : R env b g d d') (ht : b = true → g = true) : Eqv env (.obj d) (.obj d') := by
  obtain ⟨hg, hk, e, he, hke, hd⟩ := h
  have h1 : prune env (.obj e) = prune env (.obj d) := by
    rw [prune, prune, hk.part, hke.part, reads_keep he, pruneKvs_map, pruneKvs_map]
    show Json.obj (if false = true then e else (keep env e).filter _) = Json.obj (if false = true then d else (keep env d).filter _)
    rw [he]
    rfl
  cases hd with
  | inl hd => obtain ⟨_, hd⟩ := hd; subst hd; exact h1.symm
  | inr hd =>
    obtain ⟨hb, p, hd⟩ := hd
    subst hd
    show prune env _ = prune env _
    rw [prune_property p hke.part, h1]
    have := congrArg tagOf he
    rw [tagOf_keep, tagOf_keep] at this
    intro hn
    rw [hn] at this
    cases hx : tagOf d with
    | none => exact hg (ht hb) hx
    | some _ => rw [hx] at this; cases this

theorem leaf_prune (j : Json) : leaf (prune env j) = leaf j := by
  cases j with
  | obj _ => rw [prune]; rfl
  | arr _ => rw [prune]; rfl
  | _ => rw [prune] <;> (intro x hx; cases hx)

/-- the value of an ordinary key -/
theorem payload_eqv {k : Str} {j j' : Json} (hk : Tags.isReserved k = false) (h : Eqv env j j') : payload env k j = payload env k j' := by
  have h1 : rawPayloads.contains k = false := by
    cases hc : rawPayloads.contains k with
    | false => rfl
    | true =>
      have : k ∈ rawPayloads := List.elem_iff.1 hc
      simp only [rawPayloads, List.mem_cons, List.not_mem_nil, or_false] at this
      rcases this with e | e <;> subst e <;> exact absurd hk (by decide)
  have h2 : itemPayloads.contains k = false := by
    cases hc : itemPayloads.contains k with
    | false => rfl
    | true =>
      have : k ∈ itemPayloads := List.elem_iff.1 hc
      simp only [itemPayloads, List.mem_cons, List.not_mem_nil, or_false] at this
      rcases this with e | e | e | e | e | e <;> subst e <;> exact absurd hk (by decide)
  unfold payload
  rw [h1, h2]
  simp only [Bool.false_eq_true, if_false]
  split
  · rw [← leaf_prune (env := env) j, ← leaf_prune (env := env) j']; unfold Eqv at h; rw [h]
  · exact h

theorem payload_items {k : Str} {xs xs' : List Json} (hk : itemPayloads.contains k = true) (h : EqvL env xs xs') :
    payload env k (.arr xs) = payload env k (.arr xs') := by
  have : k ∈ itemPayloads := List.elem_iff.1 hk
  have hp : ∀ ys, payload env k (.arr ys) = .arr (ys.map (prune env)) := by
    intro ys
    simp only [itemPayloads, List.mem_cons, List.not_mem_nil, or_false] at this
    unfold payload
    rcases this with e | e | e | e | e | e <;> subst e <;>
      rw [if_neg (by decide), if_neg (by decide), if_pos (by decide), pruneItems, pruneL_map]
  rw [hp, hp, h]

theorem eqv_arr {xs xs' : List Json} (h : EqvL env xs xs') : Eqv env (.arr xs) (.arr xs') := by
  show prune env _ = prune env _
  rw [prune, prune, pruneL_map, pruneL_map, h]

theorem reserved_ne {k t : Str} (h : Tags.isReserved k = false) (ht : Tags.isReserved t = true) : k ≠ t := by
  intro e; subst e; rw [h] at ht; cases ht

theorem R.plain {b g : Bool} {d d' : List (Str × Json)} {k : Str} {j j' : Json} (h : R env b g d d') (hk : Tags.isReserved k = false)
    (hj : Eqv env j j') : R env b g (JP.dset k j d) (JP.dset k j' d') :=
  h.dset (reserved_ne hk (by decide)) (reserved_ne hk (by decide)) (fun e => absurd e (reserved_ne hk (by decide))) (payload_eqv hk hj)

theorem null_prune (j : Json) : isNullJ (prune env j) = isNullJ j := by
  cases j with
  | obj _ => rw [prune]; rfl
  | arr _ => rw [prune]; rfl
  | _ => rw [prune] <;> (intro x hx; cases hx)

theorem dropWhile_map {f : Json → Json} (hf : ∀ j, isNullJ (f j) = isNullJ j) (xs : List Json) :
    (xs.map f).dropWhile isNullJ = (xs.dropWhile isNullJ).map f := by
  induction xs with
  | nil => rfl
  | cons x xs ih =>
    rw [List.map_cons, List.dropWhile_cons, List.dropWhile_cons, hf]
    split
    · exact ih
    · rfl

theorem trimReduce_map {f : Json → Json} (hf : ∀ j, isNullJ (f j) = isNullJ j) (xs : List Json) :
    trimReduce (xs.map f) = (trimReduce xs).map f := by
  unfold trimReduce
  rw [List.map_append, List.map_take, ← List.map_drop, ← List.map_reverse, dropWhile_map hf, List.map_reverse]

theorem eqv_trim {xs xs' : List Json} (h : EqvL env xs xs') : EqvL env (trimReduce xs) (trimReduce xs') := by
  unfold EqvL at h ⊢
  rw [← trimReduce_map (null_prune), ← trimReduce_map null_prune, h]

end JP.Pickler.WithProps
