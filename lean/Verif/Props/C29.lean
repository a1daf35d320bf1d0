import Verif.Proofs.PInst
import Verif.Proofs.PShift
import Verif.Readable
import Verif.Sample
/-! # C29 — decorative numpy values do not disturb reference numbering -/
namespace JP.C29
open JP PyM Pickler

/-- Writing the values leaves the numbering and the cache as they were, with all options. -/
theorem numbering_unchanged (w : World) (cfg : PCfg) (values : Val) (n : Nat) (s s1 : PState) (j : Json)
    (h : flattenReadable w cfg n values s = some (.ok j, s1)) : s1.objs = s.objs ∧ s1.flattened = s.flattened := by
  unfold flattenReadable at h
  rw [bind_ok (get_run s)] at h
  obtain ⟨j', s2, _, h2⟩ := bind_eq_ok.mp h
  rw [bind_ok (modify_run _ _)] at h2
  cases h2
  exact ⟨rfl, rfl⟩

/-- Whatever values are written for readability, and whatever goes wrong inside them and is swallowed: everything that is
encoded afterwards comes out exactly as if they had not been written, same result or exception, same reference numbers.
(The state is one in which a handler is called: below the top level.) -/
theorem rest_unchanged (w : World) (cfg : PCfg) (hm : cfg.maxDepth = none) (values : Val) (n : Nat) (s s1 : PState) (hd : 0 ≤ s.depth) (j : Json)
    (h : flattenReadable w cfg n values s = some (.ok j, s1))
    (m : Nat) (v : Val) (r : Except Exc Json) (t : PState) (hv : flatten w cfg m v s = some (r, t)) :
    ∃ t1, flatten w cfg m v s1 = some (r, t1) ∧ t1.objs = t.objs ∧ t1.flattened = t.flattened := by
  have hn := numbering_unchanged w cfg values n s s1 j h
  have hd1 : 0 ≤ s1.depth := by
    unfold flattenReadable at h
    rw [bind_ok (get_run s)] at h
    obtain ⟨j', s2, h1, h2⟩ := bind_eq_ok.mp h
    simp only [flattenTop, Bool.false_eq_true, if_false] at h1
    rw [bind_ok (modify_run _ _)] at h2
    cases h2
    have hsh := sh_flatten (w := w) (cfg := cfg) (q := none) (m := cfg.maxDepth) (m' := cfg.maxDepth) ⟨hm, hm⟩ n values s s ⟨rfl, rfl, hd, hd, fun _ h => by cases h⟩
    rw [show mx cfg cfg.maxDepth = cfg from rfl] at hsh
    rcases hsh with ⟨h3, _⟩ | ⟨_, _, _, h3, _, h4, _⟩
    · rw [h3] at h1; cases h1
    · rw [h3] at h1; cases h1; exact h4.left
  have hsh := sh_flatten (w := w) (cfg := cfg) (q := none) (m := cfg.maxDepth) (m' := cfg.maxDepth) ⟨hm, hm⟩ m v s s1 ⟨hn.1.symm, hn.2.symm, hd, hd1, fun _ h => by cases h⟩
  rw [show mx cfg cfg.maxDepth = cfg from rfl] at hsh
  rcases hsh with ⟨h3, _⟩ | ⟨_, _, _, h3, h4, h5, _⟩
  · rw [h3] at hv; cases hv
  · rw [h3] at hv; cases hv; exact ⟨_, h4, h5.objs.symm, h5.flattened.symm⟩

/-- With `max_depth`: the same, when no exception is swallowed inside the values (`Catches`, `fail_safe`); a swallowed
exception can leave the depth counter changed, see `limit_disturbed`. -/
theorem rest_unchanged_limited (w : World) (cfg : PCfg) (values : Val)
    (hc : ¬ Catches w (From w values)) (hf : cfg.failSafe = none) (n : Nat) (s s1 : PState) (j : Json)
    (h : flattenReadable w cfg n values s = some (.ok j, s1))
    (m : Nat) (v : Val) (r : Except Exc Json) (t : PState)
    (hv : flatten w cfg m v s = some (r, t)) :
    ∃ t1, flatten w cfg m v s1 = some (r, t1) ∧ t1.objs = t.objs ∧ t1.depth = t.depth ∧
      t1.flattened = t.flattened := by
  unfold flattenReadable at h
  rw [bind_ok (get_run s)] at h
  obtain ⟨j', s2, h1, h2⟩ := bind_eq_ok.mp h
  simp only [flattenTop, Bool.false_eq_true, if_false] at h1
  have hd := flatten_depth hc hf h1
  rw [bind_ok (modify_run _ _)] at h2
  cases h2
  obtain ⟨t1, he, ht1⟩ := flatten_seen w cfg m 0 v (t := { s2 with objs := s.objs, flattened := s.flattened })
    ⟨hd, rfl, rfl, by simp⟩ hv
  exact ⟨t1, ht1, he.2.1, he.1, he.2.2.1⟩

/-- the values contain an object with slots, one of whose attributes fails with an `AttributeError`; then a list in a list -/
def swallowing : World :=
  Sample.world [.inst { cls := p!"m.S", info := { hasDict := false, hasSlots := true, slots := [p!"x"] }, attrs := [(p!"x", .ref 1)] },
    .inst { cls := p!"m.B", info := { ownGetstate := true }, state := .error .attributeError },
    .list [.ref 3], .list [.int 7]]

/-- With `max_depth` the swallowed exception is felt afterwards: the list would have been cut off further down, or, without a
limit, not at all (so `rest_unchanged` covers this value). -/
theorem limit_disturbed :
    Sample.res (flatten swallowing { maxDepth := some 3 } 9 (.ref 2) { depth := 0 }) = some (.ok (.arr [.arr [.int 7]])) ∧
    (Sample.st (flattenReadable swallowing { maxDepth := some 3 } 9 (.ref 0) { depth := 0 })).bind (fun s1 => Sample.res (flatten swallowing { maxDepth := some 3 } 9 (.ref 2) s1)) =
      some (.ok (.arr [.str p!"R"])) ∧
    (Sample.st (flattenReadable swallowing {} 9 (.ref 0) { depth := 0 })).bind (fun s1 => Sample.res (flatten swallowing {} 9 (.ref 2) s1)) =
      some (.ok (.arr [.arr [.int 7]])) := by decide +kernel

/-- Values `[[1]]`, then a list that was already registered: the reference is the same with and without
the decorative values, while flattening them normally would have shifted later numbers. -/
example :
    ¬ Catches (Sample.world [.list [.ref 1], .list [.int 1], .list []])
      (From (Sample.world [.list [.ref 1], .list [.int 1], .list []]) (.ref 0)) ∧
    Sample.res (flattenReadable (Sample.world [.list [.ref 1], .list [.int 1], .list []]) {} 5 (.ref 0)
      { depth := 0, objs := [.addr 7] }) = some (.ok (.arr [.arr [.int 1]])) ∧
    (Sample.st (flattenReadable (Sample.world [.list [.ref 1], .list [.int 1], .list []]) {} 5 (.ref 0)
      { depth := 0, objs := [.addr 7] })).map (·.objs) = some [.addr 7] ∧
    (Sample.st (flatten (Sample.world [.list [.ref 1], .list [.int 1], .list []]) {} 5 (.ref 0)
      { depth := 0, objs := [.addr 7] })).map (·.objs) = some [.addr 7, .addr 0, .addr 1] := by
  refine ⟨?_, by decide +kernel⟩
  rintro ⟨a, i, _, h, _⟩
  match a with
  | 0 | 1 | 2 => simp [Sample.world] at h
  | n + 3 => simp [Sample.world] at h

/-! ### Whole documents -/

open ViewValues

variable {w : World} {cfg : PCfg}

theorem mx_self (cfg : PCfg) : mx cfg cfg.maxDepth = cfg := rfl

/-- The counter after a nested call is not below the one before. -/
theorem depth_le (n : Nat) (v : Val) {s s1 : PState} {r : Except Exc Json} (hd : 0 ≤ s.depth) (h : flatten w cfg n v s = some (r, s1)) :
    s.depth ≤ s1.depth := by
  have hl : Limits (some 0) cfg.maxDepth cfg.maxDepth := by
    unfold Limits
    cases cfg.maxDepth <;> simp
  rcases sh_flatten (w := w) (cfg := cfg) hl n v s s ⟨rfl, rfl, hd, hd, fun c h => by cases h; omega⟩ with ⟨h1, _⟩ | ⟨r', s', t', h1, _, _, h3, _⟩
  · rw [mx_self, h] at h1; cases h1
  · rw [mx_self, h] at h1; cases h1; exact h3

/-- no exception is swallowed below the values, and `fail_safe` is not used -/
def Strict (w : World) (cfg : PCfg) (v : Val) : Prop := ¬ Catches w (From w v) ∧ cfg.failSafe = none

theorem depth_eq (n : Nat) (v : Val) (hs : Strict w cfg v) {s s1 : PState} {j : Json}
    (h : flatten w cfg n v s = some (.ok j, s1)) : s1.depth = s.depth :=
  flatten_depth hs.1 hs.2 h

/-- how far apart the counters of a run with values and of one without them may be -/
def gap (cfg : PCfg) : Option Int := if cfg.maxDepth = none then none else some 0

theorem limits (cfg : PCfg) : Limits (gap cfg) cfg.maxDepth cfg.maxDepth := by
  unfold Limits gap
  cases cfg.maxDepth <;> simp

/-- The entry of an item with the values and without: the same, or the values (and what goes with them) are added. -/
def Same : Item → Json → Json → Prop
  | .obj _, j, j' => j = j'
  | .view _ _ _ extra _, j, j' => ∃ d, j' = .obj d ∧
      (j = .obj d ∨ ∃ values, j = .obj (dset p!"values" values (extra.foldl (fun d e => dset e.1 e.2 d) d)))

def Sames : List Item → List Json → List Json → Prop
  | [], [], [] => True
  | i :: is, j :: js, k :: ks => Same i j k ∧ Sames is js ks
  | _, _, _ => False

/-- what is asked of a view if `max_depth` is used -/
def Fine (w : World) (cfg : PCfg) : Item → Prop
  | .obj _ => True
  | .view _ v _ _ _ => cfg.maxDepth ≠ none → Strict w cfg v

theorem flatten_pair (n : Nat) (v : Val) {s t s1 : PState} {j : Json} (h : SR (gap cfg) s t) (hx : flatten w cfg n v s = some (.ok j, s1)) :
    ∃ t1, flatten w cfg n v t = some (.ok j, t1) ∧ SR (gap cfg) s1 t1 := by
  rcases sh_flatten (w := w) (cfg := cfg) (limits cfg) n v s t h with ⟨h1, _⟩ | ⟨r, s', t', h1, h2, h3, _, _⟩
  · rw [mx_self, hx] at h1; cases h1
  · rw [mx_self, hx] at h1; cases h1; exact ⟨t', h2, h3⟩

/-- one item: the run with the values leads to a state that corresponds to that of the run without them -/
theorem item (n : Nat) (small : Item → Bool) (i : Item) (hi : Fine w cfg i) {s t s1 : PState} {j : Json} (h : SR (gap cfg) s t)
    (hx : flattenItem w cfg n small i s = some (.ok j, s1)) :
    ∃ k t1, flattenItem w cfg n (fun _ => false) i t = some (.ok k, t1) ∧ Same i j k ∧ SR (gap cfg) s1 t1 := by
  cases i with
  | obj v =>
    obtain ⟨t1, h1, h2⟩ := flatten_pair n v h hx
    exact ⟨j, t1, h1, rfl, h2⟩
  | view b v r e d =>
    simp only [flattenItem, flattenView] at hx ⊢
    obtain ⟨d1, s2, hv, hp⟩ := bind_eq_ok.1 hx
    cases hp
    obtain ⟨jb, s3, hb, hk⟩ := bind_eq_ok.1 hv
    obtain ⟨t3, hb', h3⟩ := flatten_pair n b h hb
    refine ⟨.obj (r.foldl (fun d e => dset e.1 e.2 d) (dset p!"base" jb d)), t3, ?_, ?_⟩
    · have hb2 : flattenTop w cfg n b false t = some (.ok jb, t3) := hb'
      rw [bind_run, bind_ok hb2]
      rfl
    · cases hs : small (.view b v r e d) with
      | false =>
        rw [hs] at hk
        cases hk
        exact ⟨⟨_, rfl, .inl rfl⟩, h3⟩
      | true =>
        rw [hs] at hk
        simp only [if_true] at hk
        unfold flattenValues at hk
        obtain ⟨jv, s5, hjr, hk⟩ := bind_eq_ok.1 hk
        cases hk
        unfold flattenReadable at hjr
        rw [bind_ok (get_run s3)] at hjr
        obtain ⟨jv', s4, hjv, hjr⟩ := bind_eq_ok.1 hjr
        cases hjr
        have hle := depth_le n v h3.left hjv
        refine ⟨⟨_, rfl, .inr ⟨jv, rfl⟩⟩, ⟨h3.objs, h3.flattened, by have := h3.left; simp only; omega, h3.right, fun c hc => ?_⟩⟩
        have hm : cfg.maxDepth ≠ none := by intro hm; simp [gap, hm] at hc
        have hg := h3.gap c hc
        have := depth_eq n v (hi hm) hjv
        simp only
        omega

theorem items (n : Nat) (small : Item → Bool) : ∀ (is : List Item), (∀ i ∈ is, Fine w cfg i) → ∀ {s t s1 : PState} {js : List Json}, SR (gap cfg) s t →
    flattenItems w cfg n small is s = some (.ok js, s1) →
    ∃ ks t1, flattenItems w cfg n (fun _ => false) is t = some (.ok ks, t1) ∧ Sames is js ks ∧ SR (gap cfg) s1 t1
  | [], _, s, t, _, _, h, hx => by cases hx; exact ⟨[], t, rfl, trivial, h⟩
  | i :: is, hi, s, t, s1, js, h, hx => by
    unfold flattenItems at hx ⊢
    rw [mapM_cons] at hx
    obtain ⟨j, s2, hj, hx⟩ := bind_eq_ok.1 hx
    obtain ⟨js, s3, hjs, hx⟩ := bind_eq_ok.1 hx
    cases hx
    obtain ⟨k, t2, hk, h1, h2⟩ := item n small i (hi i (.head _)) h hj
    obtain ⟨ks, t3, hks, h3, h4⟩ := items n small is (fun i hm => hi i (.tail _ hm)) h2 hjs
    refine ⟨k :: ks, t3, ?_, ⟨h1, h3⟩, h4⟩
    rw [mapM_cons, bind_ok hk]
    unfold flattenItems at hks
    rw [bind_ok hks]
    rfl

/-- The document is the same as without the values, but for the values, in whatever state the pickler is when it comes to the items.
With `max_depth` this needs values that swallow no exceptions. -/
theorem same_document (n : Nat) (small : Item → Bool) (is : List Item) (hi : ∀ i ∈ is, Fine w cfg i) (s s1 : PState) (js : List Json)
    (hd : 0 ≤ s.depth) (h : flattenItems w cfg n small is s = some (.ok js, s1)) :
    ∃ ks t1, flattenItems w cfg n (fun _ => false) is s = some (.ok ks, t1) ∧ Sames is js ks := by
  obtain ⟨ks, t1, h1, h2, _⟩ := items n small is hi (t := s) ⟨rfl, rfl, hd, hd, fun c hc => by
    unfold gap at hc
    split at hc
    · cases hc
    · cases hc; omega⟩ h
  exact ⟨ks, t1, h1, h2⟩

/-- Two documents that differ in which arrays get their values written have the same objects and references. -/
theorem objects_same (n : Nat) (small small' : Item → Bool) (is : List Item) (hi : ∀ i ∈ is, Fine w cfg i) (s s1 s1' : PState) (js js' : List Json)
    (hd : 0 ≤ s.depth) (h : flattenItems w cfg n small is s = some (.ok js, s1))
    (h' : flattenItems w cfg n small' is s = some (.ok js', s1')) (k : Nat) (v : Val) (hk : is[k]? = some (.obj v)) :
    js[k]? = js'[k]? := by
  obtain ⟨ks, t, h1, h2⟩ := same_document n small is hi s s1 js hd h
  obtain ⟨ks', t', h1', h2'⟩ := same_document n small' is hi s s1' js' hd h'
  rw [h1] at h1'
  cases h1'
  have key : ∀ (is : List Item) (js ks : List Json), Sames is js ks → ∀ (k : Nat) (v : Val), is[k]? = some (Item.obj v) → js[k]? = ks[k]? := by
    intro is
    induction is with
    | nil => intro js ks _ k v hk; cases hk
    | cons i is ih =>
      intro js ks hs k v hk
      cases js with
      | nil => exact hs.elim
      | cons j js =>
        cases ks with
        | nil => exact hs.elim
        | cons x ks =>
          cases k with
          | zero => simp only [List.getElem?_cons_zero, Option.some.injEq] at hk ⊢; subst hk; exact hs.1
          | succ k => simp only [List.getElem?_cons_succ] at hk ⊢; exact ih _ _ hs.2 k v hk
  rw [key _ _ _ h2 k v hk, key _ _ _ h2' k v hk]

/-- `restore` of a view does not look at the values: it reads `base` with the unpickler (numpy.py:420-447) and takes the rest of the data
as it is. -/
theorem values_not_read (n : Nat) (b v : Val) (r e d : List (Str × Json)) (s s1 : PState) (d1 : List (Str × Json))
    (he : ∀ x ∈ e, x.1 ≠ p!"base") (hr : ∀ x ∈ r, x.1 ≠ p!"base")
    (h : flattenView w cfg n true b v r e d s = some (.ok d1, s1)) : ∃ j s2, flatten w cfg n b s = some (.ok j, s2) ∧ dget p!"base" d1 = some j := by
  have hfold : ∀ (l : List (Str × Json)), (∀ x ∈ l, x.1 ≠ p!"base") → ∀ d : List (Str × Json),
      dget p!"base" (l.foldl (fun d e => dset e.1 e.2 d) d) = dget p!"base" d := by
    intro l
    induction l with
    | nil => intro _ d; rfl
    | cons x l ih =>
      intro hl d
      rw [List.foldl_cons, ih (fun y hy => hl y (.tail _ hy)), dget_dset_ne]
      exact fun h => hl x (.head _) h.symm
  unfold flattenView at h
  obtain ⟨j, s2, hb, h⟩ := bind_eq_ok.1 h
  refine ⟨j, s2, hb, ?_⟩
  simp only [if_true, flattenValues] at h
  obtain ⟨jv, s4, hjv, h⟩ := bind_eq_ok.1 h
  cases h
  have hne : (p!"base" : Str) ≠ p!"values" := by decide
  rw [dget_dset_ne hne, hfold e he, hfold r hr, dget_dset_same]

/-- `0`, `1`: lists; `2`: the values of a view, nested lists -/
def heap : Heap := [.list [.int 1], .list [.int 2], .list [.ref 3, .ref 3], .list [.int 7]]

def doc : List Item := [.obj (.ref 0), .view (.ref 0) (.ref 2) [(p!"offset", .int 8)] [] [], .obj (.ref 1), .obj (.ref 1)]

/-- The view is followed by a list and a reference to it; both come out the same with the values and without. -/
example : Sample.res (flattenItems (Sample.world heap) {} 5 (fun _ => true) doc { depth := 0 }) =
      some (.ok [.arr [.int 1], .obj [(p!"base", .obj [(Tags.ID, .int 0)]), (p!"offset", .int 8), (p!"values", .arr [.arr [.int 7], .obj [(Tags.ID, .int 2)]])],
        .arr [.int 2], .obj [(Tags.ID, .int 1)]]) ∧
    Sample.res (flattenItems (Sample.world heap) {} 5 (fun _ => false) doc { depth := 0 }) =
      some (.ok [.arr [.int 1], .obj [(p!"base", .obj [(Tags.ID, .int 0)]), (p!"offset", .int 8)], .arr [.int 2], .obj [(Tags.ID, .int 1)]]) := by
  decide +kernel

/-- Without saving the tables the list after the view would have another number. -/
theorem without_saving : Sample.res (PyM.mapM (flatten (Sample.world heap) {} 5) [.ref 0, .ref 2, .ref 1, .ref 1] { depth := 0 }) =
    some (.ok [.arr [.int 1], .arr [.arr [.int 7], .obj [(Tags.ID, .int 2)]], .arr [.int 2], .obj [(Tags.ID, .int 3)]]) := by
  decide +kernel

end JP.C29
