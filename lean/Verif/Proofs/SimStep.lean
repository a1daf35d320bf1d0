import Verif.Proofs.SimBase
/-!
# What one recursive call does to both tables
-/
namespace JP.Sim
open JP PyM Unpickler

/-- how the entries of a dict are arranged in the document -/
def orderOf (cfg : PCfg) : List (Val × Val) → List (Val × Val) :=
  if cfg.keys then stringsFirst else id

/-- a handler is registered for the class of that name -/
def handledOf (w : World) (c : Str) : Bool := (w.handler c).isSome

/-- The encoder went from `s` to `s'` and the decoder, on the document produced, from `u` to `u'`. -/
structure Step (w : World) (cfg : PCfg) (X : List Addr) (Bad : Ctx) (s s' : PState) (u u' : UState) : Prop where
  depth : s'.depth = s.depth
  objs : s.objs <+: s'.objs
  rel : Rel w.heap Bad s'.objs u'
  ext : Ext X u u'
  done : Done (orderOf cfg) (handledOf w) w.heap Bad s.objs.length u.heap.length s'.objs u'
  /-- a `__dict__` is registered only on behalf of a new instance, or of one under construction -/
  own : ∀ x, .dictOf x ∈ s'.objs → .dictOf x ∈ s.objs ∨ .addr x ∉ s.objs ∨
    ∃ (k b : Nat), b ∈ X ∧ b < u.heap.length ∧ s'.objs[k]? = some (.addr x) ∧ u'.objs[k]? = some (.ref b)

/-- no `__dict__` of an object registered before was registered -/
def OwnOk (P P' : List Ident) : Prop := ∀ x, .dictOf x ∈ P' → .dictOf x ∈ P ∨ .addr x ∉ P

section
variable {w : World} {cfg : PCfg} {hS : Heap}
variable {order : List (Val × Val) → List (Val × Val)} {hd : Str → Bool}
variable {Bad Bad' : Ctx} {X X' : List Addr} {P P' : List Ident} {u u' u1 u2 u3 : UState} {s s1 s2 : PState}

theorem Ext.refl : Ext X u u := ⟨Nat.le_refl _, fun _ _ _ => rfl, List.prefix_refl _, fun _ _ h => h, rfl, fun _ _ h => h⟩

theorem Ext.trans (h1 : Ext X u u1) (h2 : Ext X' u1 u2) (hX : ∀ b : Nat, b < u.heap.length → b ∈ X' → b ∈ X) :
    Ext X u u2 where
  len := Nat.le_trans h1.len h2.len
  cells b hb hx := by
    rw [h2.cells b (Nat.lt_of_lt_of_le hb h1.len) (fun h => hx (hX b hb h)), h1.cells b hb hx]
  objs := h1.objs.trans h2.objs
  idx i k h := h2.idx i k (h1.idx i k h)
  proxies := h2.proxies.trans h1.proxies
  idp b n h := h1.idp b n (h2.idp b n h)

theorem Ext.weaken (h : Ext X u u1) (hX : ∀ b : Nat, b < u.heap.length → b ∈ X → b ∈ X') : Ext X' u u1 where
  len := h.len
  cells b hb hx := h.cells b hb (fun h' => hx (hX b hb h'))
  objs := h.objs
  idx := h.idx
  proxies := h.proxies
  idp := h.idp

/-- completed objects stay completed -/
theorem Done.trans {k0 b0 b0' : Nat} (h1 : Done order hd hS Bad k0 b0 P u1)
    (hcell : ∀ c, b0 ≤ c → c < u1.heap.length → u2.heap[c]? = u1.heap[c]?)
    (hlen : u1.heap.length ≤ u2.heap.length)
    (hR : ∀ a b, Rof Bad P u1.objs a b → Rof Bad' P' u2.objs a b)
    (hP : P <+: P')
    (hQ : ∀ k : Nat, k0 ≤ k → k < P.length → u2.objs[k]? = u1.objs[k]?)
    (h2 : Done order hd hS Bad' P.length b0' P' u2) (hb : b0 ≤ b0') :
    Done order hd hS Bad' k0 b0 P' u2 := by
  intro k a hk ha
  by_cases hlt : k < P.length
  · have ha1 : P[k]? = some (.addr a) := by
      obtain ⟨t, rfl⟩ := hP
      rwa [List.getElem?_append_left hlt] at ha
    obtain ⟨b, o, o', e1, e2, e3, e4, e5, e6⟩ := h1 k a hk ha1
    have hb' : b < u1.heap.length := (List.getElem?_eq_some_iff.1 e3).1
    refine ⟨b, o, o', e1, by rw [hQ k hk hlt, e2], by rw [hcell b e4 hb', e3], e4, ?_, ?_⟩
    · intro i d hi hdd
      obtain ⟨q1, q2⟩ := e5 i d hi hdd
      exact ⟨q1, Nat.lt_of_lt_of_le q2 hlen⟩
    · exact SameCell.mono hR (fun i d hi hdd => hcell d (e5 i d hi hdd).1 (e5 i d hi hdd).2) e6
  · obtain ⟨b, o, o', e1, e2, e3, e4, e5, e6⟩ := h2 k a (by omega) ha
    exact ⟨b, o, o', e1, e2, e3, by omega, fun i d hi hdd => ⟨by have := (e5 i d hi hdd).1; omega, (e5 i d hi hdd).2⟩, e6⟩

theorem Step.refl (hr : Rel w.heap Bad s.objs u) : Step w cfg X Bad s s u u where
  depth := rfl
  objs := List.prefix_refl _
  rel := hr
  ext := Ext.refl
  done := fun k a hk ha => by
    have := (List.getElem?_eq_some_iff.1 ha).1
    omega
  own := fun _ hx => Or.inl hx

theorem Step.ownOk (h : Step w cfg [] Bad s s1 u u1) : OwnOk s.objs s1.objs := by
  intro x hx
  rcases h.own x hx with h | h | ⟨_, _, h, _⟩
  · exact Or.inl h
  · exact Or.inr h
  · cases h

theorem OwnOk.refl : OwnOk P P := fun _ h => Or.inl h

theorem OwnOk.trans {P'' : List Ident} (h : OwnOk P P') (hp : P <+: P') (h' : OwnOk P' P'') : OwnOk P P'' := by
  intro x hx
  rcases h' x hx with h1 | h1
  · exact h x h1
  · exact Or.inr (fun hm => h1 (hp.subset hm))

/-- steps that register nothing and write nothing -/
theorem Step.same {s' : PState} (hr : Rel w.heap Bad s.objs u) (hdp : s'.depth = s.depth) (ho : s'.objs = s.objs)
    (hh : u'.heap = u.heap) (hq : u'.objs = u.objs) (hi : u'.idx = u.idx) (hp : u'.proxies = u.proxies) :
    Step w cfg X Bad s s' u u' where
  depth := hdp
  objs := ho ▸ List.prefix_refl _
  rel := by
    rw [ho]
    exact ⟨hq ▸ hr.len, hr.nodup, by rw [hq, hh]; exact hr.addr, by rw [hq]; exact hr.mod,
      by rw [hq, hh]; exact hr.lt, by rw [hq]; exact hr.inj, by rw [hi, hh]; exact hr.idxAddr,
      by rw [hi]; exact hr.idxMod, hr.bad, hr.serve, hr.own, by rw [hq, hh]; exact hr.filled⟩
  ext := ⟨by rw [hh]; exact Nat.le_refl _, fun _ _ _ => by rw [hh], hq ▸ List.prefix_refl _,
    fun i k h => by rw [hi]; exact h, hp, fun b n h => by rw [hh] at h; exact h⟩
  done := fun k a hk ha => by
    have := (List.getElem?_eq_some_iff.1 ha).1
    rw [ho] at this
    omega
  own := fun _ hx => Or.inl (ho ▸ hx)

theorem Step.trans (h1 : Step w cfg X Bad s s1 u u1) (h2 : Step w cfg X Bad s1 s2 u1 u2)
    (hX : ∀ b : Nat, b ∈ X → b < u.heap.length) : Step w cfg X Bad s s2 u u2 where
  depth := h2.depth.trans h1.depth
  objs := h1.objs.trans h2.objs
  rel := h2.rel
  ext := h1.ext.trans h2.ext (fun _ _ h => h)
  done := by
    refine Done.trans h1.done ?_ h2.ext.len (Rof.mono (fun _ h => h) h2.objs h2.ext.objs) h2.objs ?_ h2.done
      h1.ext.len
    · intro c hc hc'
      exact h2.ext.cells c hc' (fun h => absurd (hX c h) (Nat.not_lt.2 hc))
    · intro k _ hk
      obtain ⟨t, ht⟩ := h2.ext.objs
      rw [← ht, List.getElem?_append_left (by rw [← h1.rel.len]; exact hk)]
  own := by
    intro x hx
    rcases h2.own x hx with h | h | ⟨k, b, q1, q2, q3, q4⟩
    · rcases h1.own x h with h | h | ⟨k, b, q1, q2, q3, q4⟩
      · exact Or.inl h
      · exact Or.inr (Or.inl h)
      · exact Or.inr (Or.inr ⟨k, b, q1, q2, prefix_get h2.objs q3, prefix_get h2.ext.objs q4⟩)
    · exact Or.inr (Or.inl (fun hm => h (h1.objs.subset hm)))
    · exact Or.inr (Or.inr ⟨k, b, q1, hX b q1, q3, q4⟩)

theorem Step.weaken (h : Step w cfg X Bad s s1 u u1) (hX : ∀ b : Nat, b < u.heap.length → b ∈ X → b ∈ X') :
    Step w cfg X' Bad s s1 u u1 :=
  ⟨h.depth, h.objs, h.rel, h.ext.weaken hX, h.done, fun x hx => by
    rcases h.own x hx with h | h | ⟨k, b, q1, q2, q3, q4⟩
    · exact Or.inl h
    · exact Or.inr (Or.inl h)
    · exact Or.inr (Or.inr ⟨k, b, hX b q2 q1, q2, q3, q4⟩)⟩

/-- the encoder's depth and log of seen objects do not matter -/
theorem Step.congr {s' s1' : PState} (h : Step w cfg X Bad s s1 u u1) (e1 : s'.objs = s.objs) (e2 : s1'.objs = s1.objs)
    (e3 : s1'.depth = s'.depth) : Step w cfg X Bad s' s1' u u1 :=
  ⟨e3, by rw [e1, e2]; exact h.objs, by rw [e2]; exact h.rel, h.ext, by rw [e1, e2]; exact h.done, by rw [e1, e2]; exact h.own⟩

theorem Step.mono (h : Step w cfg X Bad s s1 u u1) :
    ∀ a b, Rof Bad s.objs u.objs a b → Rof Bad s1.objs u1.objs a b :=
  Rof.mono (fun _ h => h) h.objs h.ext.objs

/-! ### table operations -/

theorem idxGet_append (i : Ident) (l : List (Ident × Nat)) (j : Ident) (n : Nat) :
    idxGet i (l ++ [(j, n)]) = (idxGet i l).or (if j = i then some n else none) := by
  unfold idxGet
  rw [List.find?_append]
  cases h : l.find? (fun p => p.1 == i) with
  | some p => simp
  | none =>
    by_cases e : j = i
    · simp [e]
    · simp [e]

theorem mem_get {α} {l : List α} {x : α} (h : x ∈ l) : ∃ k : Nat, l[k]? = some x := by
  obtain ⟨k, hk, e⟩ := List.getElem_of_mem h
  exact ⟨k, by rw [List.getElem?_eq_getElem hk, e]⟩

theorem get_mem {α} {l : List α} {x : α} {k : Nat} (h : l[k]? = some x) : x ∈ l :=
  List.mem_of_getElem? h

theorem get_append_one {α} {l : List α} {y x : α} {k : Nat} (h : (l ++ [y])[k]? = some x) :
    l[k]? = some x ∨ (k = l.length ∧ x = y) := by
  by_cases hk : k < l.length
  · rw [List.getElem?_append_left hk] at h; exact Or.inl h
  · rw [List.getElem?_append_right (by omega)] at h
    have h0 : k - l.length < 1 := (List.getElem?_eq_some_iff.1 h).1
    have h1 : k - l.length = 0 := by omega
    rw [h1] at h
    simp at h
    exact Or.inr ⟨by omega, h.symm⟩

theorem get_lt {α} {l : List α} {x : α} {k : Nat} (h : l[k]? = some x) : k < l.length :=
  (List.getElem?_eq_some_iff.1 h).1

/-- the decoder's state after allocating and registering a new object -/
def regU (u : UState) (o : Obj) : UState :=
  { u with heap := u.heap ++ [o], idx := u.idx ++ [(.addr u.heap.length, u.objs.length)], objs := u.objs ++ [.ref u.heap.length] }

theorem Rel.reg (r : Rel hS Bad P u) {a : Addr} {o o0 : Obj} (ha : .addr a ∉ P)
    (hB : ∀ x, x ∈ Bad' → x = a ∨ x ∈ Bad) (hB' : ∀ x, x ∈ Bad → x ∈ Bad')
    (hO : ∀ x, x ∈ Bad.opn → x ∈ Bad'.opn) (ho : a ∈ Bad' ∨ a ∈ Bad'.opn ∨ ∃ i, hS[a]? = some (.inst i))
    (hk : a ∈ Bad' ∨ (hS[a]? = some o ∧ SameKind o o0)) (hown : Bad'.own = Bad.own := by rfl) :
    Rel hS Bad' (P ++ [.addr a]) (regU u o0) := by
  have hfr : ∀ (k' : Nat) (b : Addr), u.objs[k']? = some (Val.ref b) → b ≠ u.heap.length := fun k' b h e =>
    absurd (r.lt _ _ h) (Nat.not_lt.2 (Nat.le_of_eq e.symm))
  refine ⟨by simp [regU, r.len], ?_, ?_, ?_, ?_, ?_, ?_, ?_, ?_, ?_, ?_, ?_⟩
  · rw [List.nodup_append]
    exact ⟨r.nodup, by simp, fun x hx y hy => by simp at hy; subst hy; exact fun e => ha (e ▸ hx)⟩
  · intro k a' hka
    rcases get_append_one hka with h | ⟨h, h'⟩
    · obtain ⟨b, e1, e2⟩ := r.addr k a' h
      refine ⟨b, by simp only [regU]; rw [List.getElem?_append_left (get_lt e1)]; exact e1, ?_⟩
      intro hn
      obtain ⟨o1, o2, q1, q2, q3⟩ := e2 (fun h => hn (hB' _ h))
      exact ⟨o1, o2, q1, by simp only [regU]; rw [List.getElem?_append_left (get_lt q2)]; exact q2, q3⟩
    · injection h' with h'; subst h'
      refine ⟨u.heap.length, by simp [regU, h, r.len], ?_⟩
      intro hn
      rcases hk with hk | ⟨hk, hk'⟩
      · exact absurd hk hn
      · exact ⟨o, o0, hk, by simp [regU], hk'⟩
  · intro k n hkn
    rcases get_append_one hkn with h | ⟨h, h'⟩
    · have := r.mod k n h
      simp only [regU]; rw [List.getElem?_append_left (get_lt this)]; exact this
    · cases h'
  · intro k b hkb
    simp only [regU] at hkb ⊢
    rcases get_append_one hkb with h | ⟨h, h'⟩
    · have := r.lt _ _ h; simp; omega
    · injection h' with h'; subst h'; simp
  · intro k k' b h1 h2
    simp only [regU] at h1 h2
    rcases get_append_one h1 with h1 | ⟨h1, h1'⟩ <;> rcases get_append_one h2 with h2 | ⟨h2, h2'⟩
    · exact r.inj _ _ _ h1 h2
    · injection h2' with h2'; exact absurd h2' (hfr _ _ h1)
    · injection h1' with h1'; exact absurd h1' (hfr _ _ h2)
    · omega
  · intro b k h
    simp only [regU] at h ⊢
    rw [idxGet_append] at h
    simp only [List.length_append, List.length_cons, List.length_nil]
    cases hg : idxGet (.addr b) u.idx with
    | some n => have := r.idxAddr _ _ hg; omega
    | none =>
      rw [hg] at h
      by_cases e : Ident.addr u.heap.length = Ident.addr b
      · injection e with e; subst e; omega
      · simp [e] at h
  · intro n k h
    simp only [regU] at h
    rw [idxGet_append] at h
    cases hg : idxGet (.mod n) u.idx with
    | some n => exact List.mem_append_left _ (r.idxMod _ _ hg)
    | none => rw [hg] at h; simp at h
  · intro x hx
    rcases hB x hx with h | h
    · subst h; simp
    · exact List.mem_append_left _ (r.bad x h)
  · intro x hx
    exact List.mem_append_left _ (r.serve x (hown ▸ hx))
  · intro x hx
    simp only [List.mem_append, List.mem_singleton] at hx
    rcases hx with hx | hx
    · exact List.mem_append_left _ (r.own x hx)
    · cases hx
  · intro k x b hk hb h1 h2
    rcases get_append_one hk with h | ⟨h, h'⟩
    · have hb' : u.objs[k]? = some (.ref b) := by
        simp only [regU] at hb
        rwa [List.getElem?_append_left (by rw [← r.len]; exact get_lt h)] at hb
      refine (r.filled k x b h hb' (fun h => h1 (hB' _ h)) (fun h => h2 (hO _ h))).mono ?_ (Or.inr ?_)
      · rintro y c ⟨q1, j, q2, q3⟩
        refine ⟨fun hy => ?_, j, prefix_get (List.prefix_append _ _) q2, prefix_get (List.prefix_append _ _) q3⟩
        rcases hB y hy with e | e
        · subst e; exact ha (List.mem_of_getElem? q2)
        · exact q1 e
      · simp only [regU]
        rw [List.getElem?_append_left (r.lt _ _ hb')]
    · injection h' with h'
      subst h'
      rcases ho with ho | ho | ⟨i, ho⟩
      · exact absurd ho h1
      · exact absurd ho h2
      · exact Filled.inst ho

theorem Ext.reg (o0 : Obj) (ho : ∀ n, o0 ≠ .idproxy n := by intro _ h; cases h) : Ext X u (regU u o0) where
  len := by simp [regU]
  cells b hb _ := by simp only [regU]; rw [List.getElem?_append_left hb]
  objs := by simp [regU]
  idx i k h := by simp only [regU]; rw [idxGet_append, h]; rfl
  proxies := rfl
  idp b n h := by
    simp only [regU] at h
    by_cases hb : b < u.heap.length
    · rwa [List.getElem?_append_left hb] at h
    · rw [List.getElem?_append_right (by omega)] at h
      have hm := List.mem_of_getElem? h
      simp only [List.mem_singleton] at hm
      exact absurd hm.symm (ho n)

theorem alloc_run (o : Obj) : alloc o u = some (.ok u.heap.length, { u with heap := u.heap ++ [o] }) := rfl

theorem reg_run (r : Rel hS Bad P u) (o : Obj) :
    mkref (.ref u.heap.length) { u with heap := u.heap ++ [o] } = some (.ok (.ref u.heap.length), regU u o) := by
  have : idxGet (Val.ident (.ref u.heap.length)) u.idx = none := by
    cases h : idxGet (Val.ident (.ref u.heap.length)) u.idx with
    | none => rfl
    | some k => exact absurd (r.idxAddr _ _ h) (Nat.lt_irrefl _)
  unfold mkref
  simp only [this]
  rfl

/-- the cell does not hold a list or dict that is complete -/
def Writable (hS : Heap) (Bad : Ctx) (P : List Ident) (u : UState) (b : Addr) : Prop :=
  ∀ (k : Nat) a, P[k]? = some (.addr a) → u.objs[k]? = some (.ref b) → a ∈ Bad ∨ a ∈ Bad.opn ∨ ∃ i, hS[a]? = some (.inst i)

theorem Writable.inst (r : Rel hS Bad P u) {b : Addr} {i : Inst} (h : u.heap[b]? = some (.inst i)) : Writable hS Bad P u b := by
  intro k a hk hb
  by_cases hB : a ∈ Bad
  · exact Or.inl hB
  · obtain ⟨b', e1, e2⟩ := r.addr k a hk
    rw [hb] at e1
    injection e1 with e1
    injection e1 with e1
    subst e1
    obtain ⟨o, o', q1, q2, q3⟩ := e2 hB
    rw [h] at q2
    cases q2
    cases o <;> simp only [SameKind] at q3
    exact Or.inr (Or.inr ⟨_, q1⟩)

theorem Writable.opened (r : Rel hS Bad P u) {a b : Addr} {k : Nat} (ho : a ∈ Bad.opn) (h1 : P[k]? = some (.addr a)) (h2 : u.objs[k]? = some (.ref b)) :
    Writable hS Bad P u b := by
  intro k' a' hk hb
  have e := r.inj _ _ _ hb h2
  subst e
  rw [h1] at hk
  injection hk with hk
  injection hk with hk
  subst hk
  exact Or.inr (Or.inl ho)

theorem Writable.owned (r : Rel hS Bad P u) {x b : Addr} {k : Nat} (h1 : P[k]? = some (.dictOf x)) (h2 : u.objs[k]? = some (.ref b)) :
    Writable hS Bad P u b := by
  intro k' a' hk hb
  have e := r.inj _ _ _ hb h2
  subst e
  rw [h1] at hk
  cases hk

/-- a registered cell that may be written to -/
def Spot (hS : Heap) (Bad : Ctx) (P : List Ident) (u : UState) (b : Addr) : Prop :=
  (∃ k : Nat, u.objs[k]? = some (.ref b)) ∧ Writable hS Bad P u b

theorem Spot.opened (r : Rel hS Bad P u) {a b : Addr} {k : Nat} (ho : a ∈ Bad.opn) (h1 : P[k]? = some (.addr a)) (h2 : u.objs[k]? = some (.ref b)) :
    Spot hS Bad P u b := ⟨⟨k, h2⟩, .opened r ho h1 h2⟩

theorem Spot.owned (r : Rel hS Bad P u) {x b : Addr} {k : Nat} (h1 : P[k]? = some (.dictOf x)) (h2 : u.objs[k]? = some (.ref b)) :
    Spot hS Bad P u b := ⟨⟨k, h2⟩, .owned r h1 h2⟩

theorem Spot.step {b : Addr} (hs : Spot w.heap Bad s.objs u b) (hr : Rel w.heap Bad s.objs u) (h : Step w cfg X Bad s s1 u u1) : Spot w.heap Bad s1.objs u1 b := by
  obtain ⟨⟨k, hk⟩, hw⟩ := hs
  have hk1 := prefix_get h.ext.objs hk
  refine ⟨⟨k, hk1⟩, ?_⟩
  intro k' a' q1 q2
  have e := h.rel.inj _ _ _ q2 hk1
  subst e
  refine hw k' a' ?_ hk
  have hlt : k' < s.objs.length := by rw [hr.len]; exact get_lt hk
  obtain ⟨t, ht⟩ := h.objs
  rw [← ht, List.getElem?_append_left hlt] at q1
  exact q1

/-- writing to a registered cell without changing its kind -/
theorem Rel.set (r : Rel hS Bad P u) {b : Addr} {o0 o1 : Obj} (h0 : u.heap[b]? = some o0)
    (hk : ∀ o, SameKind o o0 → SameKind o o1) (hw : Writable hS Bad P u b) : Rel hS Bad P { u with heap := u.heap.set b o1 } := by
  refine ⟨r.len, r.nodup, ?_, r.mod, ?_, r.inj, ?_, r.idxMod, r.bad, r.serve, r.own, ?_⟩
  · intro k a hka
    obtain ⟨b', e1, e2⟩ := r.addr k a hka
    refine ⟨b', e1, fun hn => ?_⟩
    obtain ⟨o, o', q1, q2, q3⟩ := e2 hn
    by_cases e : b' = b
    · subst e
      rw [h0] at q2; injection q2 with q2; subst q2
      refine ⟨o, o1, q1, ?_, hk _ q3⟩
      simp only []
      rw [List.getElem?_set_self (get_lt h0)]
    · refine ⟨o, o', q1, ?_, q3⟩
      simp only []
      rw [List.getElem?_set_ne (fun h => e h.symm)]; exact q2
  · intro k b' h
    simp only [List.length_set]; exact r.lt _ _ h
  · intro b' k h
    simp only [List.length_set]; exact r.idxAddr _ _ h
  · intro k a b' hka hb' h1 h2
    refine (r.filled k a b' hka hb' h1 h2).mono (fun _ _ h => h) ?_
    by_cases e : b' = b
    · subst e
      rcases hw k a hka hb' with h | h | h
      · exact absurd h h1
      · exact absurd h h2
      · exact Or.inl h
    · right
      simp only []
      rw [List.getElem?_set_ne (fun h => e h.symm)]

/-- writing to a cell without changing its kind makes no placeholder -/
theorem Rel.notProxy_set (r : Rel hS Bad P u) {b : Addr} {o0 o1 : Obj} {v x : Val} (h0 : u.heap[b]? = some o0)
    (hk : ∀ o, SameKind o o0 → SameKind o o1) (h : VIso (Rof Bad P u.objs) v x) : proxyAddr (u.heap.set b o1) x = none := by
  cases x with
  | ref c =>
    cases v <;> simp only [VIso] at h
    obtain ⟨o, o', _, h2, h3⟩ := r.kind h
    by_cases e : b = c
    · subst e
      rw [h0] at h2
      injection h2 with h2
      subst h2
      have := hk _ h3
      simp only [proxyAddr, List.getElem?_set_self (get_lt h0)]
      cases o <;> cases o1 <;> simp [SameKind] at this ⊢
    · simp only [proxyAddr, List.getElem?_set_ne e, h2]
      cases o <;> cases o' <;> simp [SameKind] at h3 ⊢
  | _ => rfl

theorem Ext.set (b : Addr) (o1 : Obj) (hb : b ∈ X) (ho : ∀ n, o1 ≠ .idproxy n := by intro _ h; cases h) : Ext X u { u with heap := u.heap.set b o1 } where
  len := by simp
  cells c hc hx := by
    simp only []
    rw [List.getElem?_set_ne (fun (h : b = c) => hx (h ▸ hb))]
  objs := List.prefix_refl _
  idx _ _ h := h
  proxies := rfl
  idp c n h := by
    simp only [] at h
    by_cases hc : b = c
    · subst hc
      have hl : b < (u.heap.set b o1).length := (List.getElem?_eq_some_iff.1 h).1
      rw [List.getElem?_set_self (by simpa using hl)] at h
      exact absurd (Option.some.inj h) (ho n)
    · rwa [List.getElem?_set_ne hc] at h

theorem set_get {b : Addr} {o1 : Obj} (hb : b < u.heap.length) :
    ({ u with heap := u.heap.set b o1 } : UState).heap[b]? = some o1 := by
  simp only []
  rw [List.getElem?_set_self hb]

/-- writing to an open cell is a step -/
theorem Step.set (r : Rel w.heap Bad s.objs u) {b : Addr} {o0 o1 : Obj} (h0 : u.heap[b]? = some o0)
    (hk : ∀ o, SameKind o o0 → SameKind o o1) (hb : b ∈ X) (hw : Writable w.heap Bad s.objs u b) (ho : ∀ n, o1 ≠ .idproxy n := by intro _ h; cases h) :
    Step w cfg X Bad s s u { u with heap := u.heap.set b o1 } where
  depth := rfl
  objs := List.prefix_refl _
  rel := r.set h0 hk hw
  ext := Ext.set b o1 hb ho
  done := fun k a hk ha => by
    have := get_lt ha
    omega
  own := fun _ hx => Or.inl hx

/-- closing an object: the number at which it was registered is complete, too -/
theorem Done.close {k0 b0 b : Nat} {a : Addr} {o o' : Obj} (h : Done order hd hS Bad (k0 + 1) b0 P u)
    (hk : P[k0]? = some (.addr a)) (h1 : hS[a]? = some o) (h2 : u.objs[k0]? = some (.ref b))
    (h3 : u.heap[b]? = some o') (h4 : b0 ≤ b)
    (h5 : ∀ (i : Inst) (d : Nat), o' = .inst i → i.dictCell = some d → b0 ≤ d ∧ d < u.heap.length)
    (h6 : SameCell order hd hS u.heap (Rof Bad P u.objs) o o') : Done order hd hS Bad k0 b0 P u := by
  intro k a' hkk ha
  by_cases e : k = k0
  · subst e
    rw [hk] at ha; injection ha with ha; injection ha with ha; subst ha
    exact ⟨b, o, o', h1, h2, h3, h4, h5, h6⟩
  · exact h k a' (by omega) ha

theorem Done.weaken {k0 b0 b0' : Nat} (h : Done order hd hS Bad k0 b0 P u) (hb : b0' ≤ b0) :
    Done order hd hS Bad k0 b0' P u := by
  intro k a hk ha
  obtain ⟨b, o, o', e1, e2, e3, e4, e5, e6⟩ := h k a hk ha
  exact ⟨b, o, o', e1, e2, e3, by omega, fun i d hi hdd => ⟨by have := (e5 i d hi hdd).1; omega, (e5 i d hi hdd).2⟩, e6⟩

end
end JP.Sim
