import Verif.Proofs.PInv
import Verif.JsonSpec
/-! # Instances of the encoder invariants -/
namespace JP.Pickler
open JP PyM

/-- No information: gives independence of `_seen` and of the amount of fuel. -/
def trivialInv (w : World) (cfg : PCfg) (scope : Scope w) (exact : Bool) : Inv w cfg where
  scope := scope
  exact := exact
  I _ _ := True
  Ie _ _ := True
  JC _ _ := True
  JD _ _ := True
  JB _ _ := True
  K _ := True
  RefOk := True
  wf _ := True
  wfChild _ _ := trivial
  tracksDepth := False
  IIe _ := trivial
  catches _ _ _ _ := trivial
  failSafe _ _ _ _ := trivial
  log _ _ _ _ := trivial
  refOk _ _ := trivial
  ref _ _ _ := ⟨trivial, trivial⟩
  push _ _ := trivial
  pop _ _ := trivial
  popE _ _ := trivial
  InSeen _ _ _ := True
  popSeen _ _ := trivial
  store _ _ _ _ _ := trivial
  stored _ _ _ := trivial
  jBC _ _ := trivial
  depthEq h := h.elim
  jSafe _ _ := trivial
  jB64 := trivial
  jB85 := trivial
  jBa64 := trivial
  jBa85 := trivial
  jNull := trivial
  jBool := trivial
  jInt := trivial
  jFloat _ := trivial
  jStr _ := trivial
  jCD _ := trivial
  jCB _ := trivial
  jArrD _ := trivial
  jArrB _ := trivial
  jObjD _ _ := trivial
  jObjB _ _ := trivial
  jDate _ _ _ _ _ _ := trivial
  kUser _ _ := trivial
  kName _ _ := trivial
  kRepr _ _ _ := trivial
  kEsc _ := trivial
  kField _ _ _ := trivial
  kTag _ _ _ := trivial
  kAlways _ _ := trivial

/-- More fuel does not change the result, and `_seen` does not influence it. -/
theorem flatten_seen (w : World) (cfg : PCfg) (n k : Nat) (v : Val) {s t s1 : PState} {r}
    (hst : EqSeen false s t) (h : flatten w cfg n v s = some (r, s1)) :
    ∃ t1, EqSeen false s1 t1 ∧ flatten w cfg (n + k) v t = some (r, t1) :=
  ((trivialInv w cfg (.all w) false).flatten n k ⟨0, []⟩ v trivial trivial s t hst trivial r s1 h).1

/-- The run with more fuel is the same run. -/
theorem flatten_mono {w : World} {cfg : PCfg} {n m : Nat} {v : Val} {s : PState} {x} (hnm : n ≤ m)
    (h : flatten w cfg n v s = some x) : flatten w cfg m v s = some x := by
  obtain ⟨r, s1⟩ := x
  obtain ⟨k, rfl⟩ := Nat.exists_eq_add_of_le hnm
  obtain ⟨⟨t1, h1, h2⟩, _⟩ := (trivialInv w cfg (.all w) true).flatten n k ⟨0, []⟩ v trivial trivial s s .rfl trivial r s1 h
  rw [h2]
  obtain ⟨e1, e2, e3, e4⟩ := h1
  have e4 := e4 rfl
  cases s1
  cases t1
  simp_all

/-- Which keys can appear: `A` holds of every key of every object produced. -/
structure KeyRules (w : World) (cfg : PCfg) (A : Str → Prop) : Prop where
  ref : cfg.unpicklable = true → cfg.makeRefs = true → A Tags.ID
  bytes : A Tags.B64 ∧ A Tags.B85 ∧ A Tags.BYTEARRAY
  user : ∀ s, Tags.isReserved s = false → A s
  repr : ∀ v s, (∀ t, v ≠ .str t) → reprKey w v = .ok s → A s
  esc : ∀ j, A (Tags.JSON_KEY ++ w.dumps j)
  field : ∀ (a : Addr) (i : Inst) (kv : Str × Val),
    w.heap[a]? = some (.inst i) → kv ∈ i.hfields → A kv.1
  tag : cfg.unpicklable = true → ∀ k ∈ [Tags.OBJECT, Tags.FUNCTION, Tags.MODULE, Tags.REDUCE, Tags.SEQ,
    Tags.SET, Tags.TUPLE, Tags.STATE], A k
  always : ∀ k ∈ [Tags.TYPE, Tags.NEWARGS, Tags.NEWARGSEX, Tags.INITARGS, Tags.ITERATOR,
    Tags.DEFAULT_FACTORY], A k
  safe : ∀ f e j, cfg.failSafe = some f → f e = .ok j → ∀ k ∈ j.keys, A k

def AllK (A : Str → Prop) (j : Json) : Prop := ∀ k ∈ j.keys, A k

theorem AllK.arr {A : Str → Prop} {js : List Json} (h : ∀ j ∈ js, AllK A j) : AllK A (.arr js) := by
  intro k hk
  obtain ⟨j, hj, hk⟩ := Json.mem_keysL.mp hk
  exact h j hj k hk

theorem AllK.obj {A : Str → Prop} {kvs : List (Str × Json)} (h : ∀ kv ∈ kvs, A kv.1 ∧ AllK A kv.2) :
    AllK A (.obj kvs) := by
  intro k hk
  obtain ⟨kv, hkv, hk⟩ := Json.mem_keysKv.mp hk
  rcases hk with rfl | hk
  · exact (h kv hkv).1
  · exact (h kv hkv).2 k hk

theorem AllK.single {A : Str → Prop} {k : Str} {s : Str} (h : A k) : AllK A (.obj [(k, .str s)]) :=
  .obj (by simp only [List.mem_singleton]; rintro kv rfl; exact ⟨h, by intro k hk; cases hk⟩)

def keysInv {w : World} {cfg : PCfg} {A : Str → Prop} (h : KeyRules w cfg A) : Inv w cfg where
  scope := .all w
  I _ s := ∀ p ∈ s.flattened, AllK A p.2
  Ie _ s := ∀ p ∈ s.flattened, AllK A p.2
  JC _ := AllK A
  JD _ := AllK A
  JB _ := AllK A
  K := A
  RefOk := A Tags.ID
  wf _ := True
  wfChild _ _ := trivial
  tracksDepth := False
  exact := false
  IIe := id
  catches _ _ _ := id
  failSafe _ _ _ := id
  log _ hI _ _ := hI
  refOk := h.ref
  ref {_ _ n} hr _ _ := by
    have : AllK A (.obj [(Tags.ID, .int n)]) := .obj (by
      simp only [List.mem_singleton]
      rintro kv rfl
      exact ⟨hr, fun k hk => by cases hk⟩)
    exact ⟨this, this⟩
  push _ hI := hI
  pop _ hI := by
    split
    · intro p hp; cases hp
    · exact hI
  popE _ := id
  InSeen _ _ _ := True
  popSeen _ _ := trivial
  store _ _ hI hj _ := by
    intro p hp
    rcases List.mem_cons.mp hp with rfl | hp
    · exact hj
    · exact hI p hp
  stored _ hI hm := hI _ hm
  jBC hj _ := hj
  depthEq hf := hf.elim
  jSafe hf he := h.safe _ _ _ hf he
  jB64 := .single h.bytes.1
  jB85 := .single h.bytes.2.1
  jBa64 := .obj (by simp only [List.mem_singleton]; rintro kv rfl; exact ⟨h.bytes.2.2, .single h.bytes.1⟩)
  jBa85 := .obj (by simp only [List.mem_singleton]; rintro kv rfl; exact ⟨h.bytes.2.2, .single h.bytes.2.1⟩)
  jNull := fun k hk => by cases hk
  jBool := fun k hk => by cases hk
  jInt := fun k hk => by cases hk
  jFloat _ := fun k hk => by cases hk
  jStr _ := fun k hk => by cases hk
  jCD := id
  jCB := id
  jArrD := .arr
  jArrB := .arr
  jObjD _ := .obj
  jObjB _ := .obj
  jDate _ _ _ hk hc hj := .obj (fun kv hkv => (Logic.mem_dset hkv).elim
    (fun e => by subst e; exact ⟨h.user p!"__reduce__" (by decide), .arr (by simp only [List.mem_cons, List.not_mem_nil, or_false]; rintro x (rfl | rfl); exact hc; exact .arr (by simp only [List.mem_cons]; rintro y (rfl | hy); exact (fun k hk => by cases hk); exact hj y hy))⟩) (hk kv))
  kUser _ := h.user _
  kName k hk := h.user k (by revert k; decide)
  kRepr _ := h.repr _ _
  kEsc _ := h.esc _
  kField _ := h.field _ _ _
  kTag := h.tag
  kAlways := h.always

theorem flatten_keys {w : World} {cfg : PCfg} {A : Str → Prop} (h : KeyRules w cfg A) {n : Nat} {v : Val}
    {s s1 : PState} {j : Json} (hs : ∀ p ∈ s.flattened, AllK A p.2)
    (hr : flatten w cfg n v s = some (.ok j, s1)) : ∀ k ∈ j.keys, A k :=
  ((keysInv h).flatten_ok (d := ⟨0, []⟩) trivial trivial hs hr).1

/-- The depth counter is restored by every call that returns. -/
def depthInv (w : World) (cfg : PCfg) (scope : Scope w) (hc : ¬ Catches w scope.On) (hf : cfg.failSafe = none) : Inv w cfg :=
  { trivialInv w cfg scope false with
    ref := fun _ _ _ => ⟨trivial, trivial⟩
    I := fun d s => s.depth = d.depth
    catches := fun h => (hc h).elim
    failSafe := fun h => by rw [hf] at h; cases h
    log := fun _ h _ _ => h
    push := fun _ h => by simp [Idx.child, h]
    pop := fun {d v s} _ h => by
      simp only [Idx.child] at h
      split
      · next hd =>
        have : s.depth - 1 = (-1 : Int) := by simpa using hd
        show (-1 : Int) = d.depth
        omega
      · show s.depth - 1 = d.depth
        omega
    popE := fun _ _ => trivial
    popSeen := fun _ _ => trivial
    store := fun _ _ h _ _ => h
    stored := fun _ _ _ => trivial
    IIe := fun _ => trivial
    depthEq := fun h => h.elim }

theorem flatten_depth {w : World} {cfg : PCfg} {v : Val} (hc : ¬ Catches w (From w v)) (hf : cfg.failSafe = none) {n : Nat}
    {s s1 : PState} {j : Json} (h : flatten w cfg n v s = some (.ok j, s1)) :
    s1.depth = s.depth :=
  ((depthInv w cfg (.ofRoot w v) hc hf).flatten_ok (d := ⟨s.depth, []⟩) Scope.ofRoot_root trivial rfl h).2

/-- how deep a document can be when the counter is at `d` and the limit is `M` -/
def Deep (p : Nat) (M : Int) (extra : Nat) (d : Idx) (j : Json) : Prop :=
  d.depth + 1 ≤ M → (j.depth : Int) ≤ p * (M - d.depth - 1) + 2 + extra

theorem Deep.small {p M e d j} (h : j.depth ≤ 2) : Deep p M e d j := by
  intro h'
  have : 0 ≤ (p : Int) * (M - d.depth - 1) := Int.mul_nonneg (by omega) (by omega)
  omega

theorem Deep.arr {p M e d js} (h : ∀ j ∈ js, Deep p M e d j) : Deep p M (e + 1) d (.arr js) := by
  intro hd
  have : 0 ≤ (p : Int) * (M - d.depth - 1) := Int.mul_nonneg (by omega) (by omega)
  have hk : Json.depthL js ≤ (p * (M - d.depth - 1) + 2 + e).toNat :=
    Json.depthL_le.mpr (fun j hj => by have := h j hj hd; omega)
  simp only [Json.depth]
  omega

theorem Deep.obj {p M e d} {kvs : List (Str × Json)} (h : ∀ kv ∈ kvs, Deep p M e d kv.2) :
    Deep p M (e + 1) d (.obj kvs) := by
  intro hd
  have : 0 ≤ (p : Int) * (M - d.depth - 1) := Int.mul_nonneg (by omega) (by omega)
  have hk : Json.depthKv kvs ≤ (p * (M - d.depth - 1) + 2 + e).toNat :=
    Json.depthKv_le.mpr (fun j hj => by have := h j hj hd; omega)
  simp only [Json.depth]
  omega

theorem Deep.mono {p M e e' d j} (h : Deep p M e d j) (he : e ≤ e') : Deep p M e' d j := by
  intro hd
  have := h hd
  omega

/-- how many levels of the document one level of the graph can take: `{"py/reduce": […]}`, or `{"__reduce__": […, […]]}` for dates -/
structure PerLevel (w : World) (p : Nat) : Prop where
  two : 2 ≤ p
  date : ∀ c, w.handler c = some .datetime → 3 ≤ p

def boundInv (w : World) (cfg : PCfg) (scope : Scope w) {p : Nat} (hp : PerLevel w p) (M : Int) (hM : cfg.maxDepth = some M)
    (hr : cfg.unpicklable = true ∧ cfg.makeRefs = true)
    (hc : ¬ Catches w scope.On) (hf : cfg.failSafe = none) (he : ¬ HasEnum w scope.On) : Inv w cfg :=
  { depthInv w cfg scope hc hf with
    tracksDepth := True
    JC := Deep p M 0
    JD := Deep p M 1
    JB := Deep p M p
    ref := fun _ _ _ => by
      exact ⟨.small (by simp [Json.depth, Json.depthKv]), .small (by simp [Json.depth, Json.depthKv])⟩
    store := fun h => (h hr).elim
    stored := fun h => (h hr).elim
    jBC := fun {d v j} h1 h2 h3 => by
      rcases h2 trivial with h2 | h2
      · rw [hM] at h2
        have h4 : d.depth + 1 ≠ M := fun e => h2 (by rw [e])
        have := h1 (by simp only [Idx.child]; omega)
        simp only [Idx.child] at this
        have e : (p : Int) * (M - (d.depth + 1) - 1) = p * (M - d.depth - 1) - p := by
          rw [show M - (d.depth + 1) - 1 = (M - d.depth - 1) - 1 by omega, Int.mul_sub, Int.mul_one]
        omega
      · exact (he h2).elim
    depthEq := fun _ _ _ h => h
    jSafe := fun h => by rw [hf] at h; cases h
    jB64 := .small (by simp [Json.depth, Json.depthKv])
    jB85 := .small (by simp [Json.depth, Json.depthKv])
    jBa64 := .small (by simp [Json.depth, Json.depthKv])
    jBa85 := .small (by simp [Json.depth, Json.depthKv])
    jNull := .small (by simp [Json.depth])
    jBool := .small (by simp [Json.depth])
    jInt := .small (by simp [Json.depth])
    jFloat := fun _ => .small (by simp [Json.depth])
    jStr := fun _ => .small (by simp [Json.depth])
    jCD := fun h => h.mono (by decide)
    jCB := fun h => h.mono (Nat.zero_le _)
    jArrD := fun h => .arr h
    jArrB := fun h => (Deep.arr h).mono (by have := hp.two; omega)
    jObjD := fun _ h => .obj (fun kv hkv => (h kv hkv).2)
    jObjB := fun _ h => (Deep.obj (fun kv hkv => (h kv hkv).2)).mono hp.two
    jDate := fun {d c kvs q c' js} hh _ _ hk hc hj => (Deep.obj (e := 2) (fun kv hkv => (Logic.mem_dset hkv).elim
      (fun e => by
        subst e
        refine Deep.arr (e := 1) (fun x hx => ?_)
        simp only [List.mem_cons, List.not_mem_nil, or_false] at hx
        rcases hx with rfl | rfl
        · exact hc.mono (by omega)
        · refine Deep.arr (e := 0) (fun y hy => ?_)
          rcases List.mem_cons.1 hy with rfl | hy
          · exact .small (by simp [Json.depth])
          · exact hj y hy) (fun h => (hk kv h).2.mono (by omega)))).mono (hp.date _ hh)
    kEsc := fun _ => trivial }

theorem flatten_bound {w : World} {cfg : PCfg} {p : Nat} (hp : PerLevel w p) {M : Int} (hM : cfg.maxDepth = some M)
    (hr : cfg.unpicklable = true ∧ cfg.makeRefs = true)
    {v : Val} (hc : ¬ Catches w (From w v)) (hf : cfg.failSafe = none) (he : ¬ HasEnum w (From w v))
    {n : Nat} {s s1 : PState} {j : Json} (hs : s.depth + 1 ≤ M)
    (h : flatten w cfg n v s = some (.ok j, s1)) :
    (j.depth : Int) ≤ p * (M - s.depth - 1) + 2 := by
  have := ((boundInv w cfg (.ofRoot w v) hp M hM hr hc hf he).flatten_ok (d := ⟨s.depth, []⟩) Scope.ofRoot_root trivial rfl h).1 hs
  simpa using this

/-- Every identity on record belongs to an object held in `_seen`, except cached `bytes`/`bytearray`/... -/
structure Pinned (w : World) (seen0 : List Val) (s : PState) : Prop where
  objs : ∀ i ∈ s.objs, ∃ v ∈ s.seen, Own w v i
  cache : ∀ p ∈ s.flattened, (∃ v ∈ s.seen, Own w v p.1) ∨ ∃ n, p.1 = .inl n
  grows : seen0 <+: s.seen

def pinInv (w : World) (cfg : PCfg) (seen0 : List Val) : Inv w cfg :=
  { trivialInv w cfg (.all w) false with
    ref := fun _ _ _ => ⟨trivial, trivial⟩
    I := fun d s => d.depth ≤ s.depth ∧ (∀ v ∈ d.stack, v ∈ s.seen) ∧ Pinned w seen0 s
    Ie := fun d s => d.depth ≤ s.depth ∧ (∀ v ∈ d.stack, v ∈ s.seen) ∧ Pinned w seen0 s
    wf := fun d => 0 ≤ d.depth
    wfChild := fun _ h => by simp only [Idx.child]; omega
    IIe := id
    catches := fun _ _ _ => id
    failSafe := fun _ _ _ => id
    log := by
      rintro d s i _ ⟨h1, h2, h3⟩ ⟨v, c, hs, ho⟩ _
      refine ⟨h1, h2, ?_, h3.cache, h3.grows⟩
      intro j hj
      rcases List.mem_append.mp hj with hj | hj
      · exact h3.objs j hj
      · rw [List.mem_singleton] at hj
        subst hj
        exact ⟨v, h2 v (by rw [hs]; simp), ho⟩
    push := by
      rintro d s v hw ⟨h1, h2, h3⟩
      refine ⟨by simp only [Idx.child]; omega, ?_, ?_, ?_, ?_⟩
      · intro u hu
        rcases List.mem_cons.mp hu with rfl | hu
        · simp
        · simp [h2 u hu]
      · intro i hi
        obtain ⟨u, hu, ho⟩ := h3.objs i hi
        exact ⟨u, by simp [hu], ho⟩
      · intro p hp
        rcases h3.cache p hp with ⟨u, hu, ho⟩ | h
        · exact .inl ⟨u, by simp [hu], ho⟩
        · exact .inr h
      · exact h3.grows.trans (List.prefix_append _ _)
    pop := by
      rintro d v s hw ⟨h1, h2, h3⟩
      simp only [Idx.child] at h1 h2
      split
      · next hd =>
        have : s.depth - 1 = (-1 : Int) := by simpa using hd
        omega
      · exact ⟨by show d.depth ≤ s.depth - 1; omega, fun u hu => h2 u (by simp [hu]), h3.objs, h3.cache, h3.grows⟩
    popE := by
      rintro d v s hw ⟨h1, h2, h3⟩
      simp only [Idx.child] at h1 h2
      exact ⟨by omega, fun u hu => h2 u (by simp [hu]), h3⟩
    InSeen := fun _ s v => v ∈ s.seen
    popSeen := by
      rintro d v s hw ⟨h1, h2, h3⟩
      simp only [Idx.child] at h1 h2
      split
      · next hd =>
        have : s.depth - 1 = (-1 : Int) := by simpa using hd
        omega
      · exact h2 v (by simp)
    store := by
      rintro d s id j _ _ ⟨h1, h2, h3⟩ _ ho
      refine ⟨h1, h2, h3.objs, ?_, h3.grows⟩
      intro p hp
      rcases List.mem_cons.mp hp with rfl | hp
      · rcases ho with ⟨v, ho, hv⟩ | h
        · exact .inl ⟨v, hv, ho⟩
        · exact .inr h
      · exact h3.cache p hp
    stored := fun _ _ _ => trivial
    depthEq := fun h => h.elim }

theorem flatten_pinned {w : World} {cfg : PCfg} {n : Nat} {v : Val} {s s1 : PState} {r}
    (hd : 0 ≤ s.depth) {seen0} (hs : Pinned w seen0 s) (h : flatten w cfg n v s = some (r, s1)) :
    Pinned w seen0 s1 := by
  obtain ⟨_, h2, h3⟩ := (pinInv w cfg seen0).flatten n 0 ⟨s.depth, []⟩ v trivial hd s s .rfl
    ⟨Int.le_refl _, (fun v hv => by cases hv), hs⟩ r s1 h
  cases r with
  | ok j => exact (h2 j rfl).2.2.2
  | error e => exact (h3 e rfl).2.2

end JP.Pickler
