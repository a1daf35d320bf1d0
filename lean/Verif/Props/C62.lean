import Verif.Proofs.UTargets
import Verif.Proofs.UTargetsMono
import Verif.Proofs.SimTop
import Verif.Proofs.RoundTrip
import Verif.Proofs.Run
import Verif.SampleCovered
/-!
# C62 — decoding objects that refuse assignment
-/
namespace JP.C62
open JP PyM Unpickler Sample

/-! ### frozen dataclasses -/

section
variable {tg : Targets} {env : UEnv}

/-- an object waits to be put into an attribute of a frozen instance -/
def Waiting (tg : Targets) (h : Heap) (e : Addr × Slot × Addr) : Prop :=
  (∃ k, e.2.1 = .attr (.str k)) ∧ ∃ i, h[(e.1 : Nat)]? = some (.inst i) ∧ tg.frozen i.cls = true

theorem swapOne_other {e : Addr × Slot × Addr} {s : UState} (h : ¬ Waiting tg s.heap e) :
    WithTargets.swapOne tg e s = Unpickler.swapOne e s := by
  unfold WithTargets.swapOne
  split
  · rename_i k hk
    split
    · rename_i hf
      refine absurd ⟨⟨_, hk⟩, ?_⟩ h
      unfold WithTargets.isFrozen at hf
      split at hf
      · exact ⟨_, by assumption, hf⟩
      · cases hf
    · rfl
  · rfl

theorem swapOne_waiting {e : Addr × Slot × Addr} {s : UState} (h : Waiting tg s.heap e) :
    WithTargets.swapOne tg e s = some (.error .attributeError, s) := by
  obtain ⟨⟨k, hk⟩, i, hi, hf⟩ := h
  unfold WithTargets.swapOne
  rw [hk]
  have : WithTargets.isFrozen tg s.heap e.1 = true := by unfold WithTargets.isFrozen; rw [hi]; exact hf
  simp only [this, if_true]

/-- what class a cell is an instance of -/
def clsAt (h : Heap) (a : Nat) : Option Str := match h[a]? with | some (.inst i) => some i.cls | _ => none

theorem clsAt_set {h : Heap} {a : Nat} {o o' : Obj} (ho : h[a]? = some o)
    (e : (match o with | .inst i => some i.cls | _ => none) = (match o' with | .inst i => some i.cls | _ => none)) (b : Nat) :
    clsAt (h.set a o') b = clsAt h b := by
  unfold clsAt
  by_cases hb : a = b
  · subst hb
    rw [List.getElem?_set_self (List.getElem?_eq_some_iff.1 ho).1, ho]
    cases o <;> cases o' <;> first | rfl | exact e.symm
  · rw [List.getElem?_set_ne hb]

theorem setattr_cls {a : Addr} {k : Str} {v : Val} {s s' : UState} {r} (h : setattr a k v s = some (r, s')) (b : Nat) :
    clsAt s'.heap b = clsAt s.heap b := by
  unfold setattr at h
  split at h
  · rename_i i hi
    split at h
    · split at h
      · cases h; exact clsAt_set hi rfl b
      · split at h
        · rename_i hd; cases h; exact clsAt_set hd rfl b
        · cases h; rfl
    · cases h; rfl
  · cases h; rfl

theorem swapOne_cls {e : Addr × Slot × Addr} {s s' : UState} {r} (h : Unpickler.swapOne e s = some (r, s')) (b : Nat) :
    clsAt s'.heap b = clsAt s.heap b := by
  unfold Unpickler.swapOne at h
  dsimp only at h
  split at h
  · rename_i hd; cases h; exact clsAt_set hd rfl b
  · rename_i hd; cases h; exact clsAt_set hd rfl b
  · exact setattr_cls h b
  · cases h; rfl
  · cases h; rfl

theorem waiting_iff {e : Addr × Slot × Addr} {h : Heap} : Waiting tg h e ↔ (∃ k, e.2.1 = .attr (.str k)) ∧ ∃ c, clsAt h e.1 = some c ∧ tg.frozen c = true := by
  unfold Waiting clsAt
  refine and_congr Iff.rfl ⟨fun ⟨i, hi, hf⟩ => ⟨i.cls, by rw [hi], hf⟩, fun ⟨c, hc, hf⟩ => ?_⟩
  split at hc
  · injection hc with hc; subst hc; exact ⟨_, by assumption, hf⟩
  · cases hc

theorem waiting_congr {e : Addr × Slot × Addr} {h h' : Heap} (hh : ∀ b, clsAt h' b = clsAt h b) : Waiting tg h' e ↔ Waiting tg h e := by
  rw [waiting_iff, waiting_iff, hh]

theorem swaps (ps : List (Addr × Slot × Addr)) : ∀ s : UState,
    ((∀ e ∈ ps, ¬ Waiting tg s.heap e) → PyM.mapM (WithTargets.swapOne tg) ps s = PyM.mapM Unpickler.swapOne ps s) ∧
    ((∃ e ∈ ps, Waiting tg s.heap e) → ∀ r s', PyM.mapM Unpickler.swapOne ps s = some (.ok r, s') →
      ∃ s'', PyM.mapM (WithTargets.swapOne tg) ps s = some (.error .attributeError, s'')) ∧
    (PyM.mapM (WithTargets.swapOne tg) ps s = PyM.mapM Unpickler.swapOne ps s ∨
      ∃ s'', PyM.mapM (WithTargets.swapOne tg) ps s = some (.error .attributeError, s'')) := by
  induction ps with
  | nil => exact fun s => ⟨fun _ => rfl, fun ⟨e, he, _⟩ => (by cases he), .inl rfl⟩
  | cons e ps ih =>
    intro s
    rw [mapM_cons, mapM_cons]
    simp only [bind_run]
    by_cases hw : Waiting tg s.heap e
    · rw [swapOne_waiting hw]
      exact ⟨fun h => absurd hw (h e List.mem_cons_self), fun _ _ _ _ => ⟨_, rfl⟩, .inr ⟨_, rfl⟩⟩
    · rw [swapOne_other hw]
      cases hx : Unpickler.swapOne e s with
      | none => exact ⟨fun _ => rfl, fun _ _ _ h => (by cases h), .inl rfl⟩
      | some q =>
        obtain ⟨q, s1⟩ := q
        cases q with
        | error x => exact ⟨fun _ => rfl, fun _ _ _ h => (by cases h), .inl rfl⟩
        | ok a =>
          have hc := swapOne_cls hx
          obtain ⟨h1, h2, h3⟩ := ih s1
          dsimp only
          refine ⟨fun h => ?_, fun h r s' hr => ?_, ?_⟩
          · rw [h1 (fun e' he' => fun hw' => h e' (List.mem_cons_of_mem _ he') ((waiting_congr hc).1 hw'))]
          · obtain ⟨e', he', hw'⟩ := h
            have he' : e' ∈ ps := by
              cases he' with
              | head => exact absurd hw' hw
              | tail _ h => exact h
            cases hy : PyM.mapM Unpickler.swapOne ps s1 with
            | none => rw [hy] at hr; cases hr
            | some q =>
              obtain ⟨q, s2⟩ := q
              cases q with
              | error x => rw [hy] at hr; cases hr
              | ok b =>
                obtain ⟨s'', h4⟩ := h2 ⟨e', he', (waiting_congr hc).2 hw'⟩ b s2 hy
                rw [h4]
                exact ⟨_, rfl⟩
          · rcases h3 with h3 | ⟨s'', h3⟩
            · rw [h3]; exact .inl rfl
            · rw [h3]; exact .inr ⟨_, rfl⟩

/-- Either the classes being frozen makes no difference, or `decode` raises `FrozenInstanceError`, which is an `AttributeError`. -/
theorem frozen_same_or_raises (h : ∀ c, tg.immutable c = false) (m : Nat) (text : Str) (reset own : Bool) (u : UState) :
    Api.decodeInto tg env m text reset own u = Api.decode env m text reset own u ∨
    ∃ u', Api.decodeInto tg env m text reset own u = some (.error .attributeError, u') := by
  unfold Api.decodeInto Api.decode
  cases env.loads text with
  | none => exact .inl rfl
  | some j =>
    dsimp only
    unfold WithTargets.restoreTop Unpickler.restoreTop
    rw [WithTargets.restore_off h]
    cases reset with
    | false => exact .inl rfl
    | true =>
      simp only [if_true]
      simp only [bind_run, show Unpickler.reset u = some (.ok (), { u with objs := [], idx := [], proxies := [] }) from rfl]
      cases Unpickler.restore env m j { u with objs := [], idx := [], proxies := [] } with
      | none => exact .inl rfl
      | some q =>
        obtain ⟨q, u1⟩ := q
        cases q with
        | error e => exact .inl rfl
        | ok x =>
          unfold WithTargets.swapProxies Unpickler.swapProxies
          simp only [bind_run, get_run]
          rcases (swaps (tg := tg) u1.proxies u1).2.2 with h1 | ⟨u2, h1⟩
          · rw [h1]; exact .inl rfl
          · rw [h1]; exact .inr ⟨u2, rfl⟩

/-- Which it is.  When the document has been read, a list of places is left into which objects are put that were not complete before.  If one of them is an
attribute of a frozen instance, `decode` raises; else not. -/
theorem frozen_raises_iff (h : ∀ c, tg.immutable c = false) {m : Nat} {text : Str} {j : Json} (hl : env.loads text = some j) {own : Bool}
    {u u1 u' : UState} {x y : Val} (hr : restore env m j { u with objs := [], idx := [], proxies := [] } = some (.ok x, u1))
    (hd : Api.decode env m text true own u = some (.ok y, u')) :
    ((∃ e ∈ u1.proxies, Waiting tg u1.heap e) → ∃ u'', Api.decodeInto tg env m text true own u = some (.error .attributeError, u'')) ∧
    ((∀ e ∈ u1.proxies, ¬ Waiting tg u1.heap e) → Api.decodeInto tg env m text true own u = some (.ok y, u')) := by
  rw [← hd]
  unfold Api.decodeInto Api.decode at *
  rw [hl] at hd ⊢
  dsimp only at hd ⊢
  unfold WithTargets.restoreTop Unpickler.restoreTop at *
  rw [WithTargets.restore_off h]
  simp only [if_true] at hd ⊢
  unfold WithTargets.swapProxies Unpickler.swapProxies at *
  simp only [bind_run, show Unpickler.reset u = some (.ok (), { u with objs := [], idx := [], proxies := [] }) from rfl, hr, get_run] at hd ⊢
  obtain ⟨h1, h2, _⟩ := swaps (tg := tg) u1.proxies u1
  refine ⟨fun hw => ?_, fun hw => ?_⟩
  · cases hy : PyM.mapM Unpickler.swapOne u1.proxies u1 with
    | none => rw [hy] at hd; cases hd
    | some q =>
      obtain ⟨q, u2⟩ := q
      cases q with
      | error e => rw [hy] at hd; cases hd
      | ok r =>
        obtain ⟨s'', h3⟩ := h2 hw r u2 hy
        rw [h3]
        exact ⟨_, rfl⟩
  · rw [h1 hw]

/-- The result of decoding with enough fuel, `FrozenInstanceError` included. -/
def DecodesInto (tg : Targets) (env : UEnv) (text : Str) (u : UState) (r : Except Exc Val) (u' : UState) : Prop :=
  ∃ n, ∀ m, n ≤ m → Api.decodeInto tg env m text true true u = some (r, u')

/-- For the values of the round-trip theorems the classes may be frozen: nothing changes. -/
theorem frozen_roundtrip (h : ∀ c, tg.immutable c = false) {w : World} {cfg : PCfg} {v x : Val} {text : Str} {u u' : UState}
    (hc : Covered w cfg env v) (he : Encodes w cfg v text) (hd : Decodes env text u x u') : DecodesInto tg env text u (.ok x) u' := by
  obtain ⟨n, r, s', hrun⟩ := C04.terminates_with_references w cfg ⟨hc.matching.unpicklable, hc.matching.makeRefs⟩ v
  obtain ⟨j, rfl, hdec⟩ := Sim.root_restored hc.matching hc.supported (hrun n {} (Nat.le_refl _))
  have ht : Encodes w cfg v (w.dumps j) := ⟨n, s', fun m s hnm => bind_ok (hrun m s hnm)⟩
  cases he.unique ht
  have hw : j.Writable := by
    have := hrun n {} (Nat.le_refl _)
    simp only [Pickler.flattenTop, if_true] at this
    exact Pickler.flatten_writable hc.text hc.plain hc.safe (s := {}) (by intro p hp; cases hp) this
  obtain ⟨k, hd⟩ := hd
  refine ⟨max k (2 * n), fun m hm => ?_⟩
  obtain ⟨y, u1, h1, h2, _⟩ := hdec u m (Nat.le_trans (Nat.le_max_right ..) hm)
  refine (frozen_raises_iff h (hc.matching.loads j hw) h1 (hd m (Nat.le_trans (Nat.le_max_left ..) hm))).2 ?_
  rw [h2]
  intro e he
  cases he

/-- In the sample graph all classes may be frozen. -/
example (text : Str) (x : Val) (u' : UState) (he : Encodes (program.world graph) {} (.ref 0) text) (hd : Decodes program.env text {} x u') :
    DecodesInto { frozen := fun _ => true } program.env text {} (.ok x) u' :=
  frozen_roundtrip (fun _ => rfl) (covered false) he hd

end

/-- encode, then decode with these classes: the result and its heap -/
def trip (tg : Targets) (p : Program) (h : Heap) (n : Nat) (v : Val) : Option (Except Exc Val × Heap) :=
  match Api.encode (p.world h) {} n v true {} with
  | some (.ok text, _) => match Api.decodeInto tg p.env n text true true {} with
    | some (r, u) => some (r, u.heap)
    | _ => none
  | _ => none

def prog : Program where
  infos := [(p!"m.R", { reduces := true }), (p!"m.F", {}), (p!"m.M", { base := .dict, hasDict := false })]

/-- `r` has an attribute `f`, which is a frozen dataclass with an attribute `r`. -/
def cycle : Heap := [.inst { cls := p!"m.R", info := { reduces := true }, attrs := [(p!"f", .ref 1)], reduce := .tup [.type p!"m.R", .tuple 1 [], .ref 2] },
  .inst { cls := p!"m.F", info := {}, attrs := [(p!"r", .ref 0)] },
  .dict [(.str p!"f", .ref 1)]]

/-! ### mappings without item assignment -/

section
variable {tg : Targets} {env : UEnv}

/-- `None`, a boolean, a number or a text in a document -/
inductive Plain : Json → Val → Prop
  | null : Plain .null .none
  | bool (b) : Plain (.bool b) (.bool b)
  | int (i) : Plain (.int i) (.int i)
  | float (f) : Plain (.float f) (.float f)
  | str (s) : Plain (.str s) (.str s)

/-- the entries of a document, and what they stand for -/
inductive Entries : List (Str × Json) → List (Str × Val) → Prop
  | nil : Entries [] []
  | cons {k j v kvs vs} : Plain j v → NameOk false k → k ≠ p!"__dict__" → k ≠ p!"default_factory" → k ∉ vs.map (·.1) → Entries kvs vs →
    Entries ((k, j) :: kvs) ((k, v) :: vs)

theorem Entries.names {kvs vs} (h : Entries kvs vs) : kvs.map (·.1) = vs.map (·.1) := by
  induction h with
  | nil => rfl
  | cons _ _ _ _ _ _ ih => simp [ih]

theorem Entries.absent {kvs vs} (h : Entries kvs vs) {t : Str} (ht : t ∈ Tags.all ∨ t = p!"default_factory") : dget t kvs = none := by
  induction h with
  | nil => rfl
  | cons _ hn _ hf _ _ ih =>
    rw [dget_cons, if_neg, ih]
    rintro rfl
    rcases ht with ht | ht
    · exact hn.1 ht
    · exact hf ht

/-- the mapping as it comes out of `__new__` -/
def blank (env : UEnv) (c : Str) : Inst := { cls := c, info := env.classInfo c, newargs := .tuple 0 [], newargsEx := (.tuple 0 [], .tuple 0 []) }

/-- the mapping made of the entries -/
def full (env : UEnv) (c : Str) (vs : List (Str × Val)) : Inst :=
  { cls := c, info := env.classInfo c, items := vs.map (fun kv => (.str kv.1, kv.2)) }

theorem plain_run {j : Json} {v : Val} (h : Plain j v) (n : Nat) (u : UState) : WithTargets.restore tg env (n + 1) j u = some (.ok v, u) := by
  cases h <;> rfl

/-- the class can be imported, has no handler, and is a mapping without item assignment whose constructor takes no arguments -/
structure Mapping (tg : Targets) (env : UEnv) (c : Str) : Prop where
  keys : env.keys = false
  handler : env.handler c = none
  found : env.loadclass c ≠ none
  base : (env.classInfo c).base = .dict
  new : (env.classInfo c).newAccepts 0 = true
  immutable : tg.immutable c = true

theorem entries_run {c : Str} (hc : Mapping tg env c) {n : Nat} {a : Nat} {i : Inst} (hi : i.cls = c) (hf : i.info = env.classInfo c) {kvs vs} (h : Entries kvs vs) {u : UState}
    (ha : u.heap[a]? = some (.inst i)) :
    PyM.mapM (fun (kv : Str × Json) => if Tags.isReserved kv.1 then pure none
      else do
        let k ← restoreKey env (WithTargets.restore tg env (n + 1)) kv.1
        let v ← WithTargets.restore tg env (n + 1) kv.2
        WithTargets.store tg a k v) kvs u = some (.ok (vs.map (fun kv => some (.str kv.1, kv.2))), u) := by
  induction h with
  | nil => rfl
  | @cons k j v kvs vs hp hn hd hf' _ _ ih =>
    have hres := Sim.nameOk_reserved hn
    rw [mapM_cons]
    simp only [hres, Bool.false_eq_true, if_false]
    have e1 : restoreKey env (WithTargets.restore tg env (n + 1)) k u = some (.ok (.str k), u) := by
      unfold restoreKey; rw [hc.keys]; rfl
    have e2 : WithTargets.store tg a (.str k) v u = some (.ok (some (.str k, v)), u) := by
      unfold WithTargets.store
      rw [bind_ok (get_run u)]
      have h1 : isDictSub u.heap a = true := by unfold isDictSub; rw [ha]; dsimp only; rw [hf, hc.base]; rfl
      have h2 : WithTargets.clsOf u.heap a = c := by unfold WithTargets.clsOf; rw [ha]; exact hi
      have h3 : WithTargets.isDictName (.str k) = false := by unfold WithTargets.isDictName; simpa using hd
      rw [if_pos h1, h2, hc.immutable, h3]
      rfl
    rw [bind_ok (a := some (Val.str k, v)) (s' := u), bind_ok ih]
    · rfl
    · rw [bind_ok e1, bind_ok (plain_run hp n u)]; exact e2

theorem fold_vset : ∀ {kvs vs} (_ : Entries kvs vs) (acc : List (Val × Val)), (∀ kv ∈ acc, ∀ k ∈ vs.map (·.1), pyEq kv.1 (.str k) = false) →
    (vs.map (fun kv => ((.str kv.1 : Val), kv.2))).foldl (fun d kv => vset kv.1 kv.2 d) acc = acc ++ vs.map (fun kv => ((.str kv.1 : Val), kv.2)) := by
  intro kvs vs h
  induction h with
  | nil => intro acc _; simp
  | @cons k j v kvs vs hp hn hd hf' hk _ ih =>
    intro acc ha
    simp only [List.map_cons, List.foldl_cons]
    rw [Sim.vset_new (fun kv hkv => ha kv hkv k (by simp)), ih]
    · simp
    · intro kv hkv k' hk'
      rcases List.mem_append.1 hkv with h1 | h1
      · exact ha kv h1 k' (by simp only [List.map_cons, List.mem_cons]; exact .inr hk')
      · simp only [List.mem_singleton] at h1
        subst h1
        have : k ≠ k' := by rintro rfl; exact hk hk'
        simpa [pyEq] using this


/-- the document of a mapping -/
def doc (c : Str) (kvs : List (Str × Json)) : Json := .obj ((Tags.OBJECT, .str c) :: kvs)

theorem mapping_run {c : Str} (hc : Mapping tg env c) (n : Nat) {kvs vs} (h : Entries kvs vs) (hne : vs ≠ []) {u : UState}
    (hi : idxGet (.addr u.heap.length) u.idx = none) :
    ∃ lg ix, WithTargets.restore tg env (n + 2) (doc c kvs) u = some (.ok (.ref (u.heap.length + 2)), { u with heap := u.heap ++ [.proxy (some (.ref (u.heap.length + 1))), .inst (blank env c), .inst (full env c vs)], objs := u.objs ++ [.ref (u.heap.length + 1)], idx := ix, log := lg }) := by
  have habs : ∀ t, (t ∈ Tags.all ∨ t = p!"default_factory") → t ≠ Tags.OBJECT → dget t ((Tags.OBJECT, Json.str c) :: kvs) = none := by
    intro t ht hne
    rw [dget_cons, if_neg (Ne.symm hne), h.absent ht]
  have hhas : ∀ t, (t ∈ Tags.all ∨ t = p!"default_factory") → t ≠ Tags.OBJECT → dhas t ((Tags.OBJECT, Json.str c) :: kvs) = false := by
    intro t ht hne
    unfold dhas; rw [habs t ht hne]; rfl
  have hobj : dget Tags.OBJECT ((Tags.OBJECT, Json.str c) :: kvs) = some (.str c) := by rw [dget_cons, if_pos rfl]
  have hany : ([Tags.TUPLE, Tags.SET, Tags.B64, Tags.B85, Tags.BYTEARRAY, Tags.ID, Tags.ITERATOR].any
      (fun t => dhas t ((Tags.OBJECT, Json.str c) :: kvs))) = false := by
    rw [List.any_eq_false]
    intro t ht
    have : t ∈ Tags.all ∧ t ≠ Tags.OBJECT := by revert t; decide
    rw [hhas t (.inl this.1) this.2]
    exact Bool.false_ne_true
  have hrun : WithTargets.restore tg env (n + 2) (doc c kvs) u = WithTargets.restoreObject tg env (WithTargets.restore tg env (n + 1)) ((Tags.OBJECT, Json.str c) :: kvs) u := by
    show WithTargets.restoreTags tg env (WithTargets.restore tg env (n + 1)) _ u = _
    unfold WithTargets.restoreTags
    rw [hany, if_neg Bool.false_ne_true, if_pos (by unfold dhas; rw [hobj]; rfl)]
  rw [hrun]
  obtain ⟨cv, hcv⟩ : ∃ cv, env.loadclass c = some cv := Option.ne_none_iff_exists'.1 hc.found
  unfold WithTargets.restoreObject
  have hitem : item Tags.OBJECT ((Tags.OBJECT, Json.str c) :: kvs) = .ok (.str c) := by unfold item; rw [hobj]
  rw [hitem, bind_ok (ofExcept_run _ u)]
  have hlc : loadclassJ env (.str c) u = some (.ok (some cv), { u with log := u.log ++ [.imp c] }) := by
    unfold loadclassJ
    dsimp only
    rw [hcv]
    rfl
  rw [bind_ok hlc]
  dsimp only
  rw [bind_ok (Sim.emit_run _ _)]
  rw [hc.handler]
  dsimp only
  unfold WithTargets.restoreInstance
  rw [bind_ok (Sim.alloc_run _)]
  dsimp only
  have hmk : ∀ lg, mkref (.ref u.heap.length) { u with heap := u.heap ++ [.proxy none], log := lg } =
      some (.ok (.ref u.heap.length), { u with heap := u.heap ++ [.proxy none], log := lg, objs := u.objs ++ [.ref u.heap.length], idx := u.idx ++ [(.addr u.heap.length, u.objs.length)] }) := by
    intro lg
    unfold mkref
    simp only [Val.ident, hi]
  rw [bind_ok (hmk _)]
  have hlf : ∀ s, loadFactory (WithTargets.restore tg env (n + 1)) ((Tags.OBJECT, Json.str c) :: kvs) s = some (.ok (.none, (Tags.OBJECT, Json.str c) :: kvs), s) := by
    intro s
    unfold loadFactory factoryKey
    rw [hhas _ (.inl (by decide)) (by decide), hhas _ (.inr rfl) (by decide)]
    rfl
  rw [bind_ok (hlf _)]
  dsimp only
  have hca : ∀ s, ctorArgs env ((Tags.OBJECT, Json.str c) :: kvs) s = some (.ok (.arr [], .obj []), s) := by
    intro s
    unfold ctorArgs getargs
    rw [habs _ (.inl (by decide)) (by decide), habs _ (.inl (by decide)) (by decide), habs _ (.inl (by decide)) (by decide), habs _ (.inl (by decide)) (by decide)]
    rfl
  rw [bind_ok (hca _)]
  dsimp only
  have hra : ∀ s, restoreArg (WithTargets.restore tg env (n + 1)) (.arr []) s = some (.ok (.tuple 0 []), s) := fun s => rfl
  have hrb : ∀ s, restoreArg (WithTargets.restore tg env (n + 1)) (.obj []) s = some (.ok (.tuple 0 []), s) := fun s => rfl
  rw [bind_ok (hra _), bind_ok (hrb _), bind_ok (get_run _), bind_ok (Sim.emit_run _ _)]
  have hct : ∀ h', construct h' c (env.classInfo c) .none (.tuple 0 []) (.tuple 0 []) = some (blank env c) := by
    intro h'
    simp [construct, starArgs, truthy, kwOk, hc.new, hc.base, blank]
  dsimp only
  rw [hct]
  dsimp only
  rw [bind_ok (Sim.alloc_run _), bind_ok (Sim.setCell_run _ _ _)]
  dsimp only
  have hheap : ((u.heap ++ [Obj.proxy none]) ++ [Obj.inst (blank env c)]).set u.heap.length (.proxy (some (.ref (u.heap ++ [Obj.proxy none]).length))) =
      u.heap ++ [.proxy (some (.ref (u.heap.length + 1))), .inst (blank env c)] := by
    rw [List.append_assoc, List.set_append_right _ _ (Nat.le_refl _)]
    simp
  rw [hheap]
  have hlen : (u.heap ++ [Obj.proxy none]).length = u.heap.length + 1 := by simp
  rw [hlen]
  have hsw : ∀ lg, ∃ ix, swapref u.heap.length (.ref (u.heap.length + 1)) { u with heap := u.heap ++ [.proxy (some (.ref (u.heap.length + 1))), .inst (blank env c)], log := lg, objs := u.objs ++ [.ref u.heap.length], idx := u.idx ++ [(.addr u.heap.length, u.objs.length)] } =
      some (.ok (), { u with heap := u.heap ++ [.proxy (some (.ref (u.heap.length + 1))), .inst (blank env c)], log := lg, objs := u.objs ++ [.ref (u.heap.length + 1)], idx := ix }) := by
    intro lg
    have : idxGet (.addr u.heap.length) (u.idx ++ [(.addr u.heap.length, u.objs.length)]) = some u.objs.length := by
      unfold idxGet at hi ⊢
      rw [Option.map_eq_none_iff] at hi
      rw [List.find?_append, hi]
      simp
    have hset : (u.objs ++ [Val.ref u.heap.length]).set u.objs.length (.ref (u.heap.length + 1)) = u.objs ++ [.ref (u.heap.length + 1)] := by
      rw [List.set_append_right _ _ (Nat.le_refl _)]
      simp
    unfold swapref
    dsimp only
    rw [this]
    dsimp only
    rw [hset]
    exact ⟨_, rfl⟩
  obtain ⟨ix, hsw⟩ := hsw _
  rw [bind_ok hsw]
  have hbase : ((blank env c).info.base == Base.tuple) = false := by show ((env.classInfo c).base == Base.tuple) = false; rw [hc.base]; rfl
  rw [hbase, if_neg Bool.false_ne_true]
  generalize hu1 : ({ u with heap := u.heap ++ [.proxy (some (.ref (u.heap.length + 1))), .inst (blank env c)], log := _, objs := u.objs ++ [.ref (u.heap.length + 1)], idx := ix } : UState) = u1
  have hcell : u1.heap[u.heap.length + 1]? = some (.inst (blank env c)) := by
    rw [← hu1, List.getElem?_append_right (Nat.le_succ _)]
    simp
  have hfj : WithTargets.restoreFromJson tg env (WithTargets.restore tg env (n + 1)) (u.heap.length + 1) ((Tags.OBJECT, Json.str c) :: kvs) u1 =
      some (.ok u1.heap.length, { u1 with log := u1.log ++ [.call c], heap := u1.heap ++ [.inst (full env c vs)] }) := by
    unfold WithTargets.restoreFromJson
    rw [mapM_cons]
    have e0 : ∀ x y : U (Option (Val × Val)), (if Tags.isReserved Tags.OBJECT then x else y) = x := fun _ _ => if_pos (by decide)
    dsimp only
    rw [e0]
    simp only [bind_run, pure_run, entries_run hc (i := blank env c) rfl rfl h hcell]
    have hfm : ((none : Option (Val × Val)) :: vs.map (fun kv => some (.str kv.1, kv.2))).filterMap id = vs.map (fun kv => (.str kv.1, kv.2)) := by
      simp [List.filterMap_cons, List.filterMap_map, Function.comp_def]
    rw [hfm]
    unfold WithTargets.finish
    have hemp : (vs.map (fun kv => ((.str kv.1 : Val), kv.2))).isEmpty = false := by
      cases vs with
      | nil => exact absurd rfl hne
      | cons _ _ => rfl
    rw [hemp, if_neg Bool.false_ne_true, bind_ok (get_run _)]
    have hcls : WithTargets.clsOf u1.heap (u.heap.length + 1) = c := by unfold WithTargets.clsOf; rw [hcell]; rfl
    have hinf : infoOf u1.heap (u.heap.length + 1) = env.classInfo c := by unfold infoOf; rw [hcell]; rfl
    rw [hcls, hinf, fold_vset h [] (fun kv hkv => by cases hkv), bind_ok (Sim.emit_run _ _)]
    rfl
  have hlen1 : u1.heap.length = u.heap.length + 2 := by rw [← hu1]; simp
  unfold WithTargets.restoreVariables restoreSeqTag
  rw [habs _ (.inl (by decide)) (by decide), habs _ (.inl (by decide)) (by decide)]
  simp only [bind_run, hfj, pure_run, hlen1]
  have hff : ∀ s : UState, s.heap[u.heap.length + 2]? = some (.inst (full env c vs)) → fixFactory (.ref (u.heap.length + 2)) s = some (.ok (), s) := by
    intro s hs
    unfold fixFactory
    rw [modify_run]
    dsimp only
    rw [hs]
    rfl
  rw [hff]
  · dsimp only
    rw [← hu1]
    dsimp only
    rw [List.append_assoc]
    exact ⟨_, ix, rfl⟩
  · dsimp only
    rw [List.getElem?_append_right (by rw [hlen1]; exact Nat.le_refl _), hlen1]
    simp

/-- A list that contains a mapping twice: `{"py/id": 1}` is the second occurrence.  `decode` returns a list of two mappings: the first is complete, the second is
empty.  (For such a class the items are given to the constructor of a second instance; references are to the first one.) -/
theorem mapping_twice {c : Str} (hc : Mapping tg env c) {kvs vs} (h : Entries kvs vs) (hne : vs ≠ []) {text : Str}
    (hl : env.loads text = some (.arr [doc c kvs, .obj [(Tags.ID, .int 1)]])) (u : UState) :
    ∃ (x y z : Nat) (u' : UState), DecodesInto tg env text u (.ok (.ref x)) u' ∧ u'.heap[x]? = some (.list [.ref y, .ref z]) ∧
      (∃ i, u'.heap[y]? = some (.inst i) ∧ i.cls = c ∧ i.items = vs.map (fun kv => (.str kv.1, kv.2))) ∧
      ∃ i, u'.heap[z]? = some (.inst i) ∧ i.cls = c ∧ i.items = [] := by
  have hi : idxGet (.addr (u.heap ++ [Obj.list []]).length) [(Ident.addr u.heap.length, 0)] = none := by
    simp [idxGet]
  obtain ⟨lg, ix, hrun⟩ := mapping_run hc 0 h hne (u := { u with heap := u.heap ++ [.list []], objs := [.ref u.heap.length], idx := [(.addr u.heap.length, 0)], proxies := [] }) hi
  dsimp only at hrun
  simp only [List.length_append, List.length_cons, List.length_nil, Nat.zero_add, List.append_assoc, List.singleton_append] at hrun
  generalize hu1 : ({ heap := u.heap ++ (Obj.list [] :: [Obj.proxy (some (Val.ref (u.heap.length + 1 + 1))), Obj.inst (blank env c), Obj.inst (full env c vs)]), objs := Val.ref u.heap.length :: [Val.ref (u.heap.length + 1 + 1)], idx := ix, proxies := [], nextId := u.nextId, log := lg } : UState) = u1 at hrun
  have hid : WithTargets.restore tg env 2 (.obj [(Tags.ID, .int 1)]) u1 = some (.ok (.ref (u.heap.length + 2)), u1) := by
    rw [← hu1]; rfl
  have h3 : (u1.heap.set u.heap.length (Obj.list [.ref (u.heap.length + 3), .ref (u.heap.length + 2)])) = u.heap ++ [.list [.ref (u.heap.length + 3), .ref (u.heap.length + 2)], .proxy (some (.ref (u.heap.length + 2))), .inst (blank env c), .inst (full env c vs)] := by
    rw [← hu1]
    dsimp only
    rw [List.set_append_right _ _ (Nat.le_refl _)]
    simp
  have at2 : (u.heap ++ [.list [.ref (u.heap.length + 3), .ref (u.heap.length + 2)], .proxy (some (.ref (u.heap.length + 2))), .inst (blank env c), .inst (full env c vs)])[u.heap.length + 2]? = some (.inst (blank env c)) := by
    rw [List.getElem?_append_right (by omega), Nat.add_sub_cancel_left]; rfl
  have at3 : (u.heap ++ [.list [.ref (u.heap.length + 3), .ref (u.heap.length + 2)], .proxy (some (.ref (u.heap.length + 2))), .inst (blank env c), .inst (full env c vs)])[u.heap.length + 3]? = some (.inst (full env c vs)) := by
    rw [List.getElem?_append_right (by omega), Nat.add_sub_cancel_left]; rfl
  have hlist : WithTargets.restore tg env 3 (.arr [doc c kvs, .obj [(Tags.ID, .int 1)]]) { u with objs := [], idx := [], proxies := [] } =
      some (.ok (.ref u.heap.length), { u1 with heap := u.heap ++ [.list [.ref (u.heap.length + 3), .ref (u.heap.length + 2)], .proxy (some (.ref (u.heap.length + 2))), .inst (blank env c), .inst (full env c vs)] }) := by
    show (do let a ← restoreList (WithTargets.restore tg env 2) (.ok [doc c kvs, .obj [(Tags.ID, .int 1)]]); pure (Val.ref a) : U Val) _ = _
    have hr : restoreList (WithTargets.restore tg env 2) (.ok [doc c kvs, .obj [(Tags.ID, .int 1)]]) { u with objs := [], idx := [], proxies := [] } =
        some (.ok u.heap.length, { u1 with heap := u.heap ++ [.list [.ref (u.heap.length + 3), .ref (u.heap.length + 2)], .proxy (some (.ref (u.heap.length + 2))), .inst (blank env c), .inst (full env c vs)] }) := by
      unfold restoreList
      rw [bind_ok (Sim.alloc_run _)]
      dsimp only
      rw [bind_ok (show mkref (.ref u.heap.length) _ = some (.ok (.ref u.heap.length), { u with heap := u.heap ++ [.list []], objs := [.ref u.heap.length], idx := [(.addr u.heap.length, 0)], proxies := [] }) from rfl),
        bind_ok (ofExcept_run _ _), mapM_cons, mapM_cons]
      simp only [bind_run, hrun, hid, PyM.mapM_nil, pure_run, Sim.setCell_run]
      rw [h3]
      have hn : ∀ (k : Nat) (a : Nat) (i : Inst) (s : UState), s.heap[a]? = some (.inst i) → noteProxy u.heap.length (.idx k) (.ref a) s = some (.ok (), s) := by
        intro k a i s hs
        unfold noteProxy proxyAddr
        rw [modify_run]
        dsimp only
        rw [hs]
      unfold noteList noteList noteList
      simp only [bind_run, hn 0 _ _ { u1 with heap := u.heap ++ [.list [.ref (u.heap.length + 3), .ref (u.heap.length + 2)], .proxy (some (.ref (u.heap.length + 2))), .inst (blank env c), .inst (full env c vs)] } at3, hn 1 _ _ { u1 with heap := u.heap ++ [.list [.ref (u.heap.length + 3), .ref (u.heap.length + 2)], .proxy (some (.ref (u.heap.length + 2))), .inst (blank env c), .inst (full env c vs)] } at2, pure_run]
    rw [bind_ok hr]
    rfl
  refine ⟨u.heap.length, u.heap.length + 3, u.heap.length + 2, { u1 with heap := u.heap ++ [.list [.ref (u.heap.length + 3), .ref (u.heap.length + 2)], .proxy (some (.ref (u.heap.length + 2))), .inst (blank env c), .inst (full env c vs)], objs := [], idx := [], proxies := [] },
    ⟨3, fun m hm => WithTargets.decodeInto_mono hm ?_⟩, ?_, ⟨_, at3, rfl, rfl⟩, ⟨_, at2, rfl, rfl⟩⟩
  · unfold Api.decodeInto WithTargets.restoreTop
    rw [hl]
    dsimp only
    rw [if_pos rfl]
    simp only [bind_run, show Unpickler.reset u = some (.ok (), { u with objs := [], idx := [], proxies := [] }) from rfl, hlist]
    rw [← hu1]
    rfl
  · rw [List.getElem?_append_right (Nat.le_refl _), Nat.sub_self]; rfl

end

/-! ### examples -/

/-- `decode(encode(v))` with these classes, in a new interpreter: what it returns or raises, and what the objects that were made look like -/
def TripsTo (tg : Targets) (p : Program) (h : Heap) (v : Val) (r : Except Exc Val) (vs : List View) : Prop :=
  ∃ text u, Encodes (p.world h) {} v text ∧ DecodesInto tg p.env text {} r u ∧ u.heap.map view = vs

theorem tripsTo {tg : Targets} {p : Program} {h : Heap} (n : Nat) {v : Val} {r : Except Exc Val} {vs : List View}
    (ht : (trip tg p h n v).map (fun q => (q.1, q.2.map view)) = some (r, vs)) : TripsTo tg p h v r vs := by
  unfold trip at ht
  split at ht
  · next text s1 he =>
    split at ht
    · next r' u hd =>
      cases ht
      exact ⟨text, u, encodes_of_run (n := n) (by rw [he]; rfl), ⟨n, fun m hm => WithTargets.decodeInto_mono hm hd⟩, rfl⟩
    · cases ht
  · cases ht

/-- If the class of `f` is not frozen, the graph is rebuilt. -/
theorem not_frozen_cycle : TripsTo {} prog cycle (.ref 0) (.ok (.ref 4))
    [.proxy, .dict [(.str p!"f", .ref 3)], .proxy, .inst p!"m.F" [(p!"r", .ref 4)] [] [], .inst p!"m.R" [] [] []] :=
  tripsTo 20 (by decide +kernel)

/-- If it is, `decode` raises. -/
theorem frozen_cycle : TripsTo { frozen := fun c => c == p!"m.F" } prog cycle (.ref 0) (.error .attributeError)
    [.proxy, .dict [(.str p!"f", .ref 3)], .proxy, .inst p!"m.F" [(p!"r", .ref 0)] [] [], .inst p!"m.R" [] [] []] :=
  tripsTo 20 (by decide +kernel)

/-- `[m, m]` becomes `[m, M()]`. -/
theorem immutable_twice : TripsTo { immutable := fun c => c == p!"m.M" } prog
    [.list [.ref 1, .ref 1], .inst { cls := p!"m.M", info := { base := .dict, hasDict := false }, items := [(.str p!"a", .int 1)] }]
    (.ref 0) (.ok (.ref 0))
    [.list [.ref 3, .ref 2], .proxy, .inst p!"m.M" [] [] [], .inst p!"m.M" [] [(.str p!"a", .int 1)] []] :=
  tripsTo 20 (by decide +kernel)

/-- a mapping whose only key is a list -/
def listKey : UEnv :=
  { prog.env with keys := true, loads := fun t => if t = p!"[]" then some (.arr []) else some (.obj [(p!"py/object", .str p!"m.M"), (p!"json://[]", .int 1)]) }

/-- An item whose key cannot be hashed is not lost: `decode` raises. -/
theorem unhashable_key : ∃ u, DecodesInto { immutable := fun c => c == p!"m.M" } listKey [] {} (.error .typeError) u := by
  have h : (Api.decodeInto { immutable := fun c => c == p!"m.M" } listKey 20 [] true true {}).map (·.1) = some (.error .typeError) := by decide +kernel
  cases hx : Api.decodeInto { immutable := fun c => c == p!"m.M" } listKey 20 [] true true {} with
  | none => rw [hx] at h; cases h
  | some q =>
    obtain ⟨r, u⟩ := q
    rw [hx] at h
    cases h
    exact ⟨u, 20, fun m hm => WithTargets.decodeInto_mono hm hx⟩

/-- the hypotheses of `mapping_twice` -/
example : Mapping { immutable := fun c => c == p!"m.M" } prog.env p!"m.M" :=
  ⟨rfl, rfl, by decide, rfl, rfl, rfl⟩

example : Entries [(p!"a", .int 1), (p!"b", .str p!"x")] [(p!"a", .int 1), (p!"b", .str p!"x")] :=
  .cons (.int 1) ⟨by decide, by decide⟩ (by decide) (by decide) (by decide)
    (.cons (.str _) ⟨by decide, by decide⟩ (by decide) (by decide) (by decide) .nil)

end JP.C62
