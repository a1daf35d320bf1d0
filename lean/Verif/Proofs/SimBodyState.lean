import Verif.Proofs.SimBodySeq
/-!
# Bodies of objects with `__getstate__` and without `__setstate__`
-/
namespace JP.Sim
open JP PyM Unpickler

variable {w : World} {cfg : PCfg} {env : UEnv}
variable {Bad : Ctx}
variable {fl : Val → P Json} {rs rs2 rs3 : Json → U Val}
variable {a : Addr} {i i0 : Inst} {b : Nat}
variable {s2 s3 : PState} {u3 : UState} {data : List (Str × Json)}

theorem Rel.unserve {P : List Ident} {u : UState} (r : Rel w.heap (Bad.serve a) P u) : Rel w.heap Bad P u :=
  ⟨r.len, r.nodup, r.addr, r.mod, r.lt, r.inj, r.idxAddr, r.idxMod, r.bad, fun x hx => r.serve x (List.mem_cons_of_mem _ hx), r.own, r.filled⟩

theorem Rel.serving {P : List Ident} {u : UState} (r : Rel w.heap Bad P u) (ha : .addr a ∈ P) : Rel w.heap (Bad.serve a) P u :=
  ⟨r.len, r.nodup, r.addr, r.mod, r.lt, r.inj, r.idxAddr, r.idxMod, r.bad, fun x hx => by
    rcases List.mem_cons.1 hx with e | e
    · subst e; exact ha
    · exact r.serve x e, r.own, r.filled⟩

theorem Step.unserve {X : List Addr} {s s' : PState} {u u' : UState} (h : Step w cfg X (Bad.serve a) s s' u u') : Step w cfg X Bad s s' u u' :=
  ⟨h.depth, h.objs, Rel.unserve h.rel, h.ext, h.done, h.own⟩

/-- the entries of a dict are stored as attributes -/
theorem storeVals {P : List Ident} (hbase : i0.info.base ≠ .dict) (hdc : i0.dictCell = none) :
    ∀ {kvs kvs' acc : List (Str × Val)} {u : UState}, Rel w.heap Bad P u → FieldsIso (Rof Bad P u.objs) kvs kvs' →
      u.heap[b]? = some (.inst { i0 with attrs := acc }) → (∀ kv ∈ kvs, startsWith kv.1 p!"__" = false ∧ attrOk i0 kv.1 = true) →
      (kvs.map (·.1)).Nodup → (∀ k ∈ kvs.map (·.1), k ∉ acc.map (·.1)) →
      ∃ us, mapM (fun kv : Val × Val => storeEntry b kv.1 kv.2) (kvs'.map (fun kv => (.str kv.1, kv.2))) u =
        some (.ok us, { u with heap := u.heap.set b (.inst { i0 with attrs := acc ++ kvs' }) })
  | [], [], acc, u, r, _, hb, _, _, _ => by
    refine ⟨[], ?_⟩
    rw [List.append_nil]
    have : u.heap.set b (.inst { i0 with attrs := acc }) = u.heap := by
      obtain ⟨hlt, e⟩ := List.getElem?_eq_some_iff.1 hb
      rw [← e]
      exact List.set_getElem_self hlt
    rw [this]
    rfl
  | (k, v) :: kvs, (k', x) :: kvs', acc, u, r, hiso, hb, hok, hnd, hfr => by
    obtain ⟨⟨e1, e2⟩, e3⟩ := hiso
    simp only [] at e1 e2
    subst e1
    have h0 := hok _ List.mem_cons_self
    have hk : k ∉ acc.map (·.1) := hfr k (by simp)
    have h1 := storeEntry_attr (i := { i0 with attrs := acc }) r hb hbase hdc h0.1 h0.2 hk e2
    simp only [] at h1
    have hr1 : Rel w.heap Bad P { u with heap := u.heap.set b (.inst { i0 with attrs := acc ++ [(k, x)] }) } :=
      r.set hb (fun o ho => by cases o <;> simp_all [SameKind]) (Writable.inst r hb)
    simp only [List.map_cons, List.nodup_cons] at hnd
    obtain ⟨us, hus⟩ := storeVals hbase hdc (acc := acc ++ [(k, x)]) hr1 e3 (set_get (get_lt hb)) (fun e he => hok e (List.mem_cons_of_mem _ he)) hnd.2 (by
      intro k2 hk2 hm
      simp only [List.map_append, List.map_cons, List.map_nil, List.mem_append, List.mem_singleton] at hm
      rcases hm with hm | hm
      · exact hfr k2 (by simp only [List.map_cons]; exact List.mem_cons_of_mem _ hk2) hm
      · subst hm; exact hnd.1 hk2)
    refine ⟨() :: us, ?_⟩
    rw [List.map_cons, mapM_cons, bind_ok h1, bind_ok hus]
    simp only [List.set_set, List.append_assoc, List.singleton_append]
    rfl
  | [], _ :: _, _, _, _, h, _, _, _, _ => h.elim
  | _ :: _, [], _, _, _, h, _, _, _, _ => h.elim

theorem body_stateDict (hm : Matching w cfg env) (h : Sim w cfg env fl rs2) (o : Open w env Bad a i i0 b s2 u3)
    (hstate : Tags.STATE ∉ data.map (·.1)) {d : Addr} {kvs : List (Str × Val)} (hbase : i.info.base = .plain) (hdict : i.info.hasDict = true)
    (ho : i.info.ownGetstate = true) (hst : i.state = .ok (.ref d)) (hss : i.info.hasSetstate = false)
    (hd : w.heap[d]? = some (.dict (kvs.map (fun kv => (.str kv.1, kv.2))))) (hne : kvs ≠ []) (hok : AttrsOk w.heap env kvs) {r s3}
    (hrun : Pickler.flattenGetstate w cfg fl a i data s2 = some (r, s3)) :
    BodyGoal w cfg env rs2 Bad i b s2 s3 u3 data r := by
  have hi := o.init
  have htr : truthy w.heap (.ref d) = true := by
    simp only [truthy, hd]
    cases kvs <;> simp_all
  have hsv : savedState w.heap i = some (.ref d) := by simp [savedState, ho, hst, htr]
  have hso : StateOf w.heap env a d := ⟨i, o.ha, o.ok.noHandler, o.ok.noReduce, hss, hsv⟩
  have hnop : d ∉ Bad.opn := fun hx => o.fresh (o.fit.2.opn d hx a hso)
  have hb0 : i0.info.base ≠ .dict := by rw [hi.info, hbase]; simp
  rw [getstate_ok ho hst o.ok.tidy.exclude, htr, if_pos rfl, bind_run] at hrun
  cases hfl : fl (.ref d) s2 with
  | none => rw [hfl] at hrun; cases hrun
  | some p =>
    obtain ⟨r1, s1⟩ := p
    have hfit : Fit w env (Bad.serve a) (.ref d) := o.fit.state o.ha (by
      simp only [Inst.parts, List.mem_append, hst]
      exact Or.inl (Or.inl (Or.inl (Or.inl (Or.inl (Or.inr (by simp)))))))
    have ha : .addr a ∈ s2.objs := by
      obtain ⟨k, e, _⟩ := o.at_
      exact List.mem_of_getElem? e
    obtain ⟨j, x, u4, e1, e2, hstep, hiso⟩ := h (Bad.serve a) (.ref d) s2 u3 o.depth hfit.1 hfit.2 (Rel.serving o.rel ha) r1 s1 hfl
    replace hstep := Step.unserve hstep
    replace hiso : VIso (Rof Bad s1.objs u4.objs) (.ref d) x := hiso
    subst e1
    rw [hfl] at hrun
    simp only [pure_run, Pickler.putState, hm.unpicklable, if_true, dset_of_not_mem _ _ _ hstate] at hrun
    cases hrun
    obtain ⟨b', kvs', rfl, hb', hfi⟩ := hstep.rel.fields hiso hnop hd
    have hdf : Tags.DEFAULT_FACTORY ∉ [(Tags.STATE, j)].map (·.1) := by simp only [List.map_cons, List.map_nil]; decide
    have hdf2 : p!"default_factory" ∉ [(Tags.STATE, j)].map (·.1) := by simp only [List.map_cons, List.map_nil]; decide
    have hb : u4.heap[b]? = some (.inst i0) := by rw [hstep.ext.cells b o.lt (by simp), o.cell]
    have hbn : u4.heap[b]? = some (.inst { i0 with attrs := [] }) := by rw [hb, ← hi.attrs]
    obtain ⟨us, hus⟩ := storeVals (b := b) hb0 hi.dictCell hstep.rel hfi hbn (fun kv hkv => ⟨(hok.1 kv hkv).2.2.1, o.attrOk_dict hdict _⟩) hok.2 (by simp)
    rw [List.nil_append] at hus
    have hstep2 : Step w cfg [b] Bad s3 s3 u4 { u4 with heap := u4.heap.set b (.inst { i0 with attrs := kvs' }) } :=
      Step.set hstep.rel hb (fun o ho => by cases o <;> simp_all [SameKind]) (by simp) (Writable.inst hstep.rel hb)
    have hcell2 : ({ u4 with heap := u4.heap.set b (.inst { i0 with attrs := kvs' }) } : UState).heap[b]? = some (.inst { i0 with attrs := kvs' }) :=
      set_get (get_lt hb)
    have hfac : i.factory = none := o.nofac (by rw [hbase]; simp)
    refine ⟨_, rfl, ⟨?_, Or.inl ⟨hfac, hdf, hdf2⟩⟩, _, { i0 with attrs := kvs' }, ?_, (hstep.weaken (by simp)).trans hstep2 (by
      intro b' hb'
      simp only [List.mem_singleton] at hb'
      subst hb'
      exact o.lt), hcell2, ?_, ?_, ?_⟩
    · intro k hk
      simp only [List.map_cons, List.map_nil, List.mem_singleton] at hk
      exact Or.inr (Or.inr (Or.inl hk))
    · rw [stripF_none hdf hdf2]
      have hent : mapM (entryOf env rs2 b) [(Tags.STATE, j)] u3 = some (.ok [()], u3) := by
        rw [mapM_cons, entryOf_reserved (by change Tags.isReserved Tags.STATE = true; decide)]
        rfl
      rw [variables_run hent]
      unfold restoreSeqTag
      have d1 : dget Tags.SEQ [(Tags.STATE, j)] = none := by
        rw [dget_cons, if_neg (by decide)]; rfl
      have d2 : dget Tags.STATE [(Tags.STATE, j)] = some j := by
        rw [dget_cons, if_pos rfl]
      rw [d1, d2]
      simp only []
      rw [bind_ok (pure_run _ _)]
      unfold restoreState
      rw [bind_ok e2, bind_ok (get_run _)]
      have hinf : (infoOf u4.heap b).hasSetstate = false := by simp only [infoOf, hb, hi.info, hss]
      rw [if_neg (by rw [hinf]; simp)]
      have hde : dictEntries u4.heap (.ref b') = some (kvs'.map (fun kv => (.str kv.1, kv.2))) := by simp only [dictEntries, hb']
      rw [hde]
      simp only []
      have hrv : restoreFromVals b (kvs'.map (fun kv => (.str kv.1, kv.2))) u4 = some (.ok (), { u4 with heap := u4.heap.set b (.inst { i0 with attrs := kvs' }) }) := by
        unfold restoreFromVals
        rw [bind_ok hus]
        rfl
      rw [bind_ok hrv]
      rfl
    · intro d hd
      simp only [] at hd
      rw [hi.dictCell] at hd
      cases hd
    · have hc := SameCtor.mono hstep.mono o.ctor
      exact .stateAttrs o.hd o.ok.noReduce hi.cls hss hsv hd hi.state hfi hi.dictCell hi.items hi.elems (by rw [← hfac]; exact hi.factory)
        ⟨hc.noInit, hc.noReduce, hc.newargs, hc.newargsEx, hc.initargs⟩
    · refine fixFactory_none hcell2 ?_ ?_
      · simp only []
        rw [hi.factory, hfac]
      · have hl : kvs'.map (·.1) = kvs.map (·.1) := Paired.labels hfi
        simp only []
        rw [hl]
        intro hm
        exact (names_not_tags (keys := env.keys) hok _ hm).2 rfl

end JP.Sim
