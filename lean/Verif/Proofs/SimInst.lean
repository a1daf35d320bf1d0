import Verif.Proofs.SimCtor
/-!
# The round trip of instances without handler or reduce value
-/
namespace JP.Sim
open JP PyM Unpickler

variable {w : World} {cfg : PCfg} {env : UEnv}
variable {Bad : Ctx}
variable {fl : Val → P Json} {rs rs2 rs3 : Json → U Val}
variable {a : Addr} {i i0 : Inst} {b : Nat} {s s2 : PState} {u : UState}

theorem factoryKey_append {data ents : List (Str × Json)} (hd : CtorKeys data) : factoryKey (data ++ ents) = factoryKey ents := by
  have h1 : ∀ t, t ∉ data.map (·.1) → dhas t (data ++ ents) = dhas t ents := by
    intro t ht
    unfold dhas
    rw [dget_append, (dget_eq_none_iff _ _).2 ht]
    rfl
  unfold factoryKey
  rw [h1 _ (hd.not (by decide)), h1 _ (hd.not (by decide))]

theorem ddel_append {k : Str} {data ents : List (Str × Json)} (h : k ∉ data.map (·.1)) : ddel k (data ++ ents) = data ++ ddel k ents := by
  unfold ddel
  rw [List.filter_append]
  congr 1
  rw [List.filter_eq_self]
  intro e he
  simp only [ne_eq, decide_not, Bool.not_eq_true', decide_eq_false_iff_not]
  intro hek
  exact h (by rw [← hek]; exact List.mem_map_of_mem he)

/-- the default factory is loaded first -/
theorem load_run {data ents : List (Str × Json)} (hd : CtorKeys data) (hl : LoadOk env i ents) (u : UState) :
    (∃ lg, loadFactory (restoreStep env rs3) (data ++ ents) u =
      some (.ok (i.factory.getD .none, data ++ stripF ents), { u with log := u.log ++ lg })) ∧
    (i.factory = none ∨ ∃ n, i.factory = some (.type n)) := by
  unfold loadFactory
  rw [factoryKey_append hd]
  rcases hl with ⟨h1, h2, h3⟩ | ⟨n, k, pre, post, h1, h2, h3, h4, h5, h6⟩
  · refine ⟨⟨[], ?_⟩, Or.inl h1⟩
    have : factoryKey ents = none := by
      unfold factoryKey
      rw [(dhas_eq_false_iff _ _).2 h2, (dhas_eq_false_iff _ _).2 h3]
      rfl
    rw [this, stripF_none h2 h3, h1]
    simp [pure_run]
  · refine ⟨⟨[.imp n], ?_⟩, Or.inr ⟨n, h1⟩⟩
    have hk : factoryKey ents = some k := factoryKey_split (by rw [h3]; simp) h6
    have hkd : k ∉ data.map (·.1) := by
      rcases h6 with e | ⟨e, _⟩ <;> subst e <;> exact hd.not (by decide)
    have hg : dget k (data ++ ents) = some (Pickler.mktyperef n) := by
      rw [dget_append, (dget_eq_none_iff _ _).2 hkd, h3, dget_append, (dget_eq_none_iff _ _).2 h4]
      simp only [Option.none_or, dget_cons, if_true]
    have hs : stripF ents = ddel k ents := by unfold stripF; rw [hk]
    rw [hk]
    simp only [hg, Pickler.mktyperef, ddel_append hkd, hs, h1, Option.getD_some]
    have ht : restoreStep env rs3 (.obj [(Tags.TYPE, .str n)]) u = some (.ok (.type n), { u with log := u.log ++ [.imp n] }) := by
      change (emit (.imp n) >>= fun _ => (pure (env.loadclass n) : U _) >>= fun c => match c with
        | some v => (pure v : U Val)
        | none => raw (.obj [(Tags.TYPE, .str n)])) u = _
      rw [bind_ok (emit_run _ _), h2]
      rfl
    rw [bind_ok ht]
    rfl

/-- the instance after construction -/
def built (h : Heap) (i : Inst) (l : Nat) (ys : List Val) (kw : Val) : Inst :=
  { cls := i.cls, info := i.info, newargs := .tuple l ys, newargsEx := (.tuple l ys, kw), elems := if i.info.base == .tuple then tupleElems h i.info ys else [], factory := i.factory }

theorem construct_run {h : Heap} {l : Nat} {ys : List Val} {kw : Val} (hf : i.factory = none ∨ ∃ n, i.factory = some (.type n))
    (hb : i.info.base ≠ .dict → i.factory = none) (hn : i.info.newAccepts (ys.length + i.extraArgs) = true) (hk : kwOk h kw = true) :
    construct h i.cls i.info (i.factory.getD .none) (.tuple l ys) kw = some (built h i l ys kw) := by
  unfold construct
  simp only [starArgs]
  rcases hf with hf | ⟨n, hf⟩
  · have : i.extraArgs = 0 := by simp [Inst.extraArgs, hf]
    rw [this] at hn
    simp only [Nat.add_zero] at hn
    simp [hf, truthy, hn, hk, built]
  · have : i.extraArgs = 1 := by simp [Inst.extraArgs, hf]
    rw [this] at hn
    have hbd : i.info.base = .dict := Classical.byContradiction fun hne => by rw [hb hne] at hf; cases hf
    simp [hf, truthy, hn, hk, built, hbd]

theorem built_init {h : Heap} {l : Nat} {ys : List Val} {kw : Val} (hnt : i.info.base ≠ .tuple) : Init i (built h i l ys kw) := by
  refine ⟨rfl, rfl, rfl, rfl, rfl, ?_, rfl, rfl⟩
  simp [built, hnt]

theorem inst_noHandler (hm : Matching w cfg env) (hok : InstOk w.heap env a i) : w.handler i.cls = none := by
  rw [hm.handler]; exact hok.noHandler

theorem flattenInst_body (hm : Matching w cfg env) (hok : InstOk w.heap env a i) :
    Pickler.flattenInst w cfg fl a i =
      ((Pickler.flattenNewargs fl i [(Tags.OBJECT, .str i.cls)] >>= fun d => Pickler.flattenInitargs fl i d) >>= fun d =>
        Pickler.flattenGetstate w cfg fl a i d) := by
  unfold Pickler.flattenInst
  rw [inst_noHandler hm hok]
  simp only []
  unfold Pickler.flattenReduce
  rw [hok.noReduce]
  simp only [Bool.and_false, Bool.false_eq_true, if_false]
  unfold Pickler.flattenBody
  simp only [Pickler.objTag, hm.unpicklable, if_true, bind_assoc']

/-- the part of `restoreInstance` up to the restored constructor arguments -/
theorem instance_run (hr : Rel w.heap Bad s.objs u) (hok : InstOk w.heap env a i) {data ents : List (Str × Json)}
    {ja jk : Json} (hd : CtorKeys data) (hl : LoadOk env i ents) (hrest : Rest i (stripF ents)) (hfind : CtorFind env i data ja jk)
    (hargs : CtorArgs w cfg (restoreStep env rs3) Bad a i s s2 u ja jk) (lg : List Event) :
    ∃ l ys kw u2, restoreInstance env (restoreStep env rs3) i.cls (data ++ ents) { u with log := lg } =
        (alloc (.inst (built u2.heap i l ys kw)) >>= fun b => setCell u.heap.length (.proxy (some (.ref b))) >>= fun _ =>
          swapref u.heap.length (.ref b) >>= fun _ => if i.info.base == .tuple then pure (.ref b)
          else restoreVariables env (restoreStep env rs3) b (data ++ stripF ents) >>= fun v => fixFactory v >>= fun _ => pure v) u2 ∧
      (∃ lg', Step w cfg [] (Bad.hold a) { s with objs := s.objs ++ [.addr a] } s2 (proxU u lg') u2) ∧
      SameCtor (Rof (Bad.hold a) s2.objs u2.objs) i { cls := i.cls, info := i.info, newargs := .tuple l ys, newargsEx := (.tuple l ys, kw) } ∧
      (i.info.hasNewargsEx = false → i.info.hasNewargs = true → VIso (Rof (Bad.hold a) s2.objs u2.objs) i.newargs (.tuple l ys)) := by
  obtain ⟨⟨lg1, e1⟩, hfac⟩ := load_run (rs3 := rs3) hd hl (proxU u lg)
  obtain ⟨lg2, e2⟩ := hfind (stripF ents) (proxU u (lg ++ lg1)) hrest
  obtain ⟨l, ys, kw, u1, u2, e3, e4, hstep, hacc, hkw, hsame, hiso⟩ := hargs (lg ++ lg1 ++ lg2)
  refine ⟨l, ys, kw, { u2 with log := u2.log ++ [.call i.cls] }, ?_, ⟨lg ++ lg1 ++ lg2, hstep.trans (Step.same hstep.rel rfl rfl rfl rfl rfl rfl) (by simp)⟩, hsame, hiso⟩
  unfold restoreInstance
  rw [prox_run hr lg, bind_ok e1]
  simp only []
  have e2' : ctorArgs env (data ++ stripF ents) { proxU u lg with log := (proxU u lg).log ++ lg1 } = some (.ok (ja, jk), proxU u (lg ++ lg1 ++ lg2)) := e2
  rw [bind_ok e2']
  simp only []
  rw [bind_ok e3, bind_ok e4, bind_ok (get_run _), bind_ok (emit_run _ _)]
  have hbf : i.info.base ≠ .dict → i.factory = none := hok.tidy.factory
  rw [hok.info, construct_run hfac hbf hacc hkw]
  rfl

/-- keys of the document of an instance -/
theorem shape_rest {ents : List (Str × Json)} (h : Shape env i ents) : Rest i (stripF ents) := by
  have hsub : ∀ k ∈ (stripF ents).map (·.1), k ∈ ents.map (·.1) := by
    intro k hk
    unfold stripF at hk
    split at hk
    · exact hk
    · unfold ddel at hk
      obtain ⟨e, he, rfl⟩ := List.mem_map.1 hk
      exact List.mem_map_of_mem (List.mem_filter.1 he).1
  constructor
  · intro k hk
    rcases h.1 k (hsub k hk) with e | ⟨e, _⟩ | e | e
    · refine ⟨?_, ?_, ?_, ?_⟩ <;> (intro e'; subst e'; exact e (by decide))
    · subst e; decide
    · subst e; decide
    · subst e; decide
  · intro hk
    rcases h.1 _ (hsub _ hk) with e | ⟨_, e⟩ | e | e
    · exact absurd seq_tag e
    · exact e
    · exact absurd e (by decide)
    · exact absurd e (by decide)

theorem ctorKeys_skip {data : List (Str × Json)} (h : CtorKeys data) :
    ∀ k ∈ data.map (·.1), Tags.isReserved k = true ∧ k ≠ Tags.SEQ ∧ k ≠ Tags.STATE := by
  intro k hk
  rcases h k hk with e | e | e | e <;> subst e <;> decide

theorem shape_tags {data rest ents : List (Str × Json)} {c : Str} (hd : CtorKeys data) (hdata : data = (Tags.OBJECT, .str c) :: rest)
    (h : Shape env i ents) : ∀ k ∈ (rest ++ ents).map (·.1), k = Tags.TUPLE ∨ k = Tags.SET ∨ k = Tags.B64 ∨ k = Tags.B85 ∨ k = Tags.BYTEARRAY ∨
      k = Tags.ID ∨ k = Tags.ITERATOR → False := by
  intro k hk ht
  rw [List.map_append] at hk
  rcases List.mem_append.1 hk with hk | hk
  · have := hd k (by rw [hdata, List.map_cons]; exact List.mem_cons_of_mem _ hk)
    revert this
    rcases ht with e | e | e | e | e | e | e <;> subst e <;> decide
  · rcases h.1 k hk with e | ⟨e, _⟩ | e | e
    · refine e ?_
      rcases ht with e | e | e | e | e | e | e <;> subst e <;> decide
    all_goals
      subst e
      revert ht
      decide

theorem args_own (hargs : Args w cfg Bad a s s2 u u2) : Ident.dictOf a ∉ s2.objs := by
  obtain ⟨lg, st⟩ := hargs.step
  intro hm
  rcases st.ownOk a hm with h | h
  · simp only [List.mem_append, List.mem_singleton] at h
    rcases h with h | h
    · exact hargs.fresh (hargs.rel.own a h)
    · cases h
  · exact h (List.mem_append_right _ (by simp))

theorem SameCtor.congr {R : Addr → Addr → Prop} {i i1 i2 : Inst} (h : SameCtor R i i1) (h1 : i2.newargs = i1.newargs) (h2 : i2.newargsEx = i1.newargsEx)
    (h3 : i2.viaCall = i1.viaCall) (h4 : i2.reduce = i1.reduce) : SameCtor R i i2 := ⟨h3.trans h.noInit, h4.trans h.noReduce, by rw [h1]; exact h.newargs, by rw [h2]; exact h.newargsEx, by rw [h1]; exact h.initargs⟩

theorem simInst (hm : Matching w cfg env) (hkf : KeyFl cfg env fl) (h : Sim w cfg env fl (restoreStep env rs3)) (h3 : Sim w cfg env fl rs3)
    (ha : w.heap[a]? = some (.inst i)) (hok : InstOk w.heap env a i) (hnt : i.info.base ≠ .tuple) (hd : 0 ≤ s.depth)
    (hr : Rel w.heap Bad s.objs u) (hf : Fit w env Bad (.ref a)) :
    SimRun w cfg (restoreStep env (restoreStep env rs3)) Bad (.ref a) s (Pickler.flattenBy w cfg fl (.ref a) s) u := by
  refine simRefInst hm ha hr hf ?_
  intro hmem r s' hrun
  have hab : a ∉ Bad := fun hb => hf.2.no a hb (.self a)
  rw [flattenInst_body hm hok, bind_run] at hrun
  cases hct : (Pickler.flattenNewargs fl i [(Tags.OBJECT, .str i.cls)] >>= fun d => Pickler.flattenInitargs fl i d)
      { s with objs := s.objs ++ [.addr a] } with
  | none => rw [hct] at hrun; cases hrun
  | some p =>
    obtain ⟨r1, s2⟩ := p
    obtain ⟨data, ja, jk, e1, hdata, ⟨rest, hrest⟩, hfind, hca⟩ := simCtor hm h ha hok hd hr hmem hf hct
    subst e1
    rw [hct] at hrun
    simp only [] at hrun
    have hne : data ≠ [] := by rw [hrest]; simp
    -- the instance right after construction
    have mkOpen : ∀ (u2 : UState) (l : Nat) (ys : List Val) (kw : Val), Args w cfg Bad a s s2 u u2 →
        SameCtor (Rof (Bad.hold a) s2.objs u2.objs) i { cls := i.cls, info := i.info, newargs := .tuple l ys, newargsEx := (.tuple l ys, kw) } →
        Open w env Bad a i (built u2.heap i l ys kw) u2.heap.length s2 (openU u2 u.heap.length u.objs.length (.inst (built u2.heap i l ys kw))) := by
      intro u2 l ys kw hargs hsame
      have hrel := hargs.openRel (o := .inst i) (o0 := .inst (built u2.heap i l ys kw)) ha (by simp [SameKind, built])
      refine ⟨ha, hok, inst_noHandler hm hok, ?_, hrel, hf, hargs.openCell, built_init hnt, ?_, args_own hargs, ⟨s.objs.length, hargs.pk, ?_⟩, fun hx => hmem (hr.serve a hx)⟩
      · obtain ⟨lg, st⟩ := hargs.step
        rw [st.depth]
        exact hd
      · exact SameCtor.congr (SameCtor.mono hargs.mono hsame) rfl rfl rfl rfl
      · simp only [openU]
        rw [hargs.keq, List.getElem?_set_self (get_lt hargs.qk)]
    -- learn what is written
    obtain ⟨l0, ys0, kw0, _, u20, _, _, hstep0, _, _, hsame0, _⟩ := hca []
    obtain ⟨ents, e2, hshape, _⟩ := simBody hm hkf h h3 (mkOpen u20 l0 ys0 kw0 ⟨hr, hmem, _, hstep0⟩ hsame0) hdata hne hnt hrun
    subst e2
    -- the decoder's run
    obtain ⟨l, ys, kw, u2, hrun2, hstep, hsame, _⟩ := instance_run hr hok hdata hshape.2 (shape_rest hshape) hfind hca (u.log ++ [.imp i.cls] ++ [.obj i.cls])
    have hargs : Args w cfg Bad a s s2 u u2 := ⟨hr, hmem, hstep⟩
    have hopen := mkOpen u2 l ys kw hargs hsame
    obtain ⟨ents2, e3, _, u4, i1, g1, g2, g3, g4, g5, g6⟩ := simBody hm hkf h h3 hopen hdata hne hnt hrun
    injection e3 with e3
    injection e3 with e3
    have e4 := List.append_cancel_left e3
    subst e4
    refine ⟨_, .ref u2.heap.length, u4, rfl, ?_, hargs.close g2 ha g3 ?_ g5, hargs.iso_new g2 hab⟩
    · change restoreTags env (restoreStep env rs3) (data ++ ents) u = _
      have hcons : data ++ ents = (Tags.OBJECT, .str i.cls) :: (rest ++ ents) := by rw [hrest]; rfl
      rw [hcons, restoreTags_object (shape_tags hdata hrest hshape), object_run, hok.noHandler, hok.load, ← hcons]
      simp only []
      rw [hrun2, hargs.run (fun b => if i.info.base == .tuple then (pure (.ref b) : U Val)
          else restoreVariables env (restoreStep env rs3) b (data ++ stripF ents) >>= fun v => fixFactory v >>= fun _ => pure v)]
      have hnt' : (i.info.base == .tuple) = false := by
        cases hb : i.info.base <;> first | rfl | (exact absurd hb hnt)
      simp only [hnt', Bool.false_eq_true, if_false]
      have hvar : restoreVariables env (restoreStep env rs3) u2.heap.length (data ++ stripF ents)
          (openU u2 u.heap.length u.objs.length (.inst (built u2.heap i l ys kw))) = some (.ok (.ref u2.heap.length), u4) := by
        rw [variables_skip (ctorKeys_skip hdata)]
        exact g1
      rw [bind_ok hvar, bind_ok g6]
      rfl
    · intro i' d hi hdd
      cases hi
      obtain ⟨q1, q2⟩ := g4 d hdd
      have h1 := hargs.openExt (o0 := .inst (built u2.heap i l ys kw))
      exact ⟨Nat.le_trans h1.len q1, q2⟩

end JP.Sim
