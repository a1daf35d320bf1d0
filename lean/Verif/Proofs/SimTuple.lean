import Verif.Proofs.SimReduce
/-!
# The round trip of tuple subclass instances

The elements are written twice: as constructor arguments and again under the sequence tag, which the
decoder never reads.  The second copy registers nothing, because everything in it is known by then.
-/
namespace JP.Sim
open JP PyM Unpickler

variable {w : World} {cfg : PCfg} {env : UEnv}
variable {Bad : Ctx}
variable {fl : Val → P Json} {rs rs2 rs3 : Json → U Val}
variable {a : Addr} {i : Inst} {s s2 : PState} {u : UState}

mutual
/-- every object that the value holds directly or through tuples and sets is registered -/
def Regd (P : List Ident) : Val → Prop
  | .ref a => .addr a ∈ P
  | .module n => .mod n ∈ P
  | .tuple _ xs => Regds P xs
  | .set _ xs => Regds P xs
  | _ => True
def Regds (P : List Ident) : List Val → Prop
  | [] => True
  | x :: xs => Regd P x ∧ Regds P xs
end

mutual
theorem Regd.mono {P P' : List Ident} (h : ∀ x ∈ P, x ∈ P') : ∀ {v : Val}, Regd P v → Regd P' v
  | .ref a, hv => h _ hv
  | .module n, hv => h _ hv
  | .tuple _ xs, hv => by simp only [Regd] at hv ⊢; exact Regds.mono h hv
  | .set _ xs, hv => by simp only [Regd] at hv ⊢; exact Regds.mono h hv
  | .none, _ | .bool _, _ | .int _, _ | .float _, _ | .str _, _ | .bytes _ _, _ | .bytearray _ _, _ | .type _, _ | .func _, _ | .lambda _, _ => trivial
theorem Regds.mono {P P' : List Ident} (h : ∀ x ∈ P, x ∈ P') : ∀ {vs : List Val}, Regds P vs → Regds P' vs
  | [], _ => trivial
  | v :: vs, hv => by
    simp only [Regds] at hv ⊢
    exact ⟨Regd.mono h hv.1, Regds.mono h hv.2⟩
end

/-- after a value is flattened, everything it holds is registered -/
def RegOk (w : World) (env : UEnv) (fl : Val → P Json) : Prop :=
  ∀ Bad v s u r s', 0 ≤ s.depth → Fit w env Bad v → Rel w.heap Bad s.objs u → fl v s = some (r, s') → Regd s'.objs v

/-- flattening a value again succeeds and registers nothing -/
def ReFl (w : World) (env : UEnv) (fl : Val → P Json) : Prop :=
  ∀ v s r s', 0 ≤ s.depth → SupportedAt w.heap env v → Regd s.objs v → fl v s = some (r, s') →
    ∃ j, r = .ok j ∧ s'.objs = s.objs ∧ s'.depth = s.depth

theorem reFl_mapM (h : ReFl w env fl) : ∀ (vs : List Val) (s : PState) r s', 0 ≤ s.depth → (∀ v ∈ vs, SupportedAt w.heap env v) →
    Regds s.objs vs → mapM fl vs s = some (r, s') → ∃ js, r = .ok js ∧ s'.objs = s.objs ∧ s'.depth = s.depth
  | [], s, r, s', _, _, _, hr => by
    simp only [mapM_nil, pure_run] at hr
    cases hr
    exact ⟨[], rfl, rfl, rfl⟩
  | v :: vs, s, r, s', hd, hs, hg, hr => by
    simp only [Regds] at hg
    rw [mapM_cons, bind_run] at hr
    cases h1 : fl v s with
    | none => rw [h1] at hr; cases hr
    | some p =>
      obtain ⟨r1, s1⟩ := p
      obtain ⟨j, e1, e2, e3⟩ := h v s r1 s1 hd (hs v (by simp)) hg.1 h1
      subst e1
      rw [h1] at hr
      simp only [] at hr
      rw [bind_run] at hr
      cases h2 : mapM fl vs s1 with
      | none => rw [h2] at hr; cases hr
      | some p =>
        obtain ⟨r2, s2⟩ := p
        obtain ⟨js, f1, f2, f3⟩ := reFl_mapM h vs s1 r2 s2 (by rw [e3]; exact hd) (fun v hv => hs v (by simp [hv])) (by rw [e2]; exact hg.2) h2
        subst f1
        rw [h2] at hr
        simp only [pure_run] at hr
        cases hr
        exact ⟨_, rfl, f2.trans e2, f3.trans e3⟩

theorem regOk_mapM (hs : Sim w cfg env fl rs) (h : RegOk w env fl) : ∀ (vs : List Val) (s : PState) (u : UState) r s', 0 ≤ s.depth →
    (∀ v ∈ vs, Fit w env Bad v) → Rel w.heap Bad s.objs u → mapM fl vs s = some (r, s') → Regds s'.objs vs
  | [], s, u, r, s', _, _, _, _ => trivial
  | v :: vs, s, u, r, s', hd, hf, hr, hrun => by
    rw [mapM_cons, bind_run] at hrun
    cases h1 : fl v s with
    | none => rw [h1] at hrun; cases hrun
    | some p =>
      obtain ⟨r1, s1⟩ := p
      have hv := h Bad v s u r1 s1 hd (hf v (by simp)) hr h1
      obtain ⟨j, x, u1, e1, e2, hstep, _⟩ := hs Bad v s u hd (hf v (by simp)).1 (hf v (by simp)).2 hr r1 s1 h1
      subst e1
      rw [h1] at hrun
      simp only [] at hrun
      rw [bind_run] at hrun
      cases h2 : mapM fl vs s1 with
      | none => rw [h2] at hrun; cases hrun
      | some p =>
        obtain ⟨r2, s2⟩ := p
        have hd1 : 0 ≤ s1.depth := by rw [hstep.depth]; exact hd
        have hvs := regOk_mapM hs h vs s1 u1 r2 s2 hd1 (fun v hv => hf v (by simp [hv])) hstep.rel h2
        obtain ⟨js, xs, u2, e1, _, hstep2, _⟩ := simMap hs vs s1 u1 r2 s2 hd1 (fun v hv => hf v (by simp [hv])) hstep.rel h2
        subst e1
        rw [h2] at hrun
        simp only [pure_run] at hrun
        cases hrun
        simp only [Regds]
        exact ⟨hv.mono (fun x hx => hstep2.objs.subset hx), hvs⟩

theorem supported_tuple {l : Nat} {xs : List Val} (h : SupportedAt w.heap env (.tuple l xs)) : ∀ x ∈ xs, SupportedAt w.heap env x :=
  fun x hx => ⟨valsOk_iff.1 (by simpa only [ValOk] using h.1) x hx, fun a ha => h.2 a (.tuple hx ha)⟩

theorem supported_set {l : Nat} {xs : List Val} (h : SupportedAt w.heap env (.set l xs)) : ∀ x ∈ xs, SupportedAt w.heap env x :=
  fun x hx => ⟨valsOk_iff.1 (by have := h.1; simp only [ValOk] at this; exact this.1) x hx, fun a ha => h.2 a (.set hx ha)⟩

theorem supported_cell {a : Addr} (h : SupportedAt w.heap env (.ref a)) : ∃ o, w.heap[a]? = some o ∧ CellOk w.heap env a o :=
  have ⟨o, h1, h2, _⟩ := h.2 a (.self a)
  ⟨o, h1, h2⟩

/-- the state after a container has been flattened at a positive depth -/
theorem popped {s1 : PState} {s : PState} (hd : 0 ≤ s.depth) (e : s1.depth = s.depth + 1) :
    (if s1.depth - 1 = -1 then ({} : PState) else { s1 with depth := s1.depth - 1 }) = { s1 with depth := s.depth } := by
  rw [if_neg (by rw [e]; omega), e]
  have : s.depth + 1 - 1 = s.depth := by omega
  rw [this]

theorem reFl_flatten (hm : Matching w cfg env) : ∀ n, ReFl w env (Pickler.flatten w cfg n)
  | 0 => by intro v s r s' _ _ _ h; simp [Pickler.flatten] at h
  | n + 1 => by
    intro v s r s' hd hs hg hrun
    have ih := reFl_flatten hm n
    cases hc : container v with
    | false =>
      have hsc : ∃ j, Pickler.flatten w cfg (n + 1) v s = some (.ok j, s) := by
        cases v <;> simp [container] at hc <;>
          simp [Pickler.flatten, Pickler.flattenStep, Pickler.flattenImpl, Pickler.cached, hm.unpicklable, hm.makeRefs, pure_run]
      obtain ⟨j, hj⟩ := hsc
      rw [hj] at hrun
      cases hrun
      exact ⟨_, rfl, rfl, rfl⟩
    | true =>
      obtain ⟨r1, s1, e1, e2⟩ := flatten_container hm hc hrun
      have key : ∃ j, r1 = .ok j ∧ s1.objs = s.objs ∧ s1.depth = s.depth + 1 := by
        cases v with
        | tuple l xs =>
          simp only [Pickler.flattenBy] at e1
          rw [bind_run] at e1
          cases h2 : mapM (Pickler.flatten w cfg n) xs { s with depth := s.depth + 1, seen := s.seen ++ [.tuple l xs] } with
          | none => rw [h2] at e1; cases e1
          | some p =>
            obtain ⟨r2, s2⟩ := p
            obtain ⟨js, f1, f2, f3⟩ := reFl_mapM ih xs _ r2 s2 (by simp only []; omega) (supported_tuple hs) (by simpa only [Regd] using hg) h2
            subst f1
            rw [h2] at e1
            simp only [pure_run] at e1
            cases e1
            exact ⟨_, rfl, f2, f3⟩
        | set l xs =>
          simp only [Pickler.flattenBy] at e1
          rw [bind_run] at e1
          cases h2 : mapM (Pickler.flatten w cfg n) xs { s with depth := s.depth + 1, seen := s.seen ++ [.set l xs] } with
          | none => rw [h2] at e1; cases e1
          | some p =>
            obtain ⟨r2, s2⟩ := p
            obtain ⟨js, f1, f2, f3⟩ := reFl_mapM ih xs _ r2 s2 (by simp only []; omega) (supported_set hs) (by simpa only [Regd] using hg) h2
            subst f1
            rw [h2] at e1
            simp only [pure_run] at e1
            cases e1
            exact ⟨_, rfl, f2, f3⟩
        | type n => simp only [Pickler.flattenBy, pure_run] at e1; cases e1; exact ⟨_, rfl, rfl, rfl⟩
        | func n => simp only [Pickler.flattenBy, pure_run] at e1; cases e1; exact ⟨_, rfl, rfl, rfl⟩
        | lambda n => simp only [Pickler.flattenBy, pure_run] at e1; cases e1; exact ⟨_, rfl, rfl, rfl⟩
        | module n =>
          simp only [Regd] at hg
          simp only [Pickler.flattenBy, Pickler.refObjInstance, hm.unpicklable, if_true] at e1
          rw [bind_ok (mkref_old hm (s := { s with depth := s.depth + 1, seen := s.seen ++ [.module n] }) hg)] at e1
          simp only [Bool.false_eq_true, if_false] at e1
          rw [getref_run (s := { s with depth := s.depth + 1, seen := s.seen ++ [.module n] }) hg] at e1
          cases e1
          exact ⟨_, rfl, rfl, rfl⟩
        | ref b =>
          simp only [Regd] at hg
          obtain ⟨o, ho, hok⟩ := supported_cell hs
          have e : Pickler.flattenBy w cfg (Pickler.flatten w cfg n) (.ref b) { s with depth := s.depth + 1, seen := s.seen ++ [.ref b] } =
              Pickler.getref (.addr b) { s with depth := s.depth + 1, seen := s.seen ++ [.ref b] } := by
            cases hok <;>
              (simp only [Pickler.flattenBy, ho, Pickler.refObjInstance, hm.unpicklable, if_true]; rw [bind_ok (mkref_old hm (s := { s with depth := s.depth + 1, seen := s.seen ++ [.ref b] }) hg)]; rfl)
          rw [e, getref_run (s := { s with depth := s.depth + 1, seen := s.seen ++ [.ref b] }) hg] at e1
          cases e1
          exact ⟨_, rfl, rfl, rfl⟩
        | _ => simp [container] at hc
      obtain ⟨j, f1, f2, f3⟩ := key
      obtain ⟨g1, g2⟩ := e2 j f1
      rw [popped hd f3] at g2
      subst g2
      exact ⟨j, g1, f2, rfl⟩

theorem elems_regd {P : List Ident} {l : Nat} {xs : List Val} (h1 : i.info.numFields.isSome = true → i.elems = xs)
    (h2 : i.info.numFields = none → ∃ l', xs = [.tuple l' i.elems]) (h : Regd P (.tuple l xs)) : Regds P i.elems := by
  simp only [Regd] at h
  cases hn : i.info.numFields with
  | some k => rw [h1 (by simp [hn])]; exact h
  | none =>
    obtain ⟨l', e⟩ := h2 hn
    rw [e] at h
    simp only [Regds, Regd] at h
    exact h.1

theorem simTupleInst (hm : Matching w cfg env) (h : Sim w cfg env fl (restoreStep env rs3)) (hreg : RegOk w env fl) (hre : ReFl w env fl)
    (ha : w.heap[a]? = some (.inst i)) (hok : InstOk w.heap env a i) (hb : i.info.base = .tuple) (hd : 0 ≤ s.depth)
    (hr : Rel w.heap Bad s.objs u) (hf : Fit w env Bad (.ref a)) :
    SimRun w cfg (restoreStep env (restoreStep env rs3)) Bad (.ref a) s (Pickler.flattenBy w cfg fl (.ref a) s) u := by
  refine simRefInst hm ha hr hf ?_
  intro hmem r s' hrun
  have hab : a ∉ Bad := fun hb => hf.2.no a hb (.self a)
  -- the only supported contents
  have hbody : ∃ l xs, NoState w.heap i ∧ i.attrs = [] ∧ i.info.hasNewargs = true ∧ i.info.hasNewargsEx = false ∧ i.newargs = .tuple l xs ∧
      (i.info.numFields.isSome = true → i.elems = xs) ∧ (i.info.numFields = none → ∃ l', xs = [.tuple l' i.elems]) := by
    cases hok.body with
    | tuple _ q1 q2 q3 q4 q5 q6 q7 => exact ⟨_, _, q1, q2, q3, q4, q5, q6, q7⟩
    | attrs q => rw [hb] at q; cases q
    | empty q => rw [hb] at q; cases q
    | slots q => rw [hb] at q; cases q
    | list q => rw [hb] at q; cases q
    | set q => rw [hb] at q; cases q
    | dict q => rw [hb] at q; cases q
    | state q => exact absurd hb q
    | stateDict q => rw [hb] at q; cases q
  obtain ⟨l, xs, q1, q2, q3, q4, q5, q6, q7⟩ := hbody
  obtain ⟨hni, hvals, hnr⟩ : i.info.hasInitargs = false ∧ ValsOk w.heap env xs ∧ ¬ Reach w.heap (.tuple l xs) a := by
    cases hok.ctor with
    | noArgs _ _ _ p => exact absurd hb p
    | newargs _ _ p3 p4 p5 p6 =>
      rw [q5] at p4
      cases p4
      exact ⟨p3, p5, by rw [← q5]; exact p6⟩
    | newargsEx p => rw [q4] at p; cases p
    | initargs _ p => rw [q3] at p; cases p
  have hfitx : Fit w env Bad (.tuple l xs) := hf.part ha (by simp [Obj.parts, Inst.parts, q5]) hvals (fun _ e => by cases e)
  have hfit : Fit w env (Bad.hold a) (.tuple l xs) := hfitx.bad hnr
  have hsupp : ∀ x ∈ i.elems, SupportedAt w.heap env x := by
    have hx := supported_tuple hfitx.1
    cases hn : i.info.numFields with
    | some k => rw [q6 (by simp [hn])]; exact hx
    | none =>
      obtain ⟨l', e⟩ := q7 hn
      rw [e] at hx
      exact supported_tuple (hx (.tuple l' i.elems) (by simp))
  rw [flattenInst_body hm hok, bind_run] at hrun
  cases hct : (Pickler.flattenNewargs fl i [(Tags.OBJECT, .str i.cls)] >>= fun d => Pickler.flattenInitargs fl i d)
      { s with objs := s.objs ++ [.addr a] } with
  | none => rw [hct] at hrun; cases hrun
  | some p =>
    obtain ⟨r1, s2⟩ := p
    obtain ⟨data, ja, jk, e1, hdata, ⟨rest, hrest⟩, hfind, hca⟩ := simCtor hm h ha hok hd hr hmem hf hct
    subst e1
    -- what is registered by now
    have hregd : Regd s2.objs (.tuple l xs) := by
      simp only [Pickler.flattenNewargs, Pickler.flattenInitargs, hok.tidy.errs, outcome, ofExcept_ok', pure_bind', q3, q4, hni, q5, Bool.false_eq_true, if_false, if_true, bind_assoc'] at hct
      rw [bind_run] at hct
      cases hfl : fl (.tuple l xs) { s with objs := s.objs ++ [.addr a] } with
      | none => rw [hfl] at hct; cases hct
      | some p =>
        obtain ⟨r2, s3⟩ := p
        have := hreg (Bad.hold a) (.tuple l xs) { s with objs := s.objs ++ [.addr a] } (proxU u []) r2 s3 hd hfit (hr.prox hmem []) hfl
        rw [hfl] at hct
        cases r2 with
        | error e => cases hct
        | ok j =>
          simp only [pure_bind', pure_run] at hct
          cases hct
          exact this
    have hdep : s2.depth = s.depth := by
      obtain ⟨_, _, _, _, _, _, _, hst, _⟩ := hca []
      exact hst.depth
    rw [hct] at hrun
    simp only [] at hrun
    have hseq : Pickler.flattenGetstate w cfg fl a i data = (mapM fl i.elems >>= fun js => (pure (.obj (data ++ [(Tags.SEQ, .arr js)])) : P _)) := by
      rw [getstate_rest q1 hok.tidy.exclude]
      simp only [Pickler.flattenRest, hb]
      unfold Pickler.flattenSequence
      rw [seqAttrs_eq (env := env) hm hok.tidy (by rw [q2]; exact ⟨by simp, by simp⟩) (fun _ => q2) (fun k hk => hdata.tags k hk), q2]
      simp only [hm.unpicklable, if_true, List.map_nil, mapM_nil, pure_bind', List.zip_nil_left, List.append_nil]
      congr 1
      funext js
      rw [dset_of_not_mem _ _ _ (hdata.not (by decide))]
    rw [hseq, bind_run] at hrun
    cases hel : mapM fl i.elems s2 with
    | none => rw [hel] at hrun; cases hrun
    | some p =>
      obtain ⟨r2, s3⟩ := p
      obtain ⟨js, f1, f2, f3⟩ := reFl_mapM hre i.elems s2 r2 s3 (by rw [hdep]; exact hd) hsupp (elems_regd q6 q7 hregd) hel
      subst f1
      rw [hel] at hrun
      simp only [pure_run] at hrun
      cases hrun
      have hfac : i.factory = none := hok.tidy.factory (by rw [hb]; decide)
      have hload : LoadOk env i [(Tags.SEQ, .arr js)] := Or.inl ⟨hfac, by simp; decide, by simp; decide⟩
      have hshape : Shape env i [(Tags.SEQ, .arr js)] := ⟨by
        intro k hk
        simp only [List.map_cons, List.map_nil, List.mem_singleton] at hk
        exact Or.inr (Or.inl ⟨hk, by rw [hb]; decide, by rw [hb]; decide⟩), hload⟩
      obtain ⟨l', ys, kw, u2, hrun2, hstep, hsame, hiso⟩ := instance_run hr hok hdata hshape.2 (shape_rest hshape) hfind hca (u.log ++ [.imp i.cls] ++ [.obj i.cls])
      have hargs : Args w cfg Bad a s s2 u u2 := ⟨hr, hmem, hstep⟩
      have hrel := hargs.openRel (o := .inst i) (o0 := .inst (built u2.heap i l' ys kw)) ha (by simp [SameKind, built])
      have hst : Step w cfg [u2.heap.length] Bad s2 s' (openU u2 u.heap.length u.objs.length (.inst (built u2.heap i l' ys kw)))
          (openU u2 u.heap.length u.objs.length (.inst (built u2.heap i l' ys kw))) := Step.same hrel f3 f2 rfl rfl rfl rfl
      refine ⟨_, .ref u2.heap.length, _, rfl, ?_, hargs.close hst ha hargs.openCell (by
          intro i' d hi hdd; cases hi; cases hdd) ?_, hargs.iso_new hst hab⟩
      · change restoreTags env (restoreStep env rs3) (data ++ [(Tags.SEQ, .arr js)]) u = _
        have hcons : data ++ [(Tags.SEQ, .arr js)] = (Tags.OBJECT, .str i.cls) :: (rest ++ [(Tags.SEQ, .arr js)]) := by rw [hrest]; rfl
        rw [hcons, restoreTags_object (shape_tags hdata hrest hshape), object_run, hok.noHandler, hok.load, ← hcons]
        simp only []
        rw [hrun2, hargs.run (fun b => if i.info.base == .tuple then (pure (.ref b) : U Val)
            else restoreVariables env (restoreStep env rs3) b (data ++ stripF [(Tags.SEQ, .arr js)]) >>= fun v => fixFactory v >>= fun _ => pure v)]
        have hbt : (i.info.base == .tuple) = true := by rw [hb]; rfl
        rw [if_pos hbt]
        rfl
      · simp only [SameCell]
        have hmono : ∀ x y, Rof (Bad.hold a) s2.objs u2.objs x y → Rof Bad s'.objs (openU u2 u.heap.length u.objs.length (.inst (built u2.heap i l' ys kw))).objs x y := by
          intro x y hxy
          rw [f2]
          exact hargs.mono x y hxy
        have hnh : w.handler i.cls = none := by rw [hm.handler]; exact hok.noHandler
        have hel : VIsos (Rof (Bad.hold a) s2.objs u2.objs) i.elems (tupleElems u2.heap i.info ys) := by
          have := hiso q4 q3
          rw [q5] at this
          simp only [VIso] at this
          unfold tupleElems
          cases hn : i.info.numFields with
          | some k =>
            rw [q6 (by simp [hn])]
            exact this
          | none =>
            obtain ⟨l2, e⟩ := q7 hn
            rw [e] at this
            obtain ⟨y, ys', rfl, hy, _⟩ := visos_cons this
            obtain ⟨l3, zs, rfl, hz⟩ := viso_tuple hy
            exact hz
        refine .fields (by simp [handledOf, hnh]) hok.noReduce rfl (savedState_none q1) rfl ?_ ?_ ?_ ?_ (SameCtor.congr (SameCtor.mono hmono hsame) rfl rfl rfl rfl)
        · simp [instAttrs, hok.tidy.dictCell, q2, built, ItemsIso, All2]
        · rw [hok.tidy.items (by rw [hb]; decide)]
          unfold orderOf
          split <;> simp [stringsFirst, built, ItemsIso, All2]
        · have hbe : (built u2.heap i l' ys kw).elems = tupleElems u2.heap i.info ys := by simp [built, hb]
          rw [hbe]
          exact VIsos.mono hmono _ _ hel
        · simp [hfac, built]

end JP.Sim
