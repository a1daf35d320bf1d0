import Verif.Proofs.SimEnc
/-!
# The round trip, case by case: containers and globals
-/
namespace JP.Sim
open JP PyM Unpickler

variable {w : World} {cfg : PCfg} {env : UEnv}
variable {Bad : Ctx}
variable {fl : Val → P Json} {rs rs2 : Json → U Val}

/-- a list or dict is complete -/
theorem Rel.leave {P : List Ident} {u : UState} {a b : Addr} {k : Nat} {o o' : Obj} (r : Rel w.heap (Bad.enter a) P u)
    (h1 : w.heap[a]? = some o) (hk : P[k]? = some (.addr a)) (hq : u.objs[k]? = some (.ref b)) (h3 : u.heap[b]? = some o')
    (h6 : SameCell (orderOf cfg) (handledOf w) w.heap u.heap (Rof Bad P u.objs) o o') : Rel w.heap Bad P u := by
  refine ⟨r.len, r.nodup, r.addr, r.mod, r.lt, r.inj, r.idxAddr, r.idxMod, r.bad, r.serve, r.own, ?_⟩
  intro k' a' b' q1 q2 q3 q4
  by_cases e : a' = a
  · subst e
    have e' := nodup_get r.nodup hk q1
    subst e'
    rw [hq] at q2
    injection q2 with q2
    injection q2 with q2
    subst q2
    exact Filled.of (keys := cfg.keys) h1 h3 h6
  · exact r.filled k' a' b' q1 q2 q3 (fun hm => by
      rcases List.mem_cons.1 hm with h | h
      · exact e h
      · exact q4 h)

/-- An object was allocated and registered, filled in, and is now complete. -/
theorem Step.close {s s2 : PState} {u u3 : UState} {a : Addr} {o o0 o' : Obj}
    (h : Step w cfg [u.heap.length] (Bad.enter a) { s with objs := s.objs ++ [.addr a] } s2 (regU u o0) u3)
    (hr : Rel w.heap Bad s.objs u)
    (h1 : w.heap[a]? = some o) (h3 : u3.heap[u.heap.length]? = some o')
    (h5 : ∀ (i : Inst) (d : Nat), o' = .inst i → i.dictCell = some d → u.heap.length ≤ d ∧ d < u3.heap.length)
    (h6 : SameCell (orderOf cfg) (handledOf w) w.heap u3.heap (Rof Bad s2.objs u3.objs) o o')
    (ho : ∀ n, o0 ≠ .idproxy n := by intro _ h; cases h) :
    Step w cfg [] Bad s s2 u u3 where
  depth := h.depth
  objs := (List.prefix_append s.objs [Ident.addr a]).trans h.objs
  rel := h.rel.leave (k := s.objs.length) (b := u.heap.length) h1 (prefix_get h.objs (by simp)) (prefix_get h.ext.objs (by simp [regU, hr.len])) h3 h6
  ext := (Ext.reg o0 ho).trans h.ext (fun b hb hm => by
    simp only [List.mem_singleton] at hm; subst hm; omega)
  done := by
    have hd := h.done
    simp only [List.length_append, List.length_cons, List.length_nil] at hd
    refine (hd.weaken ?_).close ?_ h1 ?_ h3 (Nat.le_refl _) h5 h6
    · simp [regU]
    · exact prefix_get h.objs (by simp)
    · refine prefix_get h.ext.objs ?_
      simp [regU, hr.len]
  own := by
    intro x hx
    rcases h.own x hx with h' | h' | ⟨k, b, q1, q2, q3, q4⟩
    · simp only [List.mem_append, List.mem_singleton] at h'
      rcases h' with h' | h'
      · exact Or.inl h'
      · cases h'
    · exact Or.inr (Or.inl (fun hm => h' (List.mem_append_left _ hm)))
    · simp only [List.mem_singleton] at q1
      subst q1
      have hk : s2.objs[s.objs.length]? = some (.addr a) := prefix_get h.objs (by simp)
      have hk' : u3.objs[s.objs.length]? = some (.ref u.heap.length) := prefix_get h.ext.objs (by simp [regU, hr.len])
      have e := h.rel.inj _ _ _ q4 hk'
      subst e
      rw [hk] at q3
      injection q3 with q3
      injection q3 with q3
      subst q3
      refine Or.inr (Or.inl (fun hm => ?_))
      obtain ⟨k', hk1⟩ := mem_get hm
      have := nodup_get h.rel.nodup hk (prefix_get h.objs (prefix_get (List.prefix_append _ _) hk1))
      have := get_lt hk1
      omega

/-- the value of a registered object -/
theorem Step.iso_new {s s2 : PState} {u u3 : UState} {a : Addr} {o0 : Obj} {X : List Addr}
    (h : Step w cfg X (Bad.enter a) { s with objs := s.objs ++ [.addr a] } s2 (regU u o0) u3)
    (hr : Rel w.heap Bad s.objs u) (hb : a ∉ Bad) :
    Rof Bad s2.objs u3.objs a u.heap.length := by
  refine ⟨hb, s.objs.length, prefix_get h.objs (by simp), prefix_get h.ext.objs ?_⟩
  simp [regU, hr.len]

theorem emit_run (e : Event) (u : UState) : emit e u = some (.ok (), { u with log := u.log ++ [e] }) := rfl

theorem setCell_run (a : Addr) (o : Obj) (u : UState) :
    setCell a o u = some (.ok (), { u with heap := u.heap.set a o }) := rfl

/-! ### references to objects met before -/

theorem restore_id (k : Nat) (u : UState) (v : Val) (h : u.objs[k]? = some v) :
    restoreStep env rs2 (.obj [(Tags.ID, .int k)]) u = some (.ok v, u) := by
  have e : restoreStep env rs2 (.obj [(Tags.ID, .int k)]) = idLookup k := rfl
  rw [e]
  unfold idLookup
  rw [bind_ok (get_run u)]
  have : pyIndex u.objs (k : Int) = some v := by simp [pyIndex, h]
  rw [this]
  rfl

theorem idxOf_get {l : List Ident} {i : Ident} (h : i ∈ l) : l[l.idxOf i]? = some i := by
  induction l with
  | nil => simp at h
  | cons x l ih =>
    by_cases e : x = i
    · subst e; simp
    · have e' : (x == i) = false := by simpa using e
      rw [List.idxOf_cons, e']
      rcases List.mem_cons.1 h with h | h
      · exact absurd h.symm e
      · simpa using ih h

theorem simOld {a : Addr} {s : PState} {u : UState} (hr : Rel w.heap Bad s.objs u) (hf : Fit w env Bad (.ref a))
    (hmem : .addr a ∈ s.objs) :
    SimRun w cfg (restoreStep env rs2) Bad (.ref a) s (Pickler.getref (.addr a) s) u := by
  intro r s' hrun
  rw [getref_run hmem] at hrun
  injection hrun with hrun
  injection hrun with h1 h2
  subst h1 h2
  have hk := idxOf_get hmem
  obtain ⟨b, e1, _⟩ := hr.addr _ _ hk
  refine ⟨_, .ref b, u, rfl, restore_id _ u _ e1, Step.refl hr, ?_⟩
  simp only [VIso]
  exact ⟨fun hb => hf.2.no a hb (.self a), _, hk, e1⟩

/-! ### lists -/

theorem noteProxy_none {a : Addr} {sl : Slot} {v : Val} {u : UState} (h : proxyAddr u.heap v = none) :
    noteProxy a sl v u = some (.ok (), u) := by
  simp [noteProxy, h]

theorem noteList_none {a : Addr} {u : UState} : ∀ (vs : List Val) (n : Nat),
    (∀ v ∈ vs, proxyAddr u.heap v = none) → noteList a n vs u = some (.ok (), u)
  | [], _, _ => rfl
  | v :: vs, n, h => by
    unfold noteList
    rw [bind_ok (noteProxy_none (h v List.mem_cons_self))]
    exact noteList_none vs (n + 1) (fun v hv => h v (List.mem_cons_of_mem _ hv))

theorem VIsos.mem {R : Addr → Addr → Prop} : ∀ {vs xs : List Val}, VIsos R vs xs → ∀ x ∈ xs, ∃ v, VIso R v x
  | [], [], _ => by simp
  | v :: vs, x :: xs, h => by
    simp only [VIsos] at h
    intro y hy
    rcases List.mem_cons.1 hy with e | e
    · subst e; exact ⟨v, h.1⟩
    · exact VIsos.mem h.2 y e
  | [], _ :: _, h => by simp [VIsos] at h
  | _ :: _, [], h => by simp [VIsos] at h

theorem simList (hm : Matching w cfg env) (h : Sim w cfg env fl rs2) {a : Addr} {xs : List Val} {s : PState} {u : UState}
    (ha : w.heap[a]? = some (.list xs)) (hd : 0 ≤ s.depth) (hr : Rel w.heap Bad s.objs u) (hf : Fit w env Bad (.ref a)) :
    SimRun w cfg (restoreStep env rs2) Bad (.ref a) s (Pickler.flattenBy w cfg fl (.ref a) s) u := by
  have e : Pickler.flattenBy w cfg fl (.ref a) = (Pickler.mkref cfg (.addr a) >>= fun new =>
      if new then mapM fl xs >>= fun js => pure (.arr js) else Pickler.getref (.addr a)) := by
    simp only [Pickler.flattenBy, ha]
  rw [e]
  by_cases hmem : Ident.addr a ∈ s.objs
  · rw [bind_ok (mkref_old hm hmem)]
    exact simOld hr hf hmem
  · rw [bind_ok (mkref_new hm hmem)]
    intro r s' hrun
    simp only [if_true] at hrun
    have hcell : ValsOk w.heap env xs := by
      obtain ⟨o, ho, hok⟩ := hf.cell
      rw [ha] at ho
      injection ho with ho
      subst ho
      cases hok
      assumption
    have hab : a ∉ Bad := fun hb => hf.2.no a hb (.self a)
    have hr1 : Rel w.heap (Bad.enter a) (s.objs ++ [.addr a]) (regU u (.list [])) :=
      hr.reg hmem (fun x h => Or.inr h) (fun x h => h) (fun x h => List.mem_cons_of_mem _ h) (Or.inr (Or.inl List.mem_cons_self)) (Or.inr ⟨ha, trivial⟩)
    rw [bind_run] at hrun
    cases hmm : mapM fl xs { s with objs := s.objs ++ [.addr a] } with
    | none => rw [hmm] at hrun; cases hrun
    | some p =>
      obtain ⟨r1, s1⟩ := p
      obtain ⟨js, vs, u2, e1, e2, hstep, hiso, _⟩ := simMap h xs { s with objs := s.objs ++ [.addr a] } (regU u (.list []))
        r1 s1 hd (fun x hx => hf.enter ha hx (valsOk_iff.1 hcell x hx) (fun _ e => by cases e)) hr1 hmm
      subst e1
      rw [hmm] at hrun
      simp only [pure_run] at hrun
      cases hrun
      have hb2 : u2.heap[u.heap.length]? = some (.list []) := by
        rw [hstep.ext.cells _ (by simp [regU]) (by simp)]
        simp [regU]
      have hspot := (Spot.opened hr1 (a := a) (b := u.heap.length) (k := s.objs.length) List.mem_cons_self (by simp) (by simp [regU, hr.len])).step hr1 hstep
      have hstep3 : Step w cfg [u.heap.length] (Bad.enter a) { s with objs := s.objs ++ [.addr a] } s' (regU u (.list []))
          { u2 with heap := u2.heap.set u.heap.length (.list vs) } :=
        (hstep.weaken (by simp)).trans (Step.set hstep.rel hb2 (o1 := .list vs) (fun o ho => by cases o <;> simp_all [SameKind]) (by simp) hspot.2) (by simp [regU])
      have hnp : ∀ v ∈ vs, proxyAddr ({ u2 with heap := u2.heap.set u.heap.length (.list vs) } : UState).heap v = none := by
        intro v hv
        obtain ⟨v0, hv0⟩ := VIsos.mem hiso v hv
        exact hstep3.rel.notProxy hv0
      refine ⟨.arr js, .ref u.heap.length, { u2 with heap := u2.heap.set u.heap.length (.list vs) }, rfl, ?_, ?_, ?_⟩
      · change (restoreList rs2 (.ok js) >>= fun a => (pure (.ref a) : U Val)) u = _
        have : restoreList rs2 (.ok js) u = some (.ok u.heap.length, { u2 with heap := u2.heap.set u.heap.length (.list vs) }) := by
          unfold restoreList
          rw [bind_ok (alloc_run _), bind_ok (reg_run hr _), bind_ok (ofExcept_run _ _), bind_ok e2,
            bind_ok (setCell_run _ _ _), bind_ok (noteList_none vs 0 hnp)]
          rfl
        rw [bind_ok this]
        rfl
      · refine hstep3.close hr ha (set_get (get_lt hb2)) (by intro i d hi; cases hi) ?_
        simp only [SameCell]
        exact hiso
      · simp only [VIso]
        exact hstep3.iso_new hr hab

/-! ### tuples and sets -/

theorem simTuple (hm : Matching w cfg env) (h : Sim w cfg env fl rs2) {i : Nat} {xs : List Val} {s : PState} {u : UState}
    (hd : 0 ≤ s.depth) (hr : Rel w.heap Bad s.objs u) (hf : Fit w env Bad (.tuple i xs)) :
    SimRun w cfg (restoreStep env rs2) Bad (.tuple i xs) s (Pickler.flattenBy w cfg fl (.tuple i xs) s) u := by
  intro r s' hrun
  simp only [Pickler.flattenBy, hm.unpicklable, if_true] at hrun
  rw [bind_run] at hrun
  cases hmm : mapM fl xs s with
  | none => rw [hmm] at hrun; cases hrun
  | some p =>
    obtain ⟨r1, s1⟩ := p
    obtain ⟨js, vs, u2, e1, e2, hstep, hiso, _⟩ := simMap h xs s u r1 s1 hd hf.tuple hr hmm
    subst e1
    rw [hmm] at hrun
    simp only [pure_run] at hrun
    cases hrun
    refine ⟨.obj [(Tags.TUPLE, .arr js)], .tuple (u2.nextId + 1) vs, { u2 with nextId := u2.nextId + 1 }, rfl, ?_, ?_, ?_⟩
    · change (PyM.tryCatch (mapM rs2 js) _ _ >>= fun vs => fresh >>= fun n => (pure (.tuple n vs) : U Val)) u = _
      have : PyM.tryCatch (mapM rs2 js) (· == .typeError) (fun _ => pure []) u = some (.ok vs, u2) := by
        simp only [PyM.tryCatch, e2]
      rw [bind_ok this]
      rfl
    · exact hstep.trans (Step.same hstep.rel rfl rfl rfl rfl rfl rfl) (by simp)
    · simp only [VIso]
      exact hiso

/-- the loop of `_restore_set` -/
def setLoop (rs : Json → U Val) (acc : List Val) (js : List Json) : U (List Val) :=
  foldM (fun acc x => do
    let v ← rs x
    let s ← get
    if hashable s.heap v then pure (sadd v acc) else throw .typeError) acc js

theorem VIsos.append {R : Addr → Addr → Prop} {a b c d} (h : VIsos R a b) (h' : VIsos R c d) : VIsos R (a ++ c) (b ++ d) :=
  VIsos_iff.2 (All2.append (VIsos_iff.1 h) (VIsos_iff.1 h'))

theorem VIsos.mem' {R : Addr → Addr → Prop} : ∀ {vs xs : List Val}, VIsos R vs xs → ∀ x ∈ xs, ∃ v ∈ vs, VIso R v x
  | [], [], _ => by simp
  | v :: vs, x :: xs, h => by
    simp only [VIsos] at h
    intro y hy
    rcases List.mem_cons.1 hy with e | e
    · subst e; exact ⟨v, List.mem_cons_self, h.1⟩
    · obtain ⟨v', hv', hi⟩ := VIsos.mem' h.2 y e
      exact ⟨v', List.mem_cons_of_mem _ hv', hi⟩
  | [], _ :: _, h => by simp [VIsos] at h
  | _ :: _, [], h => by simp [VIsos] at h

/-- adding the image of a new element appends it -/
theorem sadd_new {P : List Ident} {u : UState} (hr : Rel w.heap Bad P u) {pre acc : List Val} {v x : Val}
    (h1 : VIsos (Rof Bad P u.objs) pre acc) (h2 : VIso (Rof Bad P u.objs) v x)
    (hne : ∀ y ∈ pre, pyEq y v = false) : sadd x acc = acc ++ [x] := by
  unfold sadd
  rw [if_neg]
  intro hany
  rw [List.any_eq_true] at hany
  obtain ⟨y, hy, he⟩ := hany
  obtain ⟨v', hv', hi⟩ := VIsos.mem' h1 y hy
  rw [hr.pyEq_iso hi h2, hne v' hv'] at he
  cases he

theorem hashables_mem {h : Heap} : ∀ {xs : List Val}, hashables h xs = true → ∀ x ∈ xs, hashable h x = true
  | [], _ => by simp
  | x :: xs, hh => by
    simp only [hashables, Bool.and_eq_true] at hh
    intro y hy
    rcases List.mem_cons.1 hy with e | e
    · subst e; exact hh.1
    · exact hashables_mem hh.2 y e

theorem simSetLoop (h : Sim w cfg env fl rs) : ∀ (vs pre acc : List Val) (s : PState) (u : UState) r s',
    0 ≤ s.depth → (∀ v ∈ vs, Fit w env Bad v) → Rel w.heap Bad s.objs u →
    (∀ v ∈ vs, hashable w.heap v = true) → (pre ++ vs).Pairwise (fun x y => pyEq x y = false) →
    VIsos (Rof Bad s.objs u.objs) pre acc →
    mapM fl vs s = some (r, s') →
    ∃ js xs u', r = .ok js ∧ setLoop rs acc js u = some (.ok xs, u') ∧ Step w cfg [] Bad s s' u u' ∧
      VIsos (Rof Bad s'.objs u'.objs) (pre ++ vs) xs
  | [], pre, acc, s, u, r, s', _, _, hr, _, _, hp, hrun => by
    simp only [mapM_nil] at hrun
    cases hrun
    exact ⟨[], acc, u, rfl, rfl, Step.refl hr, by simpa using hp⟩
  | v :: vs, pre, acc, s, u, r, s', hd, hf, hr, hh, hpw, hp, hrun => by
    rw [mapM_cons] at hrun
    change (fl v >>= fun y => mapM fl vs >>= fun ys => (pure (y :: ys) : P _)) s = _ at hrun
    rw [bind_run] at hrun
    have hv := hf v List.mem_cons_self
    cases hfl : fl v s with
    | none => rw [hfl] at hrun; cases hrun
    | some p =>
      obtain ⟨r1, s1⟩ := p
      obtain ⟨j, x, u1, hr1, hrs, hstep, hiso⟩ := h Bad v s u hd hv.1 hv.2 hr r1 s1 hfl
      subst hr1
      rw [hfl] at hrun
      simp only [] at hrun
      rw [bind_run] at hrun
      have hp1 := VIsos.mono hstep.mono _ _ hp
      have hsadd : sadd x acc = acc ++ [x] := sadd_new hstep.rel hp1 hiso (fun y hy => by
        rw [List.pairwise_append] at hpw
        exact hpw.2.2 y hy v List.mem_cons_self)
      cases hm : mapM fl vs s1 with
      | none => rw [hm] at hrun; cases hrun
      | some p =>
        obtain ⟨r2, s2⟩ := p
        obtain ⟨js, xs, u2, hr2, hrs2, hstep2, hiso2⟩ := simSetLoop h vs (pre ++ [v]) (acc ++ [x]) s1 u1 r2 s2
          (by rw [hstep.depth]; exact hd)
          (fun v hv => hf v (List.mem_cons_of_mem _ hv)) hstep.rel
          (fun v hv => hh v (List.mem_cons_of_mem _ hv)) (by simpa using hpw)
          (VIsos.append hp1 (by simp only [VIsos]; exact ⟨hiso, trivial⟩)) hm
        subst hr2
        rw [hm] at hrun
        simp only [pure_run] at hrun
        cases hrun
        refine ⟨j :: js, xs, u2, rfl, ?_, hstep.trans hstep2 (by simp), by simpa using hiso2⟩
        unfold setLoop
        rw [foldM_cons]
        have h1 : (rs j >>= fun v => get >>= fun s => if hashable s.heap v then (pure (sadd v acc) : U _) else throw .typeError) u
            = some (.ok (acc ++ [x]), u1) := by
          rw [bind_ok hrs, bind_ok (get_run u1), if_pos (hstep.rel.hashable_iso hiso (hh v List.mem_cons_self)), hsadd]
          rfl
        rw [bind_ok h1]
        exact hrs2

theorem simSet (hm : Matching w cfg env) (h : Sim w cfg env fl rs2) {i : Nat} {xs : List Val} {s : PState} {u : UState}
    (hd : 0 ≤ s.depth) (hr : Rel w.heap Bad s.objs u) (hf : Fit w env Bad (.set i xs)) :
    SimRun w cfg (restoreStep env rs2) Bad (.set i xs) s (Pickler.flattenBy w cfg fl (.set i xs) s) u := by
  intro r s' hrun
  simp only [Pickler.flattenBy, hm.unpicklable, if_true] at hrun
  rw [bind_run] at hrun
  cases hmm : mapM fl xs s with
  | none => rw [hmm] at hrun; cases hrun
  | some p =>
    obtain ⟨r1, s1⟩ := p
    have hok := hf.1.1
    simp only [ValOk] at hok
    obtain ⟨js, vs, u2, e1, e2, hstep, hiso⟩ := simSetLoop h xs [] [] s u r1 s1 hd hf.set hr
      (hashables_mem hok.2.1) (by simpa using hok.2.2) (by simp [VIsos]) hmm
    subst e1
    rw [hmm] at hrun
    simp only [pure_run] at hrun
    cases hrun
    refine ⟨.obj [(Tags.SET, .arr js)], .set (u2.nextId + 1) vs, { u2 with nextId := u2.nextId + 1 }, rfl, ?_, ?_, ?_⟩
    · change (PyM.tryCatch (setLoop rs2 [] js) _ _ >>= fun vs => fresh >>= fun n => (pure (.set n vs) : U Val)) u = _
      have : PyM.tryCatch (setLoop rs2 [] js) (· == .typeError) (fun _ => pure []) u = some (.ok vs, u2) := by
        simp only [PyM.tryCatch, e2]
      rw [bind_ok this]
      rfl
    · exact hstep.trans (Step.same hstep.rel rfl rfl rfl rfl rfl rfl) (by simp)
    · simp only [VIso]
      simpa using hiso

/-! ### classes, functions, modules -/

theorem simType {n : Str} {s : PState} {u : UState} (hr : Rel w.heap Bad s.objs u)
    (hf : Fit w env Bad (.type n)) :
    SimRun w cfg (restoreStep env rs2) Bad (.type n) s (Pickler.flattenBy w cfg fl (.type n) s) u := by
  intro r s' hrun
  have hl := hf.1.1
  simp only [ValOk] at hl
  simp only [Pickler.flattenBy, pure_run] at hrun
  cases hrun
  refine ⟨_, .type n, { u with log := u.log ++ [.imp n] }, rfl, ?_, Step.same hr rfl rfl rfl rfl rfl rfl, by simp [VIso]⟩
  change (emit (.imp n) >>= fun _ => (pure (env.loadclass n) : U _) >>= fun c => match c with
    | some v => (pure v : U Val)
    | none => raw (.obj [(Tags.TYPE, .str n)])) u = _
  rw [bind_ok (emit_run _ _)]
  rw [hl]
  rfl

theorem simFunc (hm : Matching w cfg env) {n : Str} {s : PState} {u : UState} (hr : Rel w.heap Bad s.objs u)
    (hf : Fit w env Bad (.func n)) :
    SimRun w cfg (restoreStep env rs2) Bad (.func n) s (Pickler.flattenBy w cfg fl (.func n) s) u := by
  intro r s' hrun
  have hl := hf.1.1
  simp only [ValOk] at hl
  simp only [Pickler.flattenBy, pure_run, hm.unpicklable, if_true] at hrun
  cases hrun
  refine ⟨_, .func n, { u with log := u.log ++ [.imp n] }, rfl, ?_, Step.same hr rfl rfl rfl rfl rfl rfl, by simp [VIso]⟩
  change (emit (.imp n) >>= fun _ => (pure (env.loadclass n) : U _) >>= fun c => (pure (c.getD .none) : U Val)) u = _
  rw [bind_ok (emit_run _ _)]
  rw [hl]
  rfl

theorem Rel.regMod {hS : Heap} {P : List Ident} {u : UState} (r : Rel hS Bad P u) {n : Str} (hn : Ident.mod n ∉ P)
    (l : List Event) :
    Rel hS Bad (P ++ [.mod n]) { u with log := l, idx := u.idx ++ [(.mod n, u.objs.length)], objs := u.objs ++ [.module n] } := by
  refine ⟨by simp [r.len], ?_, ?_, ?_, ?_, ?_, ?_, ?_, ?_, ?_, ?_, ?_⟩
  · rw [List.nodup_append]
    exact ⟨r.nodup, by simp, fun x hx y hy => by simp at hy; subst hy; exact fun e => hn (e ▸ hx)⟩
  · intro k a hka
    rcases get_append_one hka with h | ⟨h, h'⟩
    · obtain ⟨b, e1, e2⟩ := r.addr k a h
      exact ⟨b, by simp only []; rw [List.getElem?_append_left (get_lt e1)]; exact e1, e2⟩
    · cases h'
  · intro k n' hkn
    rcases get_append_one hkn with h | ⟨h, h'⟩
    · have := r.mod k n' h
      simp only []; rw [List.getElem?_append_left (get_lt this)]; exact this
    · injection h' with h'; subst h'; simp [h, r.len]
  · intro k b hkb
    rcases get_append_one hkb with h | ⟨h, h'⟩
    · exact r.lt _ _ h
    · cases h'
  · intro k k' b h1 h2
    rcases get_append_one h1 with h1 | ⟨h1, h1'⟩ <;> rcases get_append_one h2 with h2 | ⟨h2, h2'⟩
    · exact r.inj _ _ _ h1 h2
    · cases h2'
    · cases h1'
    · omega
  · intro b k h
    simp only [] at h
    rw [idxGet_append] at h
    cases hg : idxGet (.addr b) u.idx with
    | some n => exact r.idxAddr _ _ hg
    | none => rw [hg] at h; simp at h
  · intro n' k h
    simp only [] at h
    rw [idxGet_append] at h
    cases hg : idxGet (.mod n') u.idx with
    | some n => exact List.mem_append_left _ (r.idxMod _ _ hg)
    | none =>
      rw [hg] at h
      by_cases e : Ident.mod n = Ident.mod n'
      · injection e with e; subst e; simp
      · simp [e] at h
  · intro x hx
    exact List.mem_append_left _ (r.bad x hx)
  · intro x hx
    exact List.mem_append_left _ (r.serve x hx)
  · intro x hx
    simp only [List.mem_append, List.mem_singleton] at hx
    rcases hx with hx | hx
    · exact List.mem_append_left _ (r.own x hx)
    · cases hx
  · intro k x b hk hb h1 h2
    rcases get_append_one hk with h | ⟨_, h⟩
    · rcases get_append_one hb with h' | ⟨h', _⟩
      · refine (r.filled k x b h h' h1 h2).mono ?_ (Or.inr rfl)
        rintro y c ⟨q1, j, q2, q3⟩
        exact ⟨q1, j, prefix_get (List.prefix_append _ _) q2, prefix_get (List.prefix_append _ _) q3⟩
      · have := get_lt h
        have := r.len
        omega
    · cases h

theorem simModule (hm : Matching w cfg env) {n : Str} {s : PState} {u : UState} (hr : Rel w.heap Bad s.objs u)
    (hf : Fit w env Bad (.module n)) :
    SimRun w cfg (restoreStep env rs2) Bad (.module n) s (Pickler.flattenBy w cfg fl (.module n) s) u := by
  have hl := hf.1.1
  simp only [ValOk] at hl
  have e : Pickler.flattenBy w cfg fl (.module n) = (Pickler.mkref cfg (.mod n) >>= fun new =>
      if new then (pure (.obj [(Tags.MODULE, .str (n ++ 47 :: n))]) : P _) else Pickler.getref (.mod n)) := by
    simp only [Pickler.flattenBy, Pickler.refObjInstance, Pickler.flattenModule, hm.unpicklable, if_true]
  rw [e]
  intro r s' hrun
  by_cases hmem : Ident.mod n ∈ s.objs
  · rw [bind_ok (mkref_old hm hmem)] at hrun
    simp only [Bool.false_eq_true, if_false] at hrun
    rw [getref_run hmem] at hrun
    injection hrun with hrun
    injection hrun with h1 h2
    subst h1 h2
    exact ⟨_, .module n, u, rfl, restore_id _ u _ (hr.mod _ _ (idxOf_get hmem)), Step.refl hr, by simp [VIso]⟩
  · rw [bind_ok (mkref_new hm hmem)] at hrun
    simp only [if_true, pure_run] at hrun
    cases hrun
    have hi : idxGet (.mod n) u.idx = none := by
      cases h : idxGet (.mod n) u.idx with
      | none => rfl
      | some k => exact absurd (hr.idxMod _ _ h) hmem
    refine ⟨_, .module n, { u with log := u.log ++ [.imp (n ++ 47 :: n)], idx := u.idx ++ [(.mod n, u.objs.length)], objs := u.objs ++ [.module n] }, rfl, ?_, ?_, by simp [VIso]⟩
    · change (emit (.imp (n ++ 47 :: n)) >>= fun _ => (ofExcept (env.loadmodule (n ++ 47 :: n)) : U _) >>= fun r => mkref (r.getD .none)) u = _
      rw [bind_ok (emit_run _ _), hl, bind_ok (ofExcept_run _ _)]
      simp only [Option.getD, mkref, Val.ident, hi]
    · refine ⟨rfl, by simp, hr.regMod hmem _, ⟨Nat.le_refl _, fun _ _ _ => rfl, by simp, ?_, rfl, fun _ _ h => h⟩, ?_, fun x hx => Or.inl (by simpa using hx)⟩
      · intro i k h
        simp only []
        rw [idxGet_append, h]; rfl
      · intro k a hk ha
        rcases get_append_one ha with h | ⟨_, h'⟩
        · have := get_lt h; omega
        · cases h'

end JP.Sim
