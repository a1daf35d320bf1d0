import Verif.Proofs.SimTuple
import Verif.Proofs.SimDate
/-!
# The round trip: all cases together
-/
namespace JP.Sim
open JP PyM Unpickler

variable {w : World} {cfg : PCfg} {env : UEnv}
variable {Bad : Ctx}
variable {fl : Val → P Json} {rs rs2 rs3 : Json → U Val}
variable {s : PState} {u : UState}

theorem b85_back (b : Bytes) : restoreBase85 [(Tags.B85, .str (b85encode b))] = .ok b := by
  change Except.ok (if utf8ok (b85encode b) then b85decode (b85encode b) else []) = _
  rw [if_pos (utf8ok_of_ascii (b85encode_ascii b)), b85decode_encode]

theorem b64_back (b : Bytes) : restoreBase64 [(Tags.B64, .str (b64encode b))] = .ok b := by
  change Except.ok (if utf8ok (b64encode b) then b64decode (b64encode b) else []) = _
  rw [if_pos (utf8ok_of_ascii (b64encode_ascii b)), b64decode_encode]

theorem restore_bytes (cfg : PCfg) (env : UEnv) (rs : Json → U Val) (b : Bytes) (u : UState) :
    restoreStep env rs (Pickler.flattenBytestring cfg b) u = some (.ok (.bytes (u.nextId + 1) b), { u with nextId := u.nextId + 1 }) := by
  unfold Pickler.flattenBytestring
  split
  · change (PyM.ofExcept (restoreBase85 [(Tags.B85, .str (b85encode b))]) >>= fun b => fresh >>= fun n => (pure (.bytes n b) : U Val)) u = _
    rw [b85_back]
    rfl
  · change (PyM.ofExcept (restoreBase64 [(Tags.B64, .str (b64encode b))]) >>= fun b => fresh >>= fun n => (pure (.bytes n b) : U Val)) u = _
    rw [b64_back]
    rfl

theorem restore_bytearray (cfg : PCfg) (env : UEnv) (rs : Json → U Val) (b : Bytes) (u : UState) :
    restoreStep env rs (.obj [(Tags.BYTEARRAY, Pickler.flattenBytestring cfg b)]) u =
      some (.ok (.bytearray (u.nextId + 1) b), { u with nextId := u.nextId + 1 }) := by
  change (PyM.ofExcept (restoreBytearray [(Tags.BYTEARRAY, Pickler.flattenBytestring cfg b)]) >>= fun b => fresh >>= fun n => (pure (.bytearray n b) : U Val)) u = _
  have e : restoreBytearray [(Tags.BYTEARRAY, Pickler.flattenBytestring cfg b)] = .ok b := by
    unfold Pickler.flattenBytestring
    split
    · exact b85_back b
    · exact b64_back b
  rw [e]
  rfl

theorem simScalar (hm : Matching w cfg env) {n : Nat} {v : Val} (hc : container v = false) (hr : Rel w.heap Bad s.objs u) :
    SimRun w cfg (restoreStep env rs) Bad v s (Pickler.flatten w cfg (n + 1) v s) u := by
  intro r s' hrun
  cases v with
  | none =>
    simp only [Pickler.flatten, Pickler.flattenStep, Pickler.flattenImpl, pure_run] at hrun
    cases hrun
    exact ⟨_, _, _, rfl, rfl, Step.refl hr, trivial⟩
  | bool b =>
    simp only [Pickler.flatten, Pickler.flattenStep, Pickler.flattenImpl, pure_run] at hrun
    cases hrun
    exact ⟨_, _, _, rfl, rfl, Step.refl hr, rfl⟩
  | int b =>
    simp only [Pickler.flatten, Pickler.flattenStep, Pickler.flattenImpl, pure_run] at hrun
    cases hrun
    exact ⟨_, _, _, rfl, rfl, Step.refl hr, rfl⟩
  | float b =>
    simp only [Pickler.flatten, Pickler.flattenStep, Pickler.flattenImpl, pure_run] at hrun
    cases hrun
    exact ⟨_, _, _, rfl, rfl, Step.refl hr, rfl⟩
  | str b =>
    simp only [Pickler.flatten, Pickler.flattenStep, Pickler.flattenImpl, pure_run] at hrun
    cases hrun
    exact ⟨_, _, _, rfl, rfl, Step.refl hr, rfl⟩
  | bytes l b =>
    simp only [Pickler.flatten, Pickler.flattenStep, Pickler.flattenImpl, Pickler.cached, hm.unpicklable, hm.makeRefs, Bool.and_self, if_true, pure_run] at hrun
    cases hrun
    exact ⟨_, _, _, rfl, restore_bytes cfg env rs b u, Step.same hr rfl rfl rfl rfl rfl rfl, rfl⟩
  | bytearray l b =>
    simp only [Pickler.flatten, Pickler.flattenStep, Pickler.flattenImpl, Pickler.cached, hm.unpicklable, hm.makeRefs, Bool.and_self, if_true, pure_run] at hrun
    cases hrun
    exact ⟨_, _, _, rfl, restore_bytearray cfg env rs b u, Step.same hr rfl rfl rfl rfl rfl rfl, rfl⟩
  | _ => simp [container] at hc

/-- every kind of container -/
theorem simBy (hm : Matching w cfg env) (hkf : KeyFl cfg env fl) (h : Sim w cfg env fl (restoreStep env rs3)) (h3 : Sim w cfg env fl rs3)
    (hreg : RegOk w env fl) (hre : ReFl w env fl) {v : Val} (hc : container v = true) (hd : 0 ≤ s.depth)
    (hr : Rel w.heap Bad s.objs u) (hf : Fit w env Bad v) :
    SimRun w cfg (restoreStep env (restoreStep env rs3)) Bad v s (Pickler.flattenBy w cfg fl v s) u := by
  cases v with
  | tuple l xs => exact simTuple hm h hd hr hf
  | set l xs => exact simSet hm h hd hr hf
  | type n => exact simType hr hf
  | func n => exact simFunc hm hr hf
  | module n => exact simModule hm hr hf
  | lambda n => exact absurd hf.1.1 (by simp [ValOk])
  | ref a =>
    obtain ⟨o, ho, hok⟩ := supported_cell hf.1
    cases hok with
    | list _ => exact simList hm h ho hd hr hf
    | dict _ => exact simDict hm hkf h ho hd hr hf
    | @inst i hi =>
      by_cases hb : i.info.base = .tuple
      · exact simTupleInst hm h hreg hre ho hi hb hd hr hf
      · exact simInst hm hkf h h3 ho hi hb hd hr hf
    | @handled i hi =>
      by_cases hdt : DateOk env i
      · exact simDate hm hkf h hre ho hi hdt hd hr hf
      · exact simHandled hm h ho hi hdt hd hr hf
    | reduced hi => exact simReduced hm h (fun _ => rfl) ho hi hd hr hf
  | _ => simp [container] at hc

theorem simStep (hm : Matching w cfg env) {n : Nat} (h : Sim w cfg env (Pickler.flatten w cfg n) (restoreStep env rs3))
    (h3 : Sim w cfg env (Pickler.flatten w cfg n) rs3) (hreg : RegOk w env (Pickler.flatten w cfg n)) :
    Sim w cfg env (Pickler.flatten w cfg (n + 1)) (restoreStep env (restoreStep env rs3)) := by
  intro Bad v s u hd hs hn hr
  cases hc : container v with
  | false => exact simScalar hm hc hr
  | true =>
    intro r s' hrun
    obtain ⟨r1, s1, e1, e2⟩ := flatten_container hm hc hrun
    obtain ⟨j, x, u', f1, f2, f3, f4⟩ := simBy (s := { s with depth := s.depth + 1, seen := s.seen ++ [v] }) hm (keyFl_flatten hm n) h h3 hreg (reFl_flatten hm n) hc
      (by simp only []; omega) hr ⟨hs, hn⟩ r1 s1 e1
    obtain ⟨g1, g2⟩ := e2 j f1
    have hdep : s1.depth = s.depth + 1 := f3.depth
    rw [popped hd hdep] at g2
    subst g2
    exact ⟨j, x, u', g1, f2, f3.congr rfl rfl rfl, f4⟩

theorem regOk_step (hm : Matching w cfg env) {n : Nat} (h : Sim w cfg env (Pickler.flatten w cfg n) (restoreStep env rs3))
    (h3 : Sim w cfg env (Pickler.flatten w cfg n) rs3) (hreg : RegOk w env (Pickler.flatten w cfg n)) :
    RegOk w env (Pickler.flatten w cfg (n + 1)) := by
  intro Bad v s u r s' hd hf hr hrun
  have ht := simStep hm h h3 hreg Bad v s u hd hf.1 hf.2 hr r s' hrun
  cases hc : container v with
  | false => cases v <;> simp [container] at hc <;> trivial
  | true =>
    obtain ⟨r1, s1, e1, e2⟩ := flatten_container hm hc hrun
    obtain ⟨j, x, u', f1, f2, f3, f4⟩ := simBy (s := { s with depth := s.depth + 1, seen := s.seen ++ [v] }) hm (keyFl_flatten hm n) h h3 hreg (reFl_flatten hm n) hc
      (by simp only []; omega) hr hf r1 s1 e1
    obtain ⟨g1, g2⟩ := e2 j f1
    have hdep : s1.depth = s.depth + 1 := f3.depth
    rw [popped hd hdep] at g2
    have hobj : s'.objs = s1.objs := by rw [g2]
    rw [hobj]
    cases v with
    | tuple l xs =>
      simp only [Pickler.flattenBy] at e1
      rw [bind_run] at e1
      cases h2 : mapM (Pickler.flatten w cfg n) xs { s with depth := s.depth + 1, seen := s.seen ++ [.tuple l xs] } with
      | none => rw [h2] at e1; cases e1
      | some p =>
        obtain ⟨r2, s2⟩ := p
        have := regOk_mapM (Bad := Bad) h hreg xs { s with depth := s.depth + 1, seen := s.seen ++ [.tuple l xs] } u r2 s2 (by simp only []; omega) hf.tuple hr h2
        rw [h2] at e1
        cases r2 with
        | error e => cases e1; cases f1
        | ok js =>
          simp only [pure_run] at e1
          cases e1
          exact this
    | set l xs =>
      simp only [Pickler.flattenBy] at e1
      rw [bind_run] at e1
      cases h2 : mapM (Pickler.flatten w cfg n) xs { s with depth := s.depth + 1, seen := s.seen ++ [.set l xs] } with
      | none => rw [h2] at e1; cases e1
      | some p =>
        obtain ⟨r2, s2⟩ := p
        have := regOk_mapM (Bad := Bad) h hreg xs { s with depth := s.depth + 1, seen := s.seen ++ [.set l xs] } u r2 s2 (by simp only []; omega) hf.set hr h2
        rw [h2] at e1
        cases r2 with
        | error e => cases e1; cases f1
        | ok js =>
          simp only [pure_run] at e1
          cases e1
          exact this
    | type n => trivial
    | func n => trivial
    | lambda n => trivial
    | ref b =>
      have : ∃ b', x = .ref b' := by
        cases x <;> simp only [VIso] at f4
        exact ⟨_, rfl⟩
      obtain ⟨b', rfl⟩ := this
      simp only [VIso] at f4
      obtain ⟨_, k, hk, _⟩ := f4
      exact get_mem hk
    | module m =>
      simp only [Pickler.flattenBy, Pickler.refObjInstance, hm.unpicklable, if_true] at e1
      simp only [Regd]
      by_cases hmem : Ident.mod m ∈ s.objs
      · exact f3.objs.subset hmem
      · rw [bind_ok (mkref_new hm (s := { s with depth := s.depth + 1, seen := s.seen ++ [.module m] }) hmem)] at e1
        simp only [Pickler.flattenModule, hm.unpicklable, if_true, pure_run] at e1
        cases e1
        simp
    | _ => simp [container] at hc

/-- encoding and decoding are inverse to each other, for every amount of fuel -/
theorem sim_flatten (hm : Matching w cfg env) : ∀ n, (∀ m, 2 * n ≤ m → Sim w cfg env (Pickler.flatten w cfg n) (restore env m)) ∧
    RegOk w env (Pickler.flatten w cfg n)
  | 0 => ⟨fun m _ Bad v s u _ _ _ _ r s' h => by simp [Pickler.flatten] at h, fun Bad v s u r s' _ _ _ h => by simp [Pickler.flatten] at h⟩
  | n + 1 => by
    obtain ⟨ih, ihr⟩ := sim_flatten hm n
    refine ⟨fun m hmn => ?_, ?_⟩
    · obtain ⟨k, rfl⟩ : ∃ k, m = k + 2 := ⟨m - 2, by omega⟩
      exact simStep hm (ih (k + 1) (by omega)) (ih k (by omega)) ihr
    · exact regOk_step hm (rs3 := restore env (2 * n)) (ih (2 * n + 1) (by omega)) (ih (2 * n) (by omega)) ihr

theorem rel_init (h : Heap) (u : UState) : Rel h {} [] { u with objs := [], idx := [], proxies := [] } where
  len := rfl
  nodup := List.nodup_nil
  addr := fun k a h => by simp at h
  mod := fun k n h => by simp at h
  lt := fun k b h => by simp at h
  inj := fun k k' b h => by simp at h
  idxAddr := fun b k h => by simp [idxGet] at h
  idxMod := fun n k h => by simp [idxGet] at h
  bad := fun a h => by cases h
  serve := fun a h => by cases h
  own := fun x h => by cases h
  filled := fun k a b h => by simp at h

/-- the graph that has been rebuilt -/
theorem sameGraph_of_step {s1 : PState} {u' : UState} {v x : Val} {s0 : PState} {u0 : UState} (h0 : s0.objs = [])
    (h : Step w cfg [] {} s0 s1 u0 u') (hv : VIso (Rof {} s1.objs u'.objs) v x) :
    SameGraph (orderOf cfg) (handledOf w) w.heap v u'.heap x := by
  refine ⟨Rof {} s1.objs u'.objs, fun a b b' => h.rel.func, fun a a' b => h.rel.inje, hv, ?_⟩
  intro a b hab
  obtain ⟨_, k, h1, h2⟩ := hab
  obtain ⟨b', o, o', g1, g2, g3, _, _, g4⟩ := h.done k a (by rw [h0]; exact Nat.zero_le _) h1
  rw [h2] at g2
  cases g2
  exact ⟨o, o', g1, g3, g4⟩

/-- The root, before proxies are replaced: there are none. -/
theorem root_restored (hm : Matching w cfg env) {n : Nat} {v : Val} (hs : Supported w.heap env v) {s s' : PState} {r}
    (hrun : Pickler.flattenTop w cfg n v true s = some (r, s')) :
    ∃ j, r = .ok j ∧ ∀ (u : UState) m, 2 * n ≤ m → ∃ x u', restore env m j { u with objs := [], idx := [], proxies := [] } = some (.ok x, u') ∧
      u'.proxies = [] ∧ SameGraph (orderOf cfg) (handledOf w) w.heap v u'.heap x ∧
      (∀ b : Nat, b < u.heap.length → u'.heap[b]? = u.heap[b]?) ∧ ∀ (b : Nat) n, u'.heap[b]? = some (.idproxy n) → u.heap[b]? = some (.idproxy n) := by
  have e0 : Pickler.flattenTop w cfg n v true s = Pickler.flatten w cfg n v {} := rfl
  rw [e0] at hrun
  cases n with
  | zero => simp [Pickler.flatten] at hrun
  | succ n =>
    have hfit : Fit w env {} v := ⟨hs.1, NoReach.nil hs.2⟩
    -- what the decoder does, for every amount of fuel
    have key : ∀ m, 2 * (n + 1) ≤ m → ∀ u : UState, ∃ j x u', r = .ok j ∧
        restore env m j { u with objs := [], idx := [], proxies := [] } = some (.ok x, u') ∧
        u'.proxies = [] ∧ SameGraph (orderOf cfg) (handledOf w) w.heap v u'.heap x ∧
        (∀ b : Nat, b < u.heap.length → u'.heap[b]? = u.heap[b]?) ∧ ∀ (b : Nat) n, u'.heap[b]? = some (.idproxy n) → u.heap[b]? = some (.idproxy n) := by
      intro m hmn u
      obtain ⟨k, rfl⟩ : ∃ k, m = k + 2 := ⟨m - 2, by omega⟩
      obtain ⟨ih, ihr⟩ := sim_flatten (w := w) (cfg := cfg) (env := env) hm n
      cases hc : container v with
      | false =>
        obtain ⟨j, x, u', f1, f2, f3, f4⟩ := simScalar (rs := restore env (k + 1)) (s := {}) hm hc (rel_init w.heap u) r s' hrun
        exact ⟨j, x, u', f1, f2, f3.ext.proxies, sameGraph_of_step (s0 := {}) rfl f3 f4, (fun b hb => f3.ext.cells b hb (by simp)), fun b n hb => f3.ext.idp b n hb⟩
      | true =>
        obtain ⟨r1, s1, e1, e2⟩ := flatten_container hm hc hrun
        obtain ⟨j, x, u', f1, f2, f3, f4⟩ := simBy (s := { ({} : PState) with depth := ({} : PState).depth + 1, seen := ({} : PState).seen ++ [v] }) hm
          (keyFl_flatten hm n) (rs3 := restore env k) (ih (k + 1) (by omega)) (ih k (by omega)) ihr (reFl_flatten hm n) hc
          (by change (0 : Int) ≤ -1 + 1; decide) (rel_init w.heap u) hfit r1 s1 e1
        obtain ⟨g1, g2⟩ := e2 j f1
        exact ⟨j, x, u', g1, f2, f3.ext.proxies, sameGraph_of_step rfl f3 f4, (fun b hb => f3.ext.cells b hb (by simp)), fun b n hb => f3.ext.idp b n hb⟩
    obtain ⟨j, _, _, e1, _⟩ := key (2 * (n + 1)) (Nat.le_refl _) {}
    refine ⟨j, e1, fun u m hmn => ?_⟩
    obtain ⟨j', x, u', e1', e2, e3, e4, e5⟩ := key m hmn u
    rw [e1] at e1'
    injection e1' with e1'
    subst e1'
    exact ⟨x, u', e2, e3, e4, e5⟩

/-- The root: whatever the states of the two contexts before, flattening a supported value with a reset
succeeds, and restoring the document gives the same graph. -/
theorem root (hm : Matching w cfg env) {n : Nat} {v : Val} (hs : Supported w.heap env v) {s s' : PState} {r}
    (hrun : Pickler.flattenTop w cfg n v true s = some (r, s')) :
    ∃ j, r = .ok j ∧ ∀ (u : UState) m, 2 * n ≤ m → ∃ x u', restoreTop env m j true u = some (.ok x, u') ∧
      u'.proxies = [] ∧ SameGraph (orderOf cfg) (handledOf w) w.heap v u'.heap x ∧
      (∀ b : Nat, b < u.heap.length → u'.heap[b]? = u.heap[b]?) ∧ ∀ (b : Nat) n, u'.heap[b]? = some (.idproxy n) → u.heap[b]? = some (.idproxy n) := by
  obtain ⟨j, e1, key⟩ := root_restored hm hs hrun
  refine ⟨j, e1, fun u m hmn => ?_⟩
  obtain ⟨x, u', e2, e3, e4, e5⟩ := key u m hmn
  refine ⟨x, { u' with proxies := [] }, ?_, rfl, e4, e5⟩
  unfold restoreTop
  rw [if_pos rfl, bind_ok (show reset u = some (.ok (), { u with objs := [], idx := [], proxies := [] }) from rfl), bind_ok e2]
  have : swapProxies u' = some (.ok (), { u' with proxies := [] }) := by
    unfold swapProxies
    rw [bind_ok (get_run _), e3]
    rfl
  rw [bind_ok this]
  rfl

end JP.Sim
