import Verif.Proofs.SimBodyDict
/-!
# Constructor arguments
-/
namespace JP.Sim
open JP PyM Unpickler

variable {w : World} {cfg : PCfg} {env : UEnv}
variable {Bad : Ctx}
variable {fl : Val → P Json} {rs rs2 rs3 : Json → U Val}
variable {a : Addr} {i i0 : Inst} {b : Nat} {s s2 : PState} {u : UState}

/-- bodies of all instances except those of tuple subclasses -/
theorem simBody (hm : Matching w cfg env) (hkf : KeyFl cfg env fl) (h : Sim w cfg env fl (restoreStep env rs3)) (h3 : Sim w cfg env fl rs3)
    {u3 : UState} {data : List (Str × Json)} (o : Open w env Bad a i i0 b s2 u3) (hdata : CtorKeys data) (hne : data ≠ [])
    (hnt : i.info.base ≠ .tuple) {r s3} (hrun : Pickler.flattenGetstate w cfg fl a i data s2 = some (r, s3)) :
    BodyGoal w cfg env (restoreStep env rs3) Bad i b s2 s3 u3 data r := by
  cases o.ok.body with
  | attrs q1 q2 q3 q4 q5 => exact body_plain hm h o q4 hdata.tags q1 q2 q3 q5 hrun
  | empty q1 q2 q3 q4 q5 q6 => exact body_empty h o q5 hne q1 q2 q3 q4 q6 hrun
  | slots q1 q2 q3 q4 q5 q6 q7 q8 q9 q10 => exact body_slots hm h o q5 hdata.tags q1 q2 q3 q4 q6 q7 q8 q9 q10 hrun
  | list q1 q2 q3 q4 q5 => exact body_seq hm h o q2 hdata.tags (hdata.not (by decide)) (Or.inl q1) q3 q4 q5 hrun
  | set q1 q2 q3 q4 q5 q6 q7 => exact body_seq hm h o q2 hdata.tags (hdata.not (by decide)) (Or.inr ⟨q1, q6, q7⟩) q3 q4 q5 hrun
  | dict q1 q2 q3 q4 q5 q6 q7 q8 q9 => exact body_dict hm hkf h h3 o q2 hdata q1 q3 q4 q5 q6 q7 q8 q9 hrun
  | tuple q1 => exact absurd q1 hnt
  | state q1 q2 q3 q4 q5 q6 q7 => exact body_state hm h o (hdata.not (by decide)) q2 q3 q4 q5 q6 q7 hrun
  | stateDict q1 q2 q3 q4 q5 q6 q7 q8 => exact body_stateDict hm h o (hdata.not (by decide)) q1 q2 q3 q4 q5 q6 q7 q8 hrun

/-- keys that do not interfere with the constructor arguments -/
def Rest (i : Inst) (ents : List (Str × Json)) : Prop :=
  (∀ k ∈ ents.map (·.1), k ≠ Tags.OBJECT ∧ k ≠ Tags.NEWARGS ∧ k ≠ Tags.NEWARGSEX ∧ k ≠ Tags.INITARGS) ∧
  (Tags.SEQ ∈ ents.map (·.1) → i.info.base ≠ .plain ∧ i.info.base ≠ .dict)

/-- the constructor arguments are found in the document -/
def CtorFind (env : UEnv) (i : Inst) (data : List (Str × Json)) (ja jk : Json) : Prop :=
  ∀ ents u, Rest i ents → ∃ lg, ctorArgs env (data ++ ents) u = some (.ok (ja, jk), { u with log := u.log ++ lg })

/-- the constructor arguments are restored -/
def CtorArgs (w : World) (cfg : PCfg) (rs : Json → U Val) (Bad : Ctx) (a : Addr) (i : Inst) (s s2 : PState) (u : UState)
    (ja jk : Json) : Prop :=
  ∀ lg, ∃ l ys kw u1 u2, restoreArg rs ja (proxU u lg) = some (.ok (.tuple l ys), u1) ∧ restoreArg rs jk u1 = some (.ok kw, u2) ∧
    Step w cfg [] (Bad.hold a) { s with objs := s.objs ++ [.addr a] } s2 (proxU u lg) u2 ∧
    i.info.newAccepts (ys.length + i.extraArgs) = true ∧ kwOk u2.heap kw = true ∧
    SameCtor (Rof (Bad.hold a) s2.objs u2.objs) i { cls := i.cls, info := i.info, newargs := .tuple l ys, newargsEx := (.tuple l ys, kw) } ∧
    (i.info.hasNewargsEx = false → i.info.hasNewargs = true → VIso (Rof (Bad.hold a) s2.objs u2.objs) i.newargs (.tuple l ys))

theorem iso_tuple {R : Addr → Addr → Prop} {l : Nat} {xs : List Val} {x : Val} (h : VIso R (.tuple l xs) x) :
    ∃ l' ys, x = .tuple l' ys ∧ VIsos R xs ys := by
  cases x <;> simp only [VIso] at h
  exact ⟨_, _, rfl, h⟩

theorem iso_ref {R : Addr → Addr → Prop} {d : Addr} {x : Val} (h : VIso R (.ref d) x) : ∃ d', x = .ref d' ∧ R d d' := by
  cases x <;> simp only [VIso] at h
  exact ⟨_, rfl, h⟩

theorem viSos_length {R : Addr → Addr → Prop} : ∀ {xs ys : List Val}, VIsos R xs ys → ys.length = xs.length
  | [], [], _ => rfl
  | _ :: xs, _ :: ys, h => by simp only [VIsos] at h; simp [viSos_length h.2]
  | [], _ :: _, h => by simp [VIsos] at h
  | _ :: _, [], h => by simp [VIsos] at h

/-- an empty document does not denote a tuple -/
theorem falsy_tuple {j : Json} {x : Val} {u' : UState} (hj : jsonTruthy j = false) (h : restoreStep env rs j u = some (.ok x, u')) :
    ∀ l ys, x ≠ .tuple l ys := by
  intro l ys e
  subst e
  cases j with
  | arr xs =>
    simp only [restoreStep] at h
    rw [bind_eq_ok] at h
    obtain ⟨y, _, _, h⟩ := h
    simp only [pure_run] at h
    cases h
  | obj kvs =>
    have : kvs = [] := by simpa [jsonTruthy] using hj
    subst this
    change restoreDict env rs [] u = _ at h
    unfold restoreDict at h
    rw [bind_eq_ok] at h
    obtain ⟨y, _, _, h⟩ := h
    rw [bind_eq_ok] at h
    obtain ⟨_, _, _, h⟩ := h
    split at h <;> cases h
  | _ => simp only [restoreStep, pure_run] at h; cases h

theorem kwArg_truthy {j : Json} (h : jsonTruthy j = true) : kwArg j = j := by
  unfold kwArg
  split
  · cases h
  · rfl

/-- string keys come back as string keys -/
theorem strKeys_iso {R : Addr → Addr → Prop} {keys : Bool} {kvs kvs' : List (Val × Val)} (h : kvs.all isStrKey = true)
    (hi : ItemsIso R (writeOrder keys kvs) kvs') : kvs'.all isStrKey = true := by
  have hw : (writeOrder keys kvs).all isStrKey = true := by
    rw [List.all_eq_true] at h ⊢
    intro kv hkv
    apply h
    cases keys
    · exact hkv
    · simp only [writeOrder, if_true, stringsFirst, List.mem_append, List.mem_filter] at hkv
      exact hkv.elim (·.1) (·.1)
  generalize writeOrder keys kvs = l at hw hi
  induction l generalizing kvs' with
  | nil =>
    cases kvs' with
    | nil => rfl
    | cons _ _ => exact hi.elim
  | cons kv l ih =>
    cases kvs' with
    | nil => exact hi.elim
    | cons kv' l' =>
      obtain ⟨⟨h1, _⟩, h3⟩ := hi
      simp only [List.all_cons, Bool.and_eq_true] at hw ⊢
      refine ⟨?_, ih hw.2 h3⟩
      obtain ⟨k, v⟩ := kv
      obtain ⟨k', v'⟩ := kv'
      cases k <;> simp only [isStrKey, Bool.false_eq_true, false_and] at hw
      cases k' <;> simp only [VIso] at h1
      rfl

/-- an empty document does not denote a dict with entries -/
theorem falsy_dict (hm : Matching w cfg env) {j : Json} {d d' : Addr} {kvs : List (Val × Val)} {s1 : PState} {u' : UState} (hj : jsonTruthy j = false)
    (hr : Rel w.heap Bad s.objs u) (hd : w.heap[d]? = some (.dict kvs)) (hk : kvs ≠ [])
    (h : restoreStep env rs j u = some (.ok (.ref d'), u')) (hst : Step w cfg [] Bad s s1 u u') (hR : Rof Bad s1.objs u'.objs d d') : False := by
  obtain ⟨o, o', k1, k2, k3⟩ := hst.rel.kind hR
  rw [hd] at k1
  cases k1
  cases j with
  | arr xs =>
    have : xs = [] := by simpa [jsonTruthy] using hj
    subst this
    change (restoreList rs (.ok []) >>= fun a => (pure (.ref a) : U Val)) u = _ at h
    have h2 : restoreList rs (.ok []) u = some (.ok u.heap.length, { regU u (.list []) with heap := (regU u (.list [])).heap.set u.heap.length (.list []) }) := by
      unfold restoreList
      rw [bind_ok (alloc_run _), bind_ok (reg_run hr _)]
      rfl
    rw [bind_ok h2] at h
    simp only [pure_run] at h
    cases h
    simp only [regU] at k2
    rw [List.getElem?_set_self (by simp)] at k2
    cases k2
    simp [SameKind] at k3
  | obj kvs' =>
    have : kvs' = [] := by simpa [jsonTruthy] using hj
    subst this
    have h2 : restoreStep env rs (.obj []) u = some (.ok (.ref u.heap.length), regU u (.dict [])) := by
      change restoreDict env rs [] u = _
      unfold restoreDict
      have hmk : mkrefUnlessV1 env u.heap.length { u with heap := u.heap ++ [.dict []] } = some (.ok (), regU u (.dict [])) := by
        unfold mkrefUnlessV1
        rw [hm.v1]
        simp only [Bool.false_eq_true, if_false]
        rw [bind_ok (reg_run hr _)]
        rfl
      rw [bind_ok (alloc_run _), bind_ok hmk]
      split <;> rfl
    rw [h2] at h
    cases h
    obtain ⟨_, k, e1, e2⟩ := hR
    simp only [regU] at e2
    rcases get_append_one e2 with e | ⟨e, _⟩
    · exact absurd (hr.lt _ _ e) (Nat.lt_irrefl _)
    · obtain ⟨b', o, o', q1, q2, q3, _, _, q6⟩ := hst.done k d (by rw [hr.len, e]; exact Nat.le_refl _) e1
      simp only [regU] at q2
      rw [e2] at q2
      cases q2
      rw [hd] at q1
      cases q1
      simp only [regU] at q3
      rw [List.getElem?_append_right (Nat.le_refl _)] at q3
      simp only [Nat.sub_self, List.getElem?_cons_zero, Option.some.injEq] at q3
      subst q3
      simp only [SameCell] at q6
      have hl := All2.length q6
      simp only [List.length_nil] at hl
      have : (orderOf cfg kvs).length = kvs.length := by
        unfold orderOf
        split
        · unfold stringsFirst
          rw [List.length_append, ← List.countP_eq_length_filter, ← List.countP_eq_length_filter]
          have := List.length_eq_countP_add_countP (fun kv : Val × Val => isStrV kv.1) (l := kvs)
          simp only [Bool.not_eq_true, Bool.decide_eq_false] at this
          omega
        · rfl
      rw [this] at hl
      exact hk (List.eq_nil_of_length_eq_zero hl)
  | _ => simp only [restoreStep, pure_run] at h; cases h

theorem dget_data {t : Str} {data ents : List (Str × Json)} (h : t ∉ ents.map (·.1)) : dget t (data ++ ents) = dget t data := by
  rw [dget_append, (dget_eq_none_iff _ _).2 h]
  cases dget t data <;> rfl

/-- the arguments are restored, with the placeholder in place -/
theorem simArg (h : Sim w cfg env fl (restoreStep env rs3)) (ha : w.heap[a]? = some (.inst i))
    (hf : Fit w env Bad (.ref a)) {l : Nat} {xs : List Val} (hx : .tuple l xs ∈ i.parts) (hok : ValsOk w.heap env xs)
    (hnr : ¬ Reach w.heap (.tuple l xs) a) {sA : PState} {u : UState} (hd : 0 ≤ sA.depth) (hr : Rel w.heap (Bad.hold a) sA.objs u) {r s1}
    (hrun : fl (.tuple l xs) sA = some (r, s1)) :
    ∃ j l' ys u1, r = .ok j ∧ jsonTruthy j = true ∧ restoreStep env rs3 j u = some (.ok (.tuple l' ys), u1) ∧
      Step w cfg [] (Bad.hold a) sA s1 u u1 ∧ VIsos (Rof (Bad.hold a) s1.objs u1.objs) xs ys := by
  have hfit : Fit w env (Bad.hold a) (.tuple l xs) := (hf.part ha (x := .tuple l xs) (by simpa [Obj.parts] using hx) (by simpa [ValOk] using hok) (fun _ e => by cases e)).bad hnr
  obtain ⟨j, x, u1, e1, e2, hstep, hiso⟩ := h (Bad.hold a) _ sA u hd hfit.1 hfit.2 hr r s1 hrun
  obtain ⟨l', ys, e3, hiso⟩ := iso_tuple hiso
  subst e3
  refine ⟨j, l', ys, u1, e1, ?_, e2, hstep, hiso⟩
  cases hj : jsonTruthy j with
  | true => rfl
  | false => exact absurd rfl (falsy_tuple hj e2 l' ys)

theorem restoreArg_truthy {j : Json} (h : jsonTruthy j = true) : restoreArg rs j = rs j := by
  unfold restoreArg
  rw [if_pos h]

theorem restoreArg_obj : restoreArg rs (.obj []) = pure (.tuple 0 []) := rfl
theorem restoreArg_arr : restoreArg rs (.arr []) = pure (.tuple 0 []) := rfl

/-- constructor arguments -/
theorem notState_kw (ha : w.heap[a]? = some (.inst i)) (hok : InstOk w.heap env a i) (hx : i.info.hasNewargsEx = true) {d : Addr}
    (hd : i.newargsEx.2 = .ref d) : ¬ StateOf w.heap env a d := by
  have key : NoState w.heap i → ¬ StateOf w.heap env a d := fun hn => notState_inst ha (Or.inr (Or.inr (Or.inr (savedState_none hn)))) d
  cases hok.body with
  | attrs _ _ _ q => exact key q
  | empty _ _ _ _ q => exact key q
  | slots _ _ _ _ q => exact key q
  | list _ q => exact key q
  | set _ q => exact key q
  | dict _ q => exact key q
  | tuple _ q => exact key q
  | state _ _ _ _ q => exact notState_inst ha (Or.inr (Or.inr (Or.inl q))) d
  | stateDict _ _ q1 q2 _ _ _ _ q =>
    rintro ⟨i', h1, _, _, _, h5⟩
    rw [ha] at h1
    cases h1
    have h6 : i.state = .ok (.ref d) := by
      unfold savedState at h5
      rw [q1, q2] at h5
      simp only [if_true] at h5
      split at h5
      · injection h5 with h5
        injection h5 with h5
        subst h5
        exact q2
      · cases h5
    rw [q2] at h6
    injection h6 with h6
    injection h6 with h6
    subst h6
    exact q hx hd

theorem simCtor (hm : Matching w cfg env) (h : Sim w cfg env fl (restoreStep env rs3)) (ha : w.heap[a]? = some (.inst i))
    (hok : InstOk w.heap env a i) (hd : 0 ≤ s.depth) (hr : Rel w.heap Bad s.objs u) (hmem : Ident.addr a ∉ s.objs) (hf : Fit w env Bad (.ref a)) {r s2}
    (hrun : (Pickler.flattenNewargs fl i [(Tags.OBJECT, .str i.cls)] >>= fun d => Pickler.flattenInitargs fl i d)
      { s with objs := s.objs ++ [.addr a] } = some (r, s2)) :
    ∃ data ja jk, r = .ok data ∧ CtorKeys data ∧ (∃ rest, data = (Tags.OBJECT, .str i.cls) :: rest) ∧ CtorFind env i data ja jk ∧
      CtorArgs w cfg (restoreStep env rs3) Bad a i s s2 u ja jk := by
  cases hok.ctor with
  | noArgs q1 q2 q3 q4 q5 q6 =>
    have e : (Pickler.flattenNewargs fl i [(Tags.OBJECT, .str i.cls)] >>= fun d => Pickler.flattenInitargs fl i d) =
        (pure [(Tags.OBJECT, .str i.cls)] : P _) := by
      simp [Pickler.flattenNewargs, Pickler.flattenInitargs, q1, q2, q3, pure_bind']
    rw [e] at hrun
    simp only [pure_run] at hrun
    cases hrun
    refine ⟨_, .arr [], .obj [], rfl, by simp [CtorKeys], ⟨_, rfl⟩, ?_, ?_⟩
    · intro ents u' hrest
      have n1 : dget Tags.NEWARGSEX ([(Tags.OBJECT, .str i.cls)] ++ ents) = none := by
        rw [dget_data (fun hm => (hrest.1 _ hm).2.2.1 rfl)]; rfl
      have n2 : dget Tags.NEWARGS ([(Tags.OBJECT, .str i.cls)] ++ ents) = none := by
        rw [dget_data (fun hm => (hrest.1 _ hm).2.1 rfl)]; rfl
      have n3 : dget Tags.INITARGS ([(Tags.OBJECT, .str i.cls)] ++ ents) = none := by
        rw [dget_data (fun hm => (hrest.1 _ hm).2.2.2 rfl)]; rfl
      have n4 : dget Tags.OBJECT ([(Tags.OBJECT, .str i.cls)] ++ ents) = some (.str i.cls) := by
        rw [dget_data (fun hm => (hrest.1 _ hm).1 rfl)]; rfl
      unfold ctorArgs
      rw [n1]
      simp only []
      unfold getargs
      rw [n2, n3, n4]
      simp only []
      cases hs : dget Tags.SEQ ([(Tags.OBJECT, .str i.cls)] ++ ents) with
      | none => exact ⟨[], by simp [pure_bind', pure_run]⟩
      | some sq =>
        have hseq : Tags.SEQ ∈ ents.map (·.1) := by
          refine Classical.byContradiction fun hn => ?_
          rw [dget_data hn] at hs
          revert hs
          rw [dget_cons, if_neg (by decide)]
          intro hs
          cases hs
        obtain ⟨b1, b2⟩ := hrest.2 hseq
        have hnum : i.info.numFields = none := by
          refine q5 ?_
          cases hb : i.info.base <;> simp_all
        refine ⟨[.imp i.cls], ?_⟩
        simp only [loadclassJ, hok.load, bind_assoc', pure_bind', hok.info, hnum]
        rw [bind_ok (emit_run _ _)]
        rfl
    · intro lg
      refine ⟨0, [], .tuple 0 [], proxU u lg, proxU u lg, rfl, rfl, Step.refl (hr.prox hmem lg), by simpa using q6, rfl, ⟨rfl, rfl, ?_, ?_, ?_⟩, ?_⟩
      · intro _ h'; rw [q1] at h'; cases h'
      · intro h'; rw [q2] at h'; cases h'
      · intro _ _ h'; rw [q3] at h'; cases h'
      · intro _ h'; rw [q1] at h'; cases h'
  | @newargs l xs q1 q2 q3 q4 q5 q6 q7 =>
    have e : (Pickler.flattenNewargs fl i [(Tags.OBJECT, .str i.cls)] >>= fun d => Pickler.flattenInitargs fl i d) =
        (fl (.tuple l xs) >>= fun x => (pure [(Tags.OBJECT, .str i.cls), (Tags.NEWARGS, x)] : P _)) := by
      simp only [Pickler.flattenNewargs, Pickler.flattenInitargs, hok.tidy.errs, outcome, ofExcept_ok', q1, q2, q3, q4, bind_assoc', pure_bind', Bool.false_eq_true, if_false, if_true]
      rfl
    rw [e, bind_run] at hrun
    have hx : Val.tuple l xs ∈ i.parts := by simp [Inst.parts, q4]
    have hnr : ¬ Reach w.heap (.tuple l xs) a := by rw [← q4]; exact q6
    cases hfl : fl (.tuple l xs) { s with objs := s.objs ++ [.addr a] } with
    | none => rw [hfl] at hrun; cases hrun
    | some p =>
      obtain ⟨r1, s1⟩ := p
      have hsim := fun lg => simArg h ha hf hx q5 hnr (sA := { s with objs := s.objs ++ [.addr a] }) (u := proxU u lg) hd (hr.prox hmem lg) hfl
      obtain ⟨j, _, _, _, e1, ht, _⟩ := hsim []
      subst e1
      rw [hfl] at hrun
      simp only [pure_run] at hrun
      cases hrun
      refine ⟨_, j, .obj [], rfl, by simp [CtorKeys], ⟨_, rfl⟩, ?_, ?_⟩
      · intro ents u' hrest
        refine ⟨[], ?_⟩
        unfold ctorArgs
        rw [dget_data (fun hm => (hrest.1 _ hm).2.2.1 rfl)]
        have n1 : dget Tags.NEWARGSEX [(Tags.OBJECT, Json.str i.cls), (Tags.NEWARGS, j)] = none := rfl
        rw [n1]
        simp only []
        unfold getargs
        rw [dget_data (fun hm => (hrest.1 _ hm).2.1 rfl)]
        have n2 : dget Tags.NEWARGS [(Tags.OBJECT, Json.str i.cls), (Tags.NEWARGS, j)] = some j := rfl
        rw [n2]
        simp [pure_bind', pure_run]
      · intro lg
        obtain ⟨j', l', ys, u1, e1, ht', e2, hstep, hiso⟩ := hsim lg
        injection e1 with e1
        subst e1
        refine ⟨l', ys, .tuple 0 [], u1, u1, by rw [restoreArg_truthy ht']; exact e2, rfl, hstep, by rw [viSos_length hiso]; exact q7, rfl, ⟨rfl, rfl, ?_, ?_, ?_⟩, ?_⟩
        · intro _ _; rw [q4]; simp only [VIso]; exact hiso
        · intro h'; rw [q2] at h'; cases h'
        · intro _ _ h'; rw [q3] at h'; cases h'
        · intro _ _; rw [q4]; simp only [VIso]; exact hiso
  | @initargs l xs q1 q2 q3 q4 q5 q6 q7 =>
    have e : (Pickler.flattenNewargs fl i [(Tags.OBJECT, .str i.cls)] >>= fun d => Pickler.flattenInitargs fl i d) =
        (fl (.tuple l xs) >>= fun x => (pure [(Tags.OBJECT, .str i.cls), (Tags.INITARGS, x)] : P _)) := by
      simp only [Pickler.flattenNewargs, Pickler.flattenInitargs, hok.tidy.errs, outcome, ofExcept_ok', q1, q2, q3, q4, pure_bind', Bool.false_eq_true, if_false, if_true]
      rfl
    rw [e, bind_run] at hrun
    have hx : Val.tuple l xs ∈ i.parts := by simp [Inst.parts, q4]
    have hnr : ¬ Reach w.heap (.tuple l xs) a := by rw [← q4]; exact q6
    cases hfl : fl (.tuple l xs) { s with objs := s.objs ++ [.addr a] } with
    | none => rw [hfl] at hrun; cases hrun
    | some p =>
      obtain ⟨r1, s1⟩ := p
      have hsim := fun lg => simArg h ha hf hx q5 hnr (sA := { s with objs := s.objs ++ [.addr a] }) (u := proxU u lg) hd (hr.prox hmem lg) hfl
      obtain ⟨j, _, _, _, e1, ht, _⟩ := hsim []
      subst e1
      rw [hfl] at hrun
      simp only [pure_run] at hrun
      cases hrun
      refine ⟨_, j, .obj [], rfl, by simp [CtorKeys], ⟨_, rfl⟩, ?_, ?_⟩
      · intro ents u' hrest
        refine ⟨[], ?_⟩
        unfold ctorArgs
        rw [dget_data (fun hm => (hrest.1 _ hm).2.2.1 rfl)]
        have n1 : dget Tags.NEWARGSEX [(Tags.OBJECT, Json.str i.cls), (Tags.INITARGS, j)] = none := rfl
        rw [n1]
        simp only []
        unfold getargs
        rw [dget_data (fun hm => (hrest.1 _ hm).2.1 rfl), dget_data (fun hm => (hrest.1 _ hm).2.2.2 rfl)]
        have n2 : dget Tags.NEWARGS [(Tags.OBJECT, Json.str i.cls), (Tags.INITARGS, j)] = none := rfl
        have n3 : dget Tags.INITARGS [(Tags.OBJECT, Json.str i.cls), (Tags.INITARGS, j)] = some j := rfl
        rw [n2, n3]
        simp [pure_bind', pure_run]
      · intro lg
        obtain ⟨j', l', ys, u1, e1, ht', e2, hstep, hiso⟩ := hsim lg
        injection e1 with e1
        subst e1
        refine ⟨l', ys, .tuple 0 [], u1, u1, by rw [restoreArg_truthy ht']; exact e2, rfl, hstep, by rw [viSos_length hiso]; exact q7, rfl, ⟨rfl, rfl, ?_, ?_, ?_⟩, ?_⟩
        · intro _ h'; rw [q2] at h'; cases h'
        · intro h'; rw [q3] at h'; cases h'
        · intro _ _ _; rw [q4]; simp only [VIso]; exact hiso
        · intro _ h'; rw [q2] at h'; cases h'
  | @newargsEx l xs d kvs q1 q3 q4 q5 q6 qs q7 q8 q9 q10 =>
    have e : (Pickler.flattenNewargs fl i [(Tags.OBJECT, .str i.cls)] >>= fun d => Pickler.flattenInitargs fl i d) =
        (fl (.tuple l xs) >>= fun x => fl (.ref d) >>= fun y => (pure [(Tags.OBJECT, .str i.cls), (Tags.NEWARGSEX, .arr [x, y])] : P _)) := by
      simp only [Pickler.flattenNewargs, Pickler.flattenInitargs, hok.tidy.errs, outcome, ofExcept_ok', q1, q3, q4, bind_assoc', pure_bind', Bool.false_eq_true, if_false, if_true]
      rfl
    rw [e, bind_run] at hrun
    have hx : Val.tuple l xs ∈ i.parts := by simp [Inst.parts, q4]
    have hy : Val.ref d ∈ i.parts := by simp [Inst.parts, q4]
    have hnr : ¬ Reach w.heap (.tuple l xs) a := by have := q8; rw [q4] at this; exact this
    have hnr2 : ¬ Reach w.heap (.ref d) a := by have := q9; rw [q4] at this; exact this
    have hfit2 : Fit w env (Bad.hold a) (.ref d) := (hf.part ha (by simpa [Obj.parts] using hy) (by simp [ValOk])
      (fun d' e => by injection e with e; subst e; exact notState_kw ha hok q1 (by rw [q4]))).bad hnr2
    cases hfl : fl (.tuple l xs) { s with objs := s.objs ++ [.addr a] } with
    | none => rw [hfl] at hrun; cases hrun
    | some p =>
      obtain ⟨r1, s1⟩ := p
      have hsim := fun lg => simArg h ha hf hx q7 hnr (sA := { s with objs := s.objs ++ [.addr a] }) (u := proxU u lg) hd (hr.prox hmem lg) hfl
      obtain ⟨j, _, _, ud, e1, ht, _, hstepd, _⟩ := hsim []
      subst e1
      rw [hfl] at hrun
      simp only [] at hrun
      rw [bind_run] at hrun
      cases hfl2 : fl (.ref d) s1 with
      | none => rw [hfl2] at hrun; cases hrun
      | some p =>
        obtain ⟨r2, s2'⟩ := p
        have hd1 : 0 ≤ s1.depth := by rw [hstepd.depth]; exact hd
        have hsim2 := fun u1 hr1 => h (Bad.hold a) (.ref d) s1 u1 hd1 hfit2.1 hfit2.2 hr1 r2 s2' hfl2
        obtain ⟨j2, x2, _, e2, e4, hstep2, hiso2⟩ := hsim2 ud hstepd.rel
        subst e2
        have ht2 : jsonTruthy j2 = true := by
          obtain ⟨d', e5, hR⟩ := iso_ref hiso2
          subst e5
          cases hj : jsonTruthy j2 with
          | true => rfl
          | false => exact (falsy_dict hm hj hstepd.rel q5 q6 e4 hstep2 hR).elim
        clear hiso2 hstep2 e4
        rw [hfl2] at hrun
        simp only [pure_run] at hrun
        cases hrun
        refine ⟨_, j, j2, rfl, by simp [CtorKeys], ⟨_, rfl⟩, ?_, ?_⟩
        · intro ents u' hrest
          refine ⟨[], ?_⟩
          unfold ctorArgs
          rw [dget_data (fun hm => (hrest.1 _ hm).2.2.1 rfl)]
          have n1 : dget Tags.NEWARGSEX [(Tags.OBJECT, Json.str i.cls), (Tags.NEWARGSEX, .arr [j, j2])] = some (.arr [j, j2]) := rfl
          rw [n1]
          simp only [jsonIter]
          rw [bind_ok (ofExcept_run _ _)]
          simp [pure_run, kwArg_truthy ht2]
        · intro lg
          obtain ⟨j', l', ys, u1, e1, ht', e2, hstep, hiso⟩ := hsim lg
          injection e1 with e1
          subst e1
          obtain ⟨j2', x2, u2, e3, e4, hstep2, hiso2⟩ := hsim2 u1 hstep.rel
          injection e3 with e3
          subst e3
          obtain ⟨d', e5, hR⟩ := iso_ref hiso2
          subst e5
          refine ⟨l', ys, .ref d', u1, u2, by rw [restoreArg_truthy ht']; exact e2, by rw [restoreArg_truthy ht2]; exact e4,
            hstep.trans hstep2 (by simp), by rw [viSos_length hiso]; exact q10, ?_, ⟨rfl, rfl, ?_, ?_, ?_⟩, ?_⟩
          · obtain ⟨hb, k, k1, k2⟩ := hR
            obtain ⟨keys, kvs', k3, k4⟩ := (hstep2.rel.filled k d d' k1 k2 hb (hf.closed hnr2)).2 _ q5
            simp only [kwOk, dictEntries, k3]
            exact strKeys_iso qs k4
          · intro h'; rw [q1] at h'; cases h'
          · intro _
            rw [q4]
            simp only [VIso]
            exact ⟨VIsos.mono hstep2.mono _ _ hiso, hR⟩
          · intro h'; rw [q1] at h'; cases h'
          · intro h'; rw [q1] at h'; cases h'

end JP.Sim
