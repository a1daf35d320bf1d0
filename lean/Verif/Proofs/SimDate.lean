import Verif.Proofs.SimTuple
/-!
# The round trip of dates and times
-/
namespace JP.Sim
open JP PyM Unpickler

variable {w : World} {cfg : PCfg} {env : UEnv}
variable {Bad : Ctx}
variable {fl : Val → P Json} {rs2 rs3 : Json → U Val}
variable {a : Addr} {i : Inst} {s : PState} {u : UState}

theorem dateBytes_encode (b : Bytes) : dateBytes (.str (b64encode b)) = .ok b := by
  unfold dateBytes
  simp only []
  rw [if_pos, b64decode_encode]
  rw [List.all_eq_true]
  exact fun c hc => decide_eq_true (b64encode_ascii b c hc)

theorem ofExcept_ok {σ α β : Type} (x : α) (f : α → PyM σ β) : (PyM.ofExcept (.ok x) >>= f) = f x := rfl

theorem restore_class {n : Str} (h : env.loadclass n = some (.type n)) (u : UState) :
    restoreStep env rs2 (.obj [(Tags.TYPE, .str n)]) u = some (.ok (.type n), { u with log := u.log ++ [.imp n] }) := by
  change (emit (.imp n) >>= fun _ => (pure (env.loadclass n) : U _) >>= fun c => match c with
    | some v => (pure v : U Val)
    | none => raw (.obj [(Tags.TYPE, .str n)])) u = _
  rw [bind_ok (emit_run _ _), h]
  rfl

theorem fields_date {R : Addr → Addr → Prop} {n : Str} : ∀ {rest : List (Str × Val)} {xs : List Val}, (∀ kv ∈ rest, kv.1 = p!"tzinfo") → VIsos R (rest.map (·.2)) xs →
    FieldsIso R (rest ++ [(p!"class", .type n)]) (xs.map (fun v => (p!"tzinfo", v)) ++ [(p!"class", .type n)])
  | [], [], _, _ => ⟨⟨rfl, rfl⟩, trivial⟩
  | f :: fs, x :: xs, hn, h => by
    simp only [List.map_cons, VIsos] at h
    exact ⟨⟨hn f List.mem_cons_self, h.1⟩, fields_date (fun kv hk => hn kv (List.mem_cons_of_mem _ hk)) h.2⟩
  | [], _ :: _, _, h => by simp [VIsos] at h
  | _ :: _, [], _, h => by simp [VIsos] at h

theorem simDate (hm : Matching w cfg env) (hkf : KeyFl cfg env fl) (h : Sim w cfg env fl (restoreStep env rs3)) (hre : ReFl w env fl) (ha : w.heap[a]? = some (.inst i))
    (hok : HandledOk w.heap env a i) (hdt : DateOk env i) (hd : 0 ≤ s.depth) (hr : Rel w.heap Bad s.objs u) (hf : Fit w env Bad (.ref a)) :
    SimRun w cfg (restoreStep env (restoreStep env rs3)) Bad (.ref a) s (Pickler.flattenBy w cfg fl (.ref a) s) u := by
  refine simRefInst hm ha hr hf ?_
  intro hmem r s' hrun
  have hab : a ∉ Bad := fun hb => hf.2.no a hb (.self a)
  have hk : w.handler i.cls = env.handler i.cls := hm.handler _
  have htag : Pickler.objTag cfg i = [(Tags.OBJECT, .str i.cls)] := by simp [Pickler.objTag, hm.unpicklable]
  obtain ⟨hh, hname, l, b, rest, hfs, hrest⟩ := hdt
  have hdate : w.handler i.cls = some .datetime := hk.trans hh
  have hcls : env.loadclass i.cls = some (.type i.cls) := (hok.names (p!"class", .type i.cls) (by rw [hfs]; simp)).2
  have hsup : SupportedAt w.heap env (.type i.cls) := ⟨hcls, fun b hb => by cases hb⟩
  have htail : i.hfields.tail.map (·.2) = rest.map (·.2) ++ [.type i.cls] := by rw [hfs]; simp
  have htext : Pickler.dateText i.hfields = b64encode b := by rw [hfs]; rfl
  have henc : Pickler.flattenInst w cfg fl a i = (mapM fl (rest.map (·.2)) >>= fun js => fl (.type i.cls) >>= fun c =>
      (pure (.obj [(Tags.OBJECT, .str i.cls), (p!"__reduce__", .arr [c, .arr (.str (b64encode b) :: js)])]) : P _)) := by
    unfold Pickler.flattenInst
    rw [hdate]
    simp only [Pickler.flattenDate, hm.unpicklable, if_true]
    rw [htail, htext, htag, hok.noError, mapM_append]
    simp only [bind_assoc', mapM_cons, mapM_nil]
    congr 1
    funext js
    congr 1
    funext c
    simp only [pure_bind', List.getLastD_concat, List.dropLast_concat]
    rfl
  rw [henc, bind_run] at hrun
  have hr1 := hr.prox hmem (u.log ++ [.imp i.cls] ++ [.obj i.cls] ++ [.imp i.cls])
  cases hmm : mapM fl (rest.map (·.2)) { s with objs := s.objs ++ [.addr a] } with
  | none => rw [hmm] at hrun; cases hrun
  | some p =>
    obtain ⟨r1, s1⟩ := p
    obtain ⟨js, xs, u2, e1, e2, hstep, hiso, hlen⟩ := simMap h _ { s with objs := s.objs ++ [.addr a] } (proxU u (u.log ++ [.imp i.cls] ++ [.obj i.cls] ++ [.imp i.cls]))
      r1 s1 hd (fun x hx => by
        obtain ⟨e, he, rfl⟩ := List.mem_map.1 hx
        have he' : e ∈ i.hfields := by rw [hfs]; simp [he]
        refine (hf.part ha ?_ (hok.names e he').2 (fun d _ => notState_handled ha hok.handler d)).bad (hok.noReach e he')
        simp only [Obj.parts, Inst.parts, List.mem_append]
        exact Or.inl (Or.inr (List.mem_map_of_mem he'))) hr1 hmm
    subst e1
    rw [hmm] at hrun
    simp only [] at hrun
    rw [bind_run] at hrun
    cases hct : fl (.type i.cls) s1 with
    | none => rw [hct] at hrun; cases hrun
    | some p =>
      obtain ⟨r2, s2⟩ := p
      have hj := hkf.1 (.type i.cls) ⟨hname, hcls⟩ s1 r2 s2 hct
      have hd1 : 0 ≤ s1.depth := by rw [hstep.depth]; exact hd
      obtain ⟨_, _, ho, hdp⟩ := hre (.type i.cls) s1 r2 s2 hd1 hsup trivial hct
      subst hj
      rw [hct] at hrun
      simp only [pure_run] at hrun
      cases hrun
      have hstep' := hstep.trans (Step.same (X := []) (cfg := cfg) (s' := s') (u' := { u2 with log := u2.log ++ [.call i.cls] }) hstep.rel hdp ho rfl rfl rfl rfl) (fun b hb => by cases hb)
      have hargs : Args w cfg Bad a s s' u { u2 with log := u2.log ++ [.call i.cls] } := ⟨hr, hmem, _, hstep'⟩
      have hinfo := hok.info
      have hrel := hargs.openRel (o := .inst i) (o0 := .inst { cls := i.cls, info := env.classInfo i.cls, hfields := (p!"state", .bytes 0 b) :: xs.map (fun v => (p!"tzinfo", v)) ++ [(p!"class", .type i.cls)] }) ha (by simp [SameKind, hinfo])
      refine ⟨_, .ref u2.heap.length, _, rfl, ?_, hargs.close (Step.refl hrel) ha hargs.openCell (by
          intro i' d hi hdd; cases hi; cases hdd) ?_, ?_⟩
      · change restoreTags env (restoreStep env rs3) ((Tags.OBJECT, .str i.cls) :: [(p!"__reduce__", .arr [.obj [(Tags.TYPE, .str i.cls)], .arr (.str (b64encode b) :: js)])]) u = _
        rw [restoreTags_object (fun k hk ht => by
          simp only [List.map_cons, List.map_nil, List.mem_singleton] at hk
          subst hk
          revert ht
          decide), object_run, ← hk, hdate]
        simp only [restoreHandled, handlerRestore]
        rw [prox_run hr]
        have hitem : item p!"__reduce__" ((Tags.OBJECT, Json.str i.cls) :: [(p!"__reduce__", .arr [.obj [(Tags.TYPE, .str i.cls)], .arr (.str (b64encode b) :: js)])]) =
            .ok (.arr [.obj [(Tags.TYPE, .str i.cls)], .arr (.str (b64encode b) :: js)]) := rfl
        unfold restoreDate
        rw [hitem]
        simp only [ofExcept_ok, jsonIter, bind_assoc']
        rw [bind_ok (restore_class hcls _)]
        simp only [dateArgs, dateBytes_encode, ofExcept_ok]
        refine (bind_ok e2).trans ?_
        simp only [bind_assoc', pure_bind']
        rw [bind_ok (emit_run _ _)]
        exact hargs.run (fun b => (pure (Val.ref b) : U Val))
      · simp only [SameCell]
        refine .handled (by simp [handledOf, hdate]) rfl rfl ?_
        rw [hfs]
        refine ⟨⟨rfl, rfl⟩, fields_date hrest ?_⟩
        exact VIsos.mono hargs.mono _ _ (by rw [ho]; exact hiso)
      · simp only [VIso]
        exact hargs.iso_new (Step.refl (X := []) (cfg := cfg) hrel) hab

end JP.Sim
