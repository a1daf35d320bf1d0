import Verif.Proofs.SimOpen
/-!
# The round trip of objects with a handler or a reduce value
-/
namespace JP.Sim
open JP PyM Unpickler

variable {w : World} {cfg : PCfg} {env : UEnv}
variable {Bad : Ctx}
variable {fl : Val → P Json} {rs rs2 : Json → U Val}
variable {a : Addr} {i : Inst} {s : PState} {u : UState}

theorem simRefInst (hm : Matching w cfg env) (ha : w.heap[a]? = some (.inst i)) (hr : Rel w.heap Bad s.objs u)
    (hf : Fit w env Bad (.ref a))
    (hbody : Ident.addr a ∉ s.objs → ∀ r s', Pickler.flattenInst w cfg fl a i { s with objs := s.objs ++ [.addr a] } = some (r, s') →
      ∃ j x u', r = .ok j ∧ restoreStep env rs2 j u = some (.ok x, u') ∧ Step w cfg [] Bad s s' u u' ∧
        VIso (Rof Bad s'.objs u'.objs) (.ref a) x) :
    SimRun w cfg (restoreStep env rs2) Bad (.ref a) s (Pickler.flattenBy w cfg fl (.ref a) s) u := by
  have e : Pickler.flattenBy w cfg fl (.ref a) = (Pickler.mkref cfg (.addr a) >>= fun new =>
      if new then Pickler.flattenInst w cfg fl a i else Pickler.getref (.addr a)) := by
    simp only [Pickler.flattenBy, ha, Pickler.refObjInstance, hm.unpicklable, if_true]
  rw [e]
  by_cases hmem : Ident.addr a ∈ s.objs
  · rw [bind_ok (mkref_old hm hmem)]
    exact simOld hr hf hmem
  · rw [bind_ok (mkref_new hm hmem)]
    intro r s' hrun
    exact hbody hmem r s' hrun

theorem Rel.prox (hr : Rel w.heap Bad s.objs u) (hmem : Ident.addr a ∉ s.objs) (lg : List Event) :
    Rel w.heap (Bad.hold a) (s.objs ++ [.addr a]) (proxU u lg) :=
  (hr.reg (Bad' := Bad.hold a) (o := .proxy none) hmem (fun x h => Ctx.mem_hold.1 h) (fun x h => List.mem_cons_of_mem _ h) (fun x h => h) (Or.inl List.mem_cons_self) (Or.inl List.mem_cons_self)).log lg

theorem prox_run (hr : Rel w.heap Bad s.objs u) (lg : List Event) {β : Type} (f : Addr → U β) :
    (alloc (.proxy none) >>= fun p => mkref (.ref p) >>= fun _ => f p) { u with log := lg } = f u.heap.length (proxU u lg) := by
  rw [bind_ok (alloc_run _)]
  have := reg_run (hr.log lg) (.proxy none)
  rw [bind_ok this]
  rfl

/-- dispatch on the class tag -/
theorem restoreTags_object {kvs : List (Str × Json)} {c : Str}
    (h : ∀ k ∈ kvs.map (·.1), k = Tags.TUPLE ∨ k = Tags.SET ∨ k = Tags.B64 ∨ k = Tags.B85 ∨ k = Tags.BYTEARRAY ∨
      k = Tags.ID ∨ k = Tags.ITERATOR → False) :
    restoreTags env rs ((Tags.OBJECT, .str c) :: kvs) = restoreObject env rs ((Tags.OBJECT, .str c) :: kvs) := by
  have hn : ∀ t, (t = Tags.TUPLE ∨ t = Tags.SET ∨ t = Tags.B64 ∨ t = Tags.B85 ∨ t = Tags.BYTEARRAY ∨
      t = Tags.ID ∨ t = Tags.ITERATOR) → dhas t ((Tags.OBJECT, Json.str c) :: kvs) = false := fun t ht => by
    rw [dhas_eq_false_iff]
    intro hm
    rcases List.mem_cons.1 hm with e | e
    · subst e; revert ht; simp only []; decide
    · exact h t e ht
  unfold restoreTags
  rw [hn Tags.TUPLE (by simp), hn Tags.SET (by simp), hn Tags.B64 (by simp), hn Tags.B85 (by simp),
    hn Tags.BYTEARRAY (by simp), hn Tags.ID (by simp), hn Tags.ITERATOR (by simp)]
  rfl

theorem mapM_label {σ : Type} {f : Json → PyM σ Val} : ∀ {ks : List Str} {js : List Json} {xs : List Val} {u u' : σ},
    js.length = ks.length → mapM f js u = some (.ok xs, u') →
    mapM (fun kv : Str × Json => f kv.2 >>= fun v => (pure (kv.1, v) : PyM σ (Str × Val))) (ks.zip js) u = some (.ok (ks.zip xs), u')
  | [], [], xs, u, u', _, h => by
    simp only [mapM_nil, pure_run] at h
    cases h
    rfl
  | k :: ks, j :: js, xs, u, u', hl, h => by
    rw [mapM_cons, bind_eq_ok] at h
    obtain ⟨y, u1, h1, h⟩ := h
    rw [bind_eq_ok] at h
    obtain ⟨ys, u2, h2, h⟩ := h
    simp only [pure_run] at h
    cases h
    have := mapM_label (ks := ks) (by simpa using hl) h2
    rw [List.zip_cons_cons, mapM_cons]
    have h1' : (f j >>= fun v => (pure (k, v) : PyM σ (Str × Val))) u = some (.ok (k, y), u1) := by rw [bind_ok h1]; rfl
    rw [bind_ok h1', bind_ok this]
    rfl
  | [], _ :: _, _, _, _, hl, _ => by simp at hl
  | _ :: _, [], _, _, _, hl, _ => by simp at hl

theorem fields_zip {R : Addr → Addr → Prop} : ∀ {fs : List (Str × Val)} {xs : List Val}, VIsos R (fs.map (·.2)) xs →
    FieldsIso R fs ((fs.map (·.1)).zip xs)
  | [], [], _ => trivial
  | f :: fs, x :: xs, h => by
    simp only [List.map_cons, VIsos] at h
    exact ⟨⟨rfl, h.1⟩, fields_zip h.2⟩
  | [], _ :: _, h => by simp [VIsos] at h
  | _ :: _, [], h => by simp [VIsos] at h

theorem object_run {c : Str} {kvs : List (Str × Json)} (u : UState) :
    restoreObject env rs ((Tags.OBJECT, .str c) :: kvs) u =
      (match env.handler c with
        | some k => restoreHandled env rs k c ((Tags.OBJECT, .str c) :: kvs)
        | none => match env.loadclass c with
          | none => processMissing env c >>= fun _ => raw (.obj ((Tags.OBJECT, .str c) :: kvs)) >>= fun r => mkref r
          | some _ => restoreInstance env rs c ((Tags.OBJECT, .str c) :: kvs)) { u with log := u.log ++ [Event.imp c] ++ [Event.obj c] } := rfl

theorem simHandled (hm : Matching w cfg env) (h : Sim w cfg env fl rs2) (ha : w.heap[a]? = some (.inst i))
    (hok : HandledOk w.heap env a i) (hnd : ¬ DateOk env i) (hd : 0 ≤ s.depth) (hr : Rel w.heap Bad s.objs u) (hf : Fit w env Bad (.ref a)) :
    SimRun w cfg (restoreStep env rs2) Bad (.ref a) s (Pickler.flattenBy w cfg fl (.ref a) s) u := by
  refine simRefInst hm ha hr hf ?_
  intro hmem r s' hrun
  have hab : a ∉ Bad := fun hb => hf.2.no a hb (.self a)
  have hk : w.handler i.cls = env.handler i.cls := hm.handler _
  have htag : Pickler.objTag cfg i = [(Tags.OBJECT, .str i.cls)] := by simp [Pickler.objTag, hm.unpicklable]
  have hnot : ∀ k ∈ i.hfields.map (·.1), k ∉ Tags.all := fun k hk => by
    obtain ⟨e, he, rfl⟩ := List.mem_map.1 hk
    exact (hok.names e he).1
  have hdisp : ∀ t, t = Tags.TUPLE ∨ t = Tags.SET ∨ t = Tags.B64 ∨ t = Tags.B85 ∨ t = Tags.BYTEARRAY ∨
      t = Tags.ID ∨ t = Tags.ITERATOR → t ∈ Tags.all := by
    intro t ht
    rcases ht with e | e | e | e | e | e | e <;> subst e <;> decide
  rcases hok.handler with hrec | ⟨hop, hnil⟩ | hdate
  · rw [← hk] at hrec
    have henc : Pickler.flattenInst w cfg fl a i = (mapM fl (i.hfields.map (·.2)) >>= fun js =>
        (pure (.obj ((Tags.OBJECT, .str i.cls) :: (i.hfields.map (·.1)).zip js)) : P _)) := by
      unfold Pickler.flattenInst
      rw [hrec]
      simp only []
      rw [foldM_entries (fl := fl) _ (·.1) (·.2) i.hfields _ (fun _ _ _ => rfl) hok.nodup ?_, bind_assoc', htag, hok.noError]
      · rfl
      · intro e he hmem
        rw [htag] at hmem
        simp only [List.map_cons, List.map_nil, List.mem_singleton] at hmem
        exact (hok.names e he).1 (by rw [hmem]; decide)
    rw [henc, bind_run] at hrun
    have hr1 := hr.prox hmem (u.log ++ [.imp i.cls] ++ [.obj i.cls])
    cases hmm : mapM fl (i.hfields.map (·.2)) { s with objs := s.objs ++ [.addr a] } with
    | none => rw [hmm] at hrun; cases hrun
    | some p =>
      obtain ⟨r1, s1⟩ := p
      obtain ⟨js, xs, u2, e1, e2, hstep, hiso, hlen⟩ := simMap h _ { s with objs := s.objs ++ [.addr a] } (proxU u (u.log ++ [.imp i.cls] ++ [.obj i.cls]))
        r1 s1 hd (fun x hx => by
          obtain ⟨e, he, rfl⟩ := List.mem_map.1 hx
          refine (hf.part ha ?_ (hok.names e he).2 (fun d _ => notState_handled ha hok.handler d)).bad (hok.noReach e he)
          simp only [Obj.parts, Inst.parts, List.mem_append]
          exact Or.inl (Or.inr (List.mem_map_of_mem he))) hr1 hmm
      subst e1
      rw [hmm] at hrun
      simp only [pure_run] at hrun
      cases hrun
      have hargs : Args w cfg Bad a s s' u u2 := ⟨hr, hmem, _, hstep⟩
      have hlen' : js.length = (i.hfields.map (·.1)).length := by simpa using hlen
      have hinfo := hok.info
      have hrel := hargs.openRel (o := .inst i) (o0 := .inst { cls := i.cls, info := env.classInfo i.cls, hfields := (i.hfields.map (·.1)).zip xs }) ha (by simp [SameKind, hinfo])
      refine ⟨_, .ref u2.heap.length, _, rfl, ?_, hargs.close (Step.refl hrel) ha hargs.openCell (by
          intro i' d hi hdd; cases hi; cases hdd) ?_, ?_⟩
      · change restoreTags env rs2 ((Tags.OBJECT, .str i.cls) :: (i.hfields.map (·.1)).zip js) u = _
        rw [restoreTags_object (fun k hk ht => by
          rw [zip_keys _ _ hlen'] at hk
          exact hnot k hk (hdisp k ht)), object_run, ← hk, hrec]
        simp only [restoreHandled, handlerRestore]
        rw [prox_run hr]
        have hdel : ddel Tags.OBJECT ((Tags.OBJECT, Json.str i.cls) :: (i.hfields.map (·.1)).zip js) = (i.hfields.map (·.1)).zip js := by
          unfold ddel
          rw [List.filter_cons_of_neg (by simp), List.filter_eq_self]
          intro e he
          simp only [ne_eq, decide_not, Bool.not_eq_true', decide_eq_false_iff_not]
          intro heq
          exact hnot _ (mem_zip_fst he) (by rw [heq]; decide)
        rw [hdel]
        simp only [bind_assoc']
        rw [bind_ok (mapM_label hlen' e2)]
        exact hargs.run (fun b => (pure (Val.ref b) : U Val))
      · simp only [SameCell]
        refine .handled (by simp [handledOf, hrec]) rfl rfl ?_
        refine fields_zip ?_
        exact VIsos.mono hargs.mono _ _ hiso
      · simp only [VIso]
        exact hargs.iso_new (Step.refl (X := []) (cfg := cfg) hrel) hab
  · rw [← hk] at hop
    have henc : Pickler.flattenInst w cfg fl a i = (pure (.obj [(Tags.OBJECT, .str i.cls)]) : P _) := by
      unfold Pickler.flattenInst
      rw [hop, htag, hok.noError]
      rfl
    rw [henc] at hrun
    simp only [pure_run] at hrun
    cases hrun
    have hr1 := hr.prox hmem (u.log ++ [.imp i.cls] ++ [.obj i.cls])
    have hargs : Args w cfg Bad a s { s with objs := s.objs ++ [.addr a] } u (proxU u (u.log ++ [.imp i.cls] ++ [.obj i.cls])) := ⟨hr, hmem, _, Step.refl hr1⟩
    have hinfo := hok.info
    have hrel := hargs.openRel (o := .inst i) (o0 := .inst { cls := i.cls, info := env.classInfo i.cls }) ha (by simp [SameKind, hinfo])
    refine ⟨_, .ref (proxU u (u.log ++ [.imp i.cls] ++ [.obj i.cls])).heap.length, _, rfl, ?_, hargs.close (Step.refl hrel) ha hargs.openCell (by
        intro i' d hi hdd; cases hi; cases hdd) ?_, ?_⟩
    · change restoreTags env rs2 ((Tags.OBJECT, .str i.cls) :: []) u = _
      rw [restoreTags_object (by simp), object_run, ← hk, hop]
      simp only [restoreHandled, handlerRestore]
      rw [prox_run hr]
      simp only [bind_assoc']
      exact hargs.run (fun b => (pure (Val.ref b) : U Val))
    · simp only [SameCell]
      refine .handled (by simp [handledOf, hop]) rfl rfl ?_
      rw [hnil]
      trivial
    · simp only [VIso]
      exact hargs.iso_new (Step.refl (X := []) (cfg := cfg) hrel) hab
  · exact absurd hdate hnd

end JP.Sim
