import Verif.Proofs.UQuiet
import Verif.Proofs.UHeldRun
/-!
# Every function of the decoder is quiet on documents without references
-/
namespace JP.Unpickler.Quiet
open JP PyM
open V1 (Kind kindOf kindAt Free)

mutual
theorem keeps_raw : ∀ (j : Json) (s : UState), Keeps s (raw j) Sol
  | .null, s => by unfold raw; exact Keeps.pure (noref (fun a e => by cases e))
  | .bool _, s => by unfold raw; exact Keeps.pure (noref (fun a e => by cases e))
  | .int _, s => by unfold raw; exact Keeps.pure (noref (fun a e => by cases e))
  | .float _, s => by unfold raw; exact Keeps.pure (noref (fun a e => by cases e))
  | .str _, s => by unfold raw; exact Keeps.pure (noref (fun a e => by cases e))
  | .arr xs, s => by
    unfold raw
    exact Keeps.bind (keeps_raws xs s) (fun vs s1 _ hvs => Keeps.bind (Keeps.alloc (o := .list vs) (fun v hv => (hvs v hv).kept (Kept.append _ _))) (fun a s2 _ ha =>
      Keeps.pure (sol_kind ha (by simp [kindOf]) (by simp [kindOf]))))
  | .obj kvs, s => by
    unfold raw
    exact Keeps.bind (keeps_rawKvs kvs s) (fun vs s1 _ hvs => Keeps.bind (Keeps.alloc (o := .dict vs) (fun k v hv => (hvs k v hv).kept (Kept.append _ _))) (fun a s2 _ ha =>
      Keeps.pure (sol_kind ha (by simp [kindOf]) (by simp [kindOf]))))
theorem keeps_raws : ∀ (xs : List Json) (s : UState), Keeps s (raws xs) (fun h vs => ∀ v ∈ vs, Sol h v)
  | [], s => by unfold raws; exact Keeps.pure (fun v h => by cases h)
  | x :: xs, s => by
    unfold raws
    refine Keeps.bind (keeps_raw x s) (fun v s1 _ hv => Keeps.bind (keeps_raws xs s1) (fun vs s2 k2 hvs => Keeps.pure (fun w hw => ?_)))
    rcases List.mem_cons.1 hw with rfl | hw
    · exact hv.kept k2
    · exact hvs w hw
theorem keeps_rawKvs : ∀ (xs : List (Str × Json)) (s : UState), Keeps s (rawKvs xs) (fun h vs => ∀ k v, (k, v) ∈ vs → Sol h v)
  | [], s => by unfold rawKvs; exact Keeps.pure (fun k v h => by cases h)
  | (k, x) :: xs, s => by
    unfold rawKvs
    refine Keeps.bind (keeps_raw x s) (fun v s1 _ hv => Keeps.bind (keeps_rawKvs xs s1) (fun vs s2 k2 hvs => Keeps.pure (fun l w hw => ?_)))
    rcases List.mem_cons.1 hw with e | hw
    · cases e; exact hv.kept k2
    · exact hvs l w hw
end

section
variable {env : UEnv} {rs : Json → U Val} (h : ∀ j, Free env j → ∀ s, Keeps s (rs j) Sol)

include h in
theorem keeps_mapM {xs : List Json} (hx : ∀ x ∈ xs, Free env x) (s : UState) : Keeps s (PyM.mapM rs xs) (fun h vs => ∀ v ∈ vs, Sol h v) :=
  Keeps.mapM (P := Sol) (fun _ _ _ k s => s.kept k) xs s (fun x hm s1 _ => h x (hx x hm) s1)

theorem nil_cell {h : Heap} : CellQ h (.list []) := fun v hv => by cases hv
theorem new_cell {h : Heap} {i : Inst} (h1 : i.items = []) (h2 : i.attrs = []) (h3 : i.factory = none) : CellQ h (.inst i) :=
  ⟨(fun k v hv => by rw [h1] at hv; cases hv), (fun k v hv => by rw [h2] at hv; cases hv), (fun v hv => by rw [h3] at hv; cases hv)⟩

include h in
theorem keeps_restoreList {xs : Except Exc (List Json)} (hx : ∀ l, xs = .ok l → ∀ x ∈ l, Free env x) (s : UState) :
    Keeps s (restoreList rs xs) (fun h a => Sol h (.ref a)) := by
  unfold restoreList
  refine Keeps.bind (Keeps.alloc nil_cell) (fun a s1 _ ha => Keeps.bind Keeps.mkref (fun _ s2 k2 _ => Keeps.bind Keeps.ofExcept (fun l s3 k3 hl =>
    Keeps.bind (keeps_mapM h (hx l hl) s3) (fun vs s4 k4 hvs => ?_))))
  have ha4 : kindAt s4.heap a = some .list := k4 _ _ (k3 _ _ (k2 _ _ ha))
  exact Keeps.bind (Keeps.setCell (o := .list vs) ha4 hvs) (fun _ s5 k5 _ => Keeps.bind (Keeps.noteList vs 0 s5 (fun v hv => (hvs v hv).kept k5)) (fun _ s6 k6 _ =>
    Keeps.pure (sol_kind (k6 _ _ (k5 _ _ ha4)) (by simp) (by simp))))

include h in
theorem keeps_restoreIterator {kvs} (hd : Free env (.obj kvs)) (s : UState) : Keeps s (restoreIterator rs kvs) Sol := by
  unfold restoreIterator
  refine Keeps.bind (Q := fun _ _ => True) (Keeps.tryCatch (Keeps.bind Keeps.ofExcept (fun j s1 _ hj => Keeps.imp (fun _ _ _ => trivial) (keeps_restoreList h (fun l hl => (hd.item hj).iter hl) s1)))
    (fun e s1 _ => Keeps.imp (fun _ _ _ => trivial) (Keeps.alloc nil_cell))) (fun a s1 _ _ => ?_)
  exact Keeps.bind (Keeps.alloc (new_cell rfl rfl rfl)) (fun b s2 _ hb => Keeps.pure (sol_kind hb (by simp [kindOf]) (by simp [kindOf])))

theorem keeps_loadclassJ (g : env.Globals) (j) (s : UState) : Keeps s (loadclassJ env j) (fun _ c => ∀ v, c = some v → v.Global) := by
  unfold loadclassJ
  split
  · exact Keeps.bind (Keeps.emit _) (fun _ _ _ _ => Keeps.pure (fun v hv => g.cls _ v hv))
  · exact Keeps.throw

/-- an object is made and put in the place of its placeholder -/
theorem keeps_replace {α : Type} {p : Addr} {s : UState} {o : Obj} {k : Addr → U α} {Q : Heap → α → Prop} (hp : kindAt s.heap p = some .proxy)
    (h1 : kindOf o ≠ .proxy) (h2 : kindOf o ≠ .idproxy) (hc : CellQ (s.heap ++ [o]) o) (hk : ∀ a s1, Kept s.heap s1.heap → Sol s1.heap (.ref a) → Keeps s1 (k a) Q) :
    Keeps s (alloc o >>= fun a => setCell p (.proxy (some (.ref a))) >>= fun _ => swapref p (.ref a) >>= fun _ => k a) Q := by
  refine Keeps.bind (Keeps.alloc hc) (fun a s1 k1 ha => Keeps.bind (Keeps.setCell (o := .proxy (some (.ref a))) (k1 _ _ hp) trivial) (fun _ s2 k2 _ =>
    Keeps.bind Keeps.swapref (fun _ s3 k3 _ => hk a s3 ((k1.trans k2).trans k3) (sol_kind (k3 _ _ (k2 _ _ ha)) h1 h2))))

theorem keeps_reduceFallback {p : Addr} {s : UState} (hp : kindAt s.heap p = some .proxy) : Keeps s (reduceFallback p) Sol := by
  unfold reduceFallback
  exact keeps_replace hp (by simp [kindOf]) (by simp [kindOf]) nil_cell (fun a s1 _ hs => Keeps.pure hs)

theorem keeps_emitSetter (ops) (s : UState) : Keeps s (emitSetter ops) (fun _ _ => True) := by
  unfold emitSetter
  split
  · exact Keeps.emit _
  · exact Keeps.emit _
  · exact Keeps.pure trivial

theorem keeps_reduceFinish {p : Addr} {s : UState} (hp : kindAt s.heap p = some .proxy) (cls vals c d e g) : Keeps s (reduceFinish env p cls vals c d e g) Sol := by
  unfold reduceFinish
  refine Keeps.get (fun _ => ?_)
  refine Keeps.bind Keeps.ofExcept (fun _ s2 k2 _ => ?_)
  refine Keeps.bind (keeps_emitSetter _ _) (fun _ s3 k3 _ => ?_)
  refine Keeps.bind Keeps.ofExcept (fun _ s4 k4 _ => ?_)
  refine Keeps.bind Keeps.ofExcept (fun _ s5 k5 _ => ?_)
  exact keeps_replace (k5 _ _ (k4 _ _ (k3 _ _ (k2 _ _ hp)))) (by simp [kindOf]) (by simp [kindOf]) (new_cell rfl rfl rfl) (fun a s6 _ hs => Keeps.pure hs)

theorem keeps_reduceBuild {p : Addr} {s : UState} (hp : kindAt s.heap p = some .proxy) (vals) : Keeps s (reduceBuild env p vals) Sol := by
  unfold reduceBuild
  split
  · refine Keeps.get (fun _ => ?_)
    have fin : ∀ (n cls vals c d e g), Keeps s (emit (.call n) >>= fun _ => reduceFinish env p cls vals c d e g) Sol := fun n cls vals c d e g =>
      Keeps.bind (Keeps.emit _) (fun _ s2 k2 _ => keeps_reduceFinish (k2 _ _ hp) _ _ _ _ _ _)
    split
    · refine Keeps.bind Keeps.ofExcept (fun a s2 k2 _ => ?_)
      obtain ⟨a1, a2⟩ := a
      cases a1 with
      | type n =>
        dsimp only
        split
        · exact Keeps.bind (Keeps.emit _) (fun _ s3 k3 _ => keeps_reduceFinish (k3 _ _ (k2 _ _ hp)) _ _ _ _ _ _)
        · exact Keeps.throw
      | _ => exact Keeps.throw
    · split
      · generalize starArgs _ _ = q
        cases q with
        | none => exact Keeps.throw
        | some l =>
          dsimp only
          split
          · exact fin _ _ _ _ _ _ _
          · exact Keeps.throw
      · generalize starArgs _ _ = q
        cases q with
        | none => exact Keeps.throw
        | some l =>
          dsimp only
          split
          · exact fin _ _ _ _ _ _ _
          · exact Keeps.throw
      · exact keeps_reduceFallback hp
  · exact Keeps.throw

include h in
theorem keeps_restoreReduce {kvs} (hd : Free env (.obj kvs)) (s : UState) : Keeps s (restoreReduce env rs kvs) Sol := by
  unfold restoreReduce
  refine Keeps.bind (Keeps.alloc (o := .proxy none) trivial) (fun p s1 _ hp => Keeps.bind Keeps.mkref (fun _ s2 k2 _ => ?_))
  refine Keeps.bind (Q := fun _ _ => True) (Keeps.tryCatch (Keeps.bind Keeps.ofExcept (fun j s3 _ hj => Keeps.bind Keeps.ofExcept (fun xs s4 _ hxs =>
    Keeps.bind (keeps_mapM h ((hd.item hj).iter hxs) s4) (fun vs s5 _ _ => Keeps.pure trivial)))) (fun e s3 _ => Keeps.pure trivial)) (fun r s3 k3 _ => ?_)
  have h3 : kindAt s3.heap p = some .proxy := k3 _ _ (k2 _ _ hp)
  split
  · exact keeps_reduceFallback h3
  · exact keeps_reduceBuild h3 _

theorem keeps_restoreType (g : env.Globals) (kvs) (s : UState) : Keeps s (restoreType env kvs) Sol := by
  unfold restoreType
  refine Keeps.bind Keeps.ofExcept (fun j s1 _ _ => Keeps.bind (keeps_loadclassJ g j s1) (fun c s2 _ hc => ?_))
  cases c with
  | some v => exact Keeps.pure (global_sol (hc v rfl))
  | none => exact keeps_raw _ _

theorem keeps_mkrefSol {s : UState} {v : Val} (hv : Sol s.heap v) : Keeps s (mkref v) Sol := by
  intro hi r s' h
  obtain ⟨h1, h2, h3, h4⟩ := Keeps.mkref hi r s' h
  exact ⟨h1, h2, h3, fun a ha => by rw [h4 a ha]; exact hv.kept h2⟩

theorem keeps_restoreModule (g : env.Globals) (j) (s : UState) : Keeps s (restoreModule env j) Sol := by
  unfold restoreModule
  split
  · refine Keeps.bind (Keeps.emit _) (fun _ s1 _ _ => Keeps.bind Keeps.ofExcept (fun r s2 _ hr => keeps_mkrefSol ?_))
    cases r with
    | none => exact noref (fun a e => by cases e)
    | some v => exact global_sol (g.mod _ v hr)
  · exact Keeps.throw

theorem keeps_restoreRepr (g : env.Globals) (j) (s : UState) : Keeps s (restoreRepr env j) Sol := by
  unfold restoreRepr
  split
  · exact Keeps.bind (Keeps.emit _) (fun _ s1 _ _ => Keeps.bind Keeps.ofExcept (fun v s2 _ hr => keeps_mkrefSol (global_sol (g.repr _ v hr))))
  · exact Keeps.throw

theorem keeps_missingRaw (n : Str) (kvs) (s : UState) : Keeps s (do processMissing env n; let r ← raw (.obj kvs); mkref r) Sol := by
  refine Keeps.bind (Q := fun _ _ => True) ?_ (fun _ s1 _ _ => Keeps.bind (keeps_raw _ s1) (fun r s2 _ hr => keeps_mkrefSol hr))
  unfold processMissing
  split
  · exact Keeps.pure trivial
  · exact Keeps.emit _
  · exact Keeps.emit _
  · exact Keeps.bind (Keeps.emit _) (fun _ _ _ _ => Keeps.throw)

include h in
theorem keeps_loadFactory {kvs} (hd : Free env (.obj kvs)) (s : UState) : Keeps s (loadFactory rs kvs) (fun h p => Sol h p.1 ∧ Free env (.obj p.2)) := by
  unfold loadFactory
  split
  · exact Keeps.pure ⟨noref (fun a h => by cases h), hd⟩
  · next k _ =>
    split
    · exact Keeps.pure ⟨noref (fun a h => by cases h), hd.ddel k⟩
    · exact Keeps.pure ⟨noref (fun a h => by cases h), hd.ddel k⟩
    · next j _ hj => exact Keeps.bind (h j (hd.get hj) _) (fun v s1 _ hv => Keeps.pure ⟨hv, hd.ddel k⟩)

include h in
theorem keeps_restorePickledKey {kvs} (hd : Free env (.obj kvs)) (hk : env.keys = true) {k : Str} {x : Json} (hm : (k, x) ∈ kvs) (s : UState) :
    Keeps s (restorePickledKey env rs k) (fun _ _ => True) := by
  unfold restorePickledKey
  refine Keeps.ite (fun hj => ?_) (fun _ => Keeps.pure trivial)
  cases hl : env.loads (k.drop Tags.JSON_KEY.length) with
  | none => exact Keeps.throw
  | some j => exact Keeps.imp (fun _ _ _ => trivial) (h j (fun hs => hd (.key hk hm hj hl hs)) s)

include h in
theorem keeps_restoreFromJson (a : Addr) {kvs} (hd : Free env (.obj kvs)) (s : UState) : Keeps s (restoreFromJson env rs a kvs) (fun _ _ => True) := by
  unfold restoreFromJson
  refine Keeps.bind (Keeps.mapU kvs s (fun kv hm s1 _ => ?_)) (fun _ _ _ _ => Keeps.pure trivial)
  refine Keeps.ite (fun _ => Keeps.pure trivial) (fun _ => Keeps.bind (Q := fun _ _ => True) ?_ (fun k s2 _ _ =>
    Keeps.bind (h _ (hd.value (k := kv.1) hm) _) (fun v s3 _ hv => keeps_storeEntry hv)))
  unfold restoreKey
  exact Keeps.ite (fun hk => keeps_restorePickledKey h hd hk (k := kv.1) (x := kv.2) hm _) (fun _ => Keeps.pure trivial)

theorem keeps_restoreFromVals (a : Addr) (kvs : List (Val × Val)) (s : UState) (hv : ∀ k v, (k, v) ∈ kvs → Sol s.heap v) : Keeps s (restoreFromVals a kvs) (fun _ _ => True) := by
  unfold restoreFromVals
  exact Keeps.bind (Keeps.mapU kvs s (fun kv hm s1 k1 => keeps_storeEntry ((hv kv.1 kv.2 hm).kept k1))) (fun _ _ _ _ => Keeps.pure trivial)

theorem dictEntries_sol {h : Heap} (hi : Cells h) {v : Val} {kvs} (e : dictEntries h v = some kvs) : ∀ k w, (k, w) ∈ kvs → Sol h w := by
  intro k w hw
  cases v with
  | ref a =>
    simp only [dictEntries] at e
    cases ha : h[a]? with
    | none => rw [ha] at e; cases e
    | some o =>
      rw [ha] at e
      have c := hi a _ ha
      cases o with
      | dict es => cases e; exact c k w hw
      | inst i =>
        dsimp only at e
        split at e
        · cases e; exact c.1 k w hw
        · cases e
      | _ => cases e
  | _ => cases e

theorem keeps_applyOtherState (a : Addr) (st : Val) (s : UState) (ha : Sol s.heap (.ref a)) (hst : Sol s.heap st) : Keeps s (applyOtherState a st) Sol := by
  unfold applyOtherState
  refine Keeps.get (fun hi => ?_)
  have tail : Keeps s (if (infoOf s.heap a).hasNewargs || (infoOf s.heap a).hasNewargsEx then Pure.pure (.ref a) else Pure.pure st : U Val) Sol :=
    Keeps.ite (fun _ => Keeps.pure ha) (fun _ => Keeps.pure hst)
  split
  · next x y =>
    cases hy : dictEntries s.heap y with
    | none => exact tail
    | some kvs =>
      refine Keeps.bind (keeps_restoreFromVals a kvs s (dictEntries_sol hi hy)) (fun _ s2 k2 _ => ?_)
      cases hx : dictEntries s.heap x with
      | none => exact Keeps.pure (ha.kept k2)
      | some kvs0 => exact Keeps.bind (keeps_restoreFromVals a kvs0 s2 (fun k v h => (dictEntries_sol hi hx k v h).kept k2)) (fun _ s3 k3 _ => Keeps.pure (ha.kept (k2.trans k3)))
  · exact tail

include h in
theorem keeps_restoreState (a : Addr) {j} (hd : Free env j) (s : UState) (ha : Sol s.heap (.ref a)) : Keeps s (restoreState rs a j) Sol := by
  unfold restoreState
  refine Keeps.bind (h j hd s) (fun st s1 k1 hst => Keeps.get (fun hi => ?_))
  have ha1 := ha.kept k1
  refine Keeps.ite (fun _ => Keeps.bind (Keeps.modInst a (fun i => ⟨rfl, rfl, rfl⟩)) (fun _ s3 k3 _ => Keeps.pure (ha1.kept k3))) (fun _ => ?_)
  cases hq : dictEntries s1.heap st with
  | some kvs => exact Keeps.bind (keeps_restoreFromVals a kvs s1 (dictEntries_sol hi hq)) (fun _ s3 k3 _ => Keeps.pure (ha1.kept k3))
  | none => exact keeps_applyOtherState a st s1 ha1 hst

include h in
theorem keeps_restoreSeq (a : Addr) {j} (hd : Free env j) (s : UState) : Keeps s (restoreSeq rs a j) (fun _ _ => True) := by
  unfold restoreSeq
  refine Keeps.get (fun _ => ?_)
  split
  · refine Keeps.bind Keeps.ofExcept (fun xs s2 _ hxs => Keeps.bind (Keeps.mapU xs s2 (fun x hx s3 _ => ?_)) (fun _ _ _ _ => Keeps.pure trivial))
    exact Keeps.bind (h x (hd.iter hxs x hx) _) (fun v s4 _ _ => Keeps.modInst a (fun i => ⟨rfl, rfl, rfl⟩))
  · refine Keeps.bind Keeps.ofExcept (fun xs s2 _ hxs => Keeps.bind (Keeps.mapU xs s2 (fun x hx s3 _ => ?_)) (fun _ _ _ _ => Keeps.pure trivial))
    exact Keeps.bind (h x (hd.iter hxs x hx) _) (fun v s4 _ _ => Keeps.get (fun _ => Keeps.ite (fun _ => Keeps.modInst a (fun i => ⟨rfl, rfl, rfl⟩)) (fun _ => Keeps.throw)))
  · exact Keeps.pure trivial

include h in
theorem keeps_restoreVariables (a : Addr) {kvs} (hd : Free env (.obj kvs)) (s : UState) (ha : Sol s.heap (.ref a)) : Keeps s (restoreVariables env rs a kvs) Sol := by
  unfold restoreVariables
  refine Keeps.bind (keeps_restoreFromJson h a hd s) (fun _ s1 k1 _ => Keeps.bind (Q := fun _ _ => True) ?_ (fun _ s2 k2 _ => ?_))
  · unfold restoreSeqTag
    split
    · exact Keeps.pure trivial
    · next j hj => exact keeps_restoreSeq h a (hd.get hj) _
  · have ha2 := ha.kept (k1.trans k2)
    split
    · exact Keeps.pure ha2
    · next j hj => exact keeps_restoreState h a (hd.get hj) _ ha2

theorem keeps_getargs (g : env.Globals) {kvs} (hd : Free env (.obj kvs)) (s : UState) : Keeps s (getargs env kvs) (fun _ j => Free env j) := by
  unfold getargs
  split
  · next j hj => exact Keeps.pure (hd.get hj)
  · split
    · next j hj => exact Keeps.pure (hd.get hj)
    · split
      · next sq o hsq ho =>
        refine Keeps.bind (keeps_loadclassJ g _ _) (fun c s1 _ _ => ?_)
        split
        · split
          · exact Keeps.pure Free.nil
          · split
            · exact Keeps.throw
            · refine Keeps.pure ?_
              split
              · exact hd.get hsq
              · exact Free.nil
        · exact Keeps.pure Free.nil
      · exact Keeps.pure Free.nil

theorem keeps_ctorArgs (g : env.Globals) {kvs} (hd : Free env (.obj kvs)) (s : UState) : Keeps s (ctorArgs env kvs) (fun _ p => Free env p.1 ∧ Free env p.2) := by
  unfold ctorArgs
  split
  · next j hj =>
    refine Keeps.bind Keeps.ofExcept (fun xs s1 _ hxs => ?_)
    split
    · next a k => exact Keeps.pure ⟨(hd.get hj).iter hxs a (by simp), V1.free_kwArg ((hd.get hj).iter hxs k (by simp))⟩
    · exact Keeps.throw
  · exact Keeps.bind (keeps_getargs g hd _) (fun a _ _ ha => Keeps.pure ⟨ha, Free.empty⟩)

include h in
theorem keeps_restoreArg {j} (hd : Free env j) (s : UState) : Keeps s (restoreArg rs j) (fun _ _ => True) := by
  unfold restoreArg
  refine Keeps.ite (fun _ => Keeps.imp (fun _ _ _ => trivial) (h j hd s)) (fun _ => ?_)
  split <;> exact Keeps.pure trivial

include h in
theorem keeps_restoreInstance (g : env.Globals) (n) {kvs} (hd : Free env (.obj kvs)) (s : UState) : Keeps s (restoreInstance env rs n kvs) Sol := by
  unfold restoreInstance
  refine Keeps.bind (Keeps.alloc (o := .proxy none) trivial) (fun p s1 _ hp => Keeps.bind Keeps.mkref (fun _ s2 k2 _ => ?_))
  refine Keeps.bind (keeps_loadFactory h hd _) (fun fk s3 k3 hfac => ?_)
  obtain ⟨fac, kvs⟩ := fk
  obtain ⟨hfac, hd⟩ := hfac
  dsimp only at hfac hd ⊢
  refine Keeps.bind (keeps_ctorArgs g hd _) (fun aj s4 k4 haj => ?_)
  obtain ⟨ja, jk⟩ := aj
  dsimp only at haj ⊢
  refine Keeps.bind (keeps_restoreArg h haj.1 _) (fun args s5 k5 _ => ?_)
  refine Keeps.bind (keeps_restoreArg h haj.2 _) (fun kw s6 k6 _ => ?_)
  refine Keeps.get (fun _ => Keeps.bind (Keeps.emit _) (fun _ s8 k8 _ => ?_))
  have k38 := ((k4.trans k5).trans k6).trans k8
  have h8 : kindAt s8.heap p = some .proxy := k38 _ _ (k3 _ _ (k2 _ _ hp))
  cases hc : construct s6.heap n (env.classInfo n) fac args kw with
  | none => exact keeps_missingRaw n kvs s8
  | some inst =>
    obtain ⟨h1, h2, h3, h4⟩ := Held.construct_ok hc
    have hf : Sol (s8.heap ++ [.inst inst]) fac := hfac.kept (k38.trans (Kept.append _ _))
    refine keeps_replace h8 (by simp [kindOf]) (by simp [kindOf]) ⟨(fun k v hv => by rw [h1] at hv; cases hv), fun k v hv => ?_, fun v hv => ?_⟩ (fun a s9 k9 hs => ?_)
    · rcases h4 with h4 | h4
      · rw [h4] at hv; cases hv
      · rw [h4] at hv
        simp only [dget] at hv
        split at hv
        · cases hv; exact hf
        · cases hv
    · rcases h3 with h3 | h3
      · rw [h3] at hv; cases hv
      · rw [h3] at hv; cases hv; exact hf
    · refine Keeps.ite (fun _ => Keeps.pure hs) (fun _ => ?_)
      exact Keeps.bind (keeps_restoreVariables h a hd s9 hs) (fun v s10 _ hv => Keeps.bind (keeps_fixFactory v) (fun _ s11 k11 _ => Keeps.pure (hv.kept k11)))

include h in
theorem keeps_restoreDate {kvs} (hd : Free env (.obj kvs)) (s : UState) : Keeps s (restoreDate env rs kvs) Sol := by
  unfold restoreDate
  refine Keeps.bind Keeps.ofExcept (fun r s1 _ hr => Keeps.bind Keeps.ofExcept (fun parts s2 _ hps => ?_))
  have hi := (hd.item hr).iter hps
  split
  · next c a =>
    refine Keeps.bind (h c (hi c (by simp)) _) (fun cls s3 _ _ => Keeps.bind Keeps.ofExcept (fun pa s4 _ hpa => Keeps.bind Keeps.ofExcept (fun b s5 _ _ => ?_)))
    refine Keeps.bind (keeps_mapM h (V1.free_dateArgs (hi a (by simp)) hpa) s5) (fun params s6 _ _ => ?_)
    split
    · exact Keeps.bind (Keeps.emit _) (fun _ s7 _ _ => Keeps.bind (Keeps.alloc (new_cell rfl rfl rfl)) (fun a s8 _ ha => Keeps.pure (sol_kind ha (by simp [kindOf]) (by simp [kindOf]))))
    · exact Keeps.throw
  · exact Keeps.throw

include h in
theorem keeps_handlerRestore (k n) {kvs} (hd : Free env (.obj kvs)) (s : UState) : Keeps s (handlerRestore env rs k n kvs) Sol := by
  unfold handlerRestore
  split
  · refine Keeps.bind (Keeps.mapU (ddel Tags.OBJECT kvs) s (fun kv hm s1 _ => Keeps.bind (h kv.2 ((hd.ddel Tags.OBJECT).value (k := kv.1) hm) _) (fun v _ _ _ => Keeps.pure trivial))) (fun fs s1 _ _ => ?_)
    exact Keeps.bind (Keeps.alloc (new_cell rfl rfl rfl)) (fun a s8 _ ha => Keeps.pure (sol_kind ha (by simp [kindOf]) (by simp [kindOf])))
  · exact keeps_restoreDate h hd s
  · exact Keeps.bind (Keeps.alloc (new_cell rfl rfl rfl)) (fun a s8 _ ha => Keeps.pure (sol_kind ha (by simp [kindOf]) (by simp [kindOf])))
  · exact Keeps.throw

include h in
theorem keeps_restoreHandled (k n) {kvs} (hd : Free env (.obj kvs)) (s : UState) : Keeps s (restoreHandled env rs k n kvs) Sol := by
  unfold restoreHandled
  refine Keeps.bind (Keeps.alloc (o := .proxy none) trivial) (fun p s1 _ hp => Keeps.bind Keeps.mkref (fun _ s2 k2 _ => ?_))
  refine Keeps.bind (keeps_handlerRestore h k n hd s2) (fun v s3 k3 hv => ?_)
  exact Keeps.bind (Keeps.setCell (o := .proxy (some v)) (k3 _ _ (k2 _ _ hp)) trivial) (fun _ s4 k4 _ => Keeps.bind Keeps.swapref (fun _ s5 k5 _ => Keeps.pure (hv.kept (k4.trans k5))))

include h in
theorem keeps_restoreObject (g : env.Globals) {kvs} (hd : Free env (.obj kvs)) (s : UState) : Keeps s (restoreObject env rs kvs) Sol := by
  unfold restoreObject
  refine Keeps.bind Keeps.ofExcept (fun j s1 _ _ => Keeps.bind (keeps_loadclassJ g _ _) (fun c s2 _ _ => ?_))
  cases j with
  | str n =>
    refine Keeps.bind (Keeps.emit _) (fun _ s3 _ _ => ?_)
    split
    · exact keeps_restoreHandled h _ _ hd _
    · split
      · exact keeps_missingRaw _ _ _
      · exact keeps_restoreInstance h g _ hd _
  | _ => exact Keeps.throw

theorem keeps_restoreFunction (g : env.Globals) (kvs) (s : UState) : Keeps s (restoreFunction env kvs) Sol := by
  unfold restoreFunction
  refine Keeps.bind Keeps.ofExcept (fun j s1 _ _ => Keeps.bind (keeps_loadclassJ g _ _) (fun c s2 _ hc => ?_))
  cases c with
  | none => exact Keeps.pure (noref (fun a h => by cases h))
  | some v => exact Keeps.pure (global_sol (hc v rfl))

include h in
theorem keeps_restoreTuple {kvs} (hd : Free env (.obj kvs)) (s : UState) : Keeps s (restoreTuple rs kvs) Sol := by
  unfold restoreTuple
  refine Keeps.bind (Q := fun _ _ => True) (Keeps.tryCatch (Keeps.bind Keeps.ofExcept (fun j s3 _ hj => Keeps.bind Keeps.ofExcept (fun xs s4 _ hxs =>
    Keeps.imp (fun _ _ _ => trivial) (keeps_mapM h ((hd.item hj).iter hxs) s4)))) (fun e s3 _ => Keeps.pure trivial)) (fun vs s3 _ _ => ?_)
  exact Keeps.bind Keeps.fresh (fun n s4 _ _ => Keeps.pure (noref (fun a h => by cases h)))

include h in
theorem keeps_restoreSet {kvs} (hd : Free env (.obj kvs)) (s : UState) : Keeps s (restoreSet rs kvs) Sol := by
  unfold restoreSet
  refine Keeps.bind (Q := fun _ _ => True) (Keeps.tryCatch (Keeps.bind Keeps.ofExcept (fun j s3 _ hj => Keeps.bind Keeps.ofExcept (fun xs s4 _ hxs =>
    Keeps.foldM xs s4 [] (fun b x hx s5 => Keeps.bind (h x ((hd.item hj).iter hxs x hx) s5) (fun v s6 _ _ => Keeps.get (fun _ => Keeps.ite (fun _ => Keeps.pure trivial) (fun _ => Keeps.throw)))))))
    (fun e s3 _ => Keeps.pure trivial)) (fun vs s3 _ _ => ?_)
  exact Keeps.bind Keeps.fresh (fun n s4 _ _ => Keeps.pure (noref (fun a h => by cases h)))

include h in
theorem keeps_dictEntry (a : Addr) {kv : Str × Json} (hd : Free env kv.2) (s : UState) : Keeps s (dictEntry rs a kv) (fun _ _ => True) := by
  unfold dictEntry
  exact Keeps.bind (h _ hd _) (fun v s4 k4 hv => Keeps.bind (Put.keeps (put_dictSet _ _ _ _) hv) (fun _ s5 k5 _ => Keeps.noteProxy (hv.kept k5)))

include h in
theorem keeps_restoreDict {kvs} (hd : Free env (.obj kvs)) (s : UState) : Keeps s (restoreDict env rs kvs) Sol := by
  unfold restoreDict
  refine Keeps.bind (Keeps.alloc (o := .dict []) (fun k v h => by cases h)) (fun a s1 _ ha => ?_)
  refine Keeps.bind (Q := fun _ _ => True) ?_ (fun _ s2 k2 _ => ?_)
  · unfold mkrefUnlessV1
    exact Keeps.ite (fun _ => Keeps.pure trivial) (fun _ => Keeps.bind Keeps.mkref (fun _ _ _ _ => Keeps.pure trivial))
  · have fin : ∀ {s3 : UState}, Kept s2.heap s3.heap → Sol s3.heap (.ref a) := fun k3 => sol_kind (k3 _ _ (k2 _ _ ha)) (by simp [kindOf]) (by simp [kindOf])
    refine Keeps.ite (fun hk => ?_) (fun _ => ?_)
    · refine Keeps.bind (Keeps.mapU kvs s2 (fun kv hm s3 k3 => ?_)) (fun _ s3 k3 _ => Keeps.bind (Keeps.mapU kvs s3 (fun kv hm s4 k4 => ?_)) (fun _ s4 k4 _ => Keeps.pure (fin (k3.trans k4))))
      · unfold dictEntry1
        exact Keeps.ite (fun _ => Keeps.pure trivial) (fun _ => Keeps.bind (h _ (hd.value (k := kv.1) hm) _) (fun v s4 k4 hv => Put.keeps (put_dictSet _ _ _ _) hv))
      · unfold dictEntry2
        exact Keeps.ite (fun _ => Keeps.bind (keeps_restorePickledKey h hd hk (k := kv.1) (x := kv.2) hm _) (fun k s5 _ _ => Keeps.bind (h _ (hd.value (k := kv.1) hm) _) (fun v s6 _ hv =>
          Keeps.bind (Put.keeps (put_dictSet _ _ _ _) hv) (fun _ s7 k7 _ => Keeps.noteProxy (hv.kept k7))))) (fun _ => Keeps.pure trivial)
    · exact Keeps.bind (Keeps.mapU kvs s2 (fun kv hm s3 k3 => keeps_dictEntry h a (hd.value (k := kv.1) hm) _)) (fun _ s3 k3 _ => Keeps.pure (fin k3))

theorem keeps_bytes {α : Type} {s : UState} (r : Except Exc Bytes) (f : Nat → Bytes → α) {Q : Heap → α → Prop} (hq : ∀ s n b, Q s (f n b)) :
    Keeps s (do let b ← PyM.ofExcept r; let n ← fresh; Pure.pure (f n b) : U α) Q :=
  Keeps.bind Keeps.ofExcept (fun _ _ _ _ => Keeps.bind Keeps.fresh (fun _ _ _ _ => Keeps.pure (hq _ _ _)))

include h in
theorem keeps_restoreTags (g : env.Globals) {kvs} (hd : Free env (.obj kvs)) (s : UState) : Keeps s (restoreTags env rs kvs) Sol := by
  unfold restoreTags
  refine Keeps.ite (fun _ => keeps_restoreTuple h hd _) (fun _ => ?_)
  refine Keeps.ite (fun _ => keeps_restoreSet h hd _) (fun _ => ?_)
  refine Keeps.ite (fun _ => keeps_bytes _ _ (fun _ _ _ => noref (fun a h => by cases h))) (fun _ => ?_)
  refine Keeps.ite (fun _ => keeps_bytes _ _ (fun _ _ _ => noref (fun a h => by cases h))) (fun _ => ?_)
  refine Keeps.ite (fun _ => keeps_bytes _ _ (fun _ _ _ => noref (fun a h => by cases h))) (fun _ => ?_)
  refine Keeps.ite (fun hq => absurd hq (by rw [hd.noId]; simp)) (fun _ => ?_)
  refine Keeps.ite (fun _ => keeps_restoreIterator h hd _) (fun _ => ?_)
  refine Keeps.ite (fun _ => keeps_restoreObject h g hd _) (fun _ => ?_)
  refine Keeps.ite (fun _ => keeps_restoreType g _ _) (fun _ => ?_)
  refine Keeps.ite (fun _ => keeps_restoreReduce h hd _) (fun _ => ?_)
  refine Keeps.ite (fun _ => keeps_restoreFunction g _ _) (fun _ => ?_)
  refine Keeps.ite (fun _ => Keeps.bind Keeps.ofExcept (fun _ _ _ _ => keeps_restoreModule g _ _)) (fun _ => ?_)
  exact Keeps.ite (fun _ => Keeps.bind Keeps.ofExcept (fun _ _ _ _ => Keeps.ite (fun _ => keeps_restoreModule g _ _) (fun _ => keeps_restoreRepr g _ _))) (fun _ => keeps_restoreDict h hd _)

end

theorem keeps_restore {env : UEnv} (g : env.Globals) : ∀ (n : Nat) (j : Json), Free env j → ∀ (s : UState), Keeps s (restore env n j) Sol
  | 0, _, _, _ => fun _ r s' h => by cases h
  | n + 1, j, hd, s => by
    have ih := keeps_restore g n
    rw [restore]
    unfold restoreStep
    cases j with
    | arr xs => exact Keeps.bind (keeps_restoreList ih (fun l hl x hx => by cases hl; exact hd.arr hx) _) (fun a _ _ ha => Keeps.pure ha)
    | obj kvs => exact keeps_restoreTags ih g hd _
    | _ => exact Keeps.pure (noref (fun a h => by cases h))

end JP.Unpickler.Quiet
