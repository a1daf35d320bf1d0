import Verif.Proofs.UNames
/-!
# What the document does not name has no influence on decoding

`Two x y P`: started with an invariant state, `x` and `y` do the same, and `x` keeps the invariant and returns something with `P`
(`Flow`, Verif/Proofs/UNames.lean).  Established for the whole of `restore` in two environments that agree on the names in question.
-/
namespace JP.Unpickler
open JP PyM

/-- The environments have the same options and the same backend, and agree on the names in `D` and the classes and functions in `C`. -/
structure NAgree (env env' : UEnv) (C D : Str → Prop) : Prop where
  keys : env.keys = env'.keys
  safe : env.safe = env'.safe
  v1 : env.v1 = env'.v1
  onMissing : env.onMissing = env'.onMissing
  loads : env.loads = env'.loads
  cls : ∀ s, D s → env.loadclass s = env'.loadclass s
  mod : ∀ s, D s → env.loadmodule s = env'.loadmodule s
  handler : ∀ s, D s → env.handler s = env'.handler s
  info : ∀ n, C n → env.classInfo n = env'.classInfo n

variable {env env' : UEnv} {C D : Str → Prop} {N : Nat} {l0 : List Event}

def Two {α : Type} (C D : Str → Prop) (N : Nat) (l0 : List Event) (x y : U α) (P : α → Prop) : Prop :=
  Flow C D N l0 x P ∧ ∀ s, NInv C D N l0 s → x s = y s

namespace Two

theorem same {α : Type} {P : α → Prop} {x : U α} (h : Flow C D N l0 x P) : Two C D N l0 x x P := ⟨h, fun _ _ => rfl⟩
theorem eq {α : Type} {P : α → Prop} {x y : U α} (h : Flow C D N l0 x P) (e : x = y) : Two C D N l0 x y P := ⟨h, fun _ _ => by rw [e]⟩

theorem bind {α β : Type} {P : α → Prop} {Q : β → Prop} {x y : U α} {f g : α → U β} (hx : Two C D N l0 x y P) (hf : ∀ a, P a → Two C D N l0 (f a) (g a) Q) :
    Two C D N l0 (x >>= f) (y >>= g) Q := by
  refine ⟨Flow.bind hx.1 (fun a ha => (hf a ha).1), fun s hs => ?_⟩
  rw [bind_run, bind_run, ← hx.2 s hs]
  cases he : x s with
  | none => rfl
  | some p =>
    obtain ⟨q, s1⟩ := p
    have k := hx.1 s q s1 he hs
    cases q with
    | error e => rfl
    | ok a => exact (hf a (k.2 a rfl)).2 s1 k.1

theorem tryCatch {α : Type} {P : α → Prop} {x y : U α} {c : Exc → Bool} {f : Exc → U α} (hx : Two C D N l0 x y P) (hf : ∀ e, Flow C D N l0 (f e) P) :
    Two C D N l0 (PyM.tryCatch x c f) (PyM.tryCatch y c f) P := by
  refine ⟨Flow.tryCatch hx.1 hf, fun s hs => ?_⟩
  unfold PyM.tryCatch
  rw [hx.2 s hs]

theorem mapM {α β : Type} {P : β → Prop} {f g : α → U β} : ∀ {xs : List α}, (∀ a ∈ xs, Two C D N l0 (f a) (g a) P) →
    Two C D N l0 (PyM.mapM f xs) (PyM.mapM g xs) (fun ys => ∀ y ∈ ys, P y)
  | [], _ => same (Flow.mapM (fun a ha => by cases ha))
  | x :: xs, h => by
    rw [mapM_cons, mapM_cons]
    refine bind (h x List.mem_cons_self) (fun y hy => bind (mapM (xs := xs) (fun a ha => h a (List.mem_cons_of_mem _ ha))) (fun ys hys => same (Flow.pure (fun z hz => ?_))))
    rcases List.mem_cons.1 hz with rfl | hz
    · exact hy
    · exact hys z hz

theorem foldM {α β : Type} {P : β → Prop} {f g : β → α → U β} : ∀ {xs : List α} {b : β}, (∀ a ∈ xs, ∀ b, P b → Two C D N l0 (f b a) (g b a) P) → P b →
    Two C D N l0 (PyM.foldM f b xs) (PyM.foldM g b xs) P
  | [], _, _, hb => same (Flow.pure hb)
  | x :: xs, b, h, hb => by
    rw [foldM_cons, foldM_cons]
    exact bind (h x List.mem_cons_self b hb) (fun b' hb' => foldM (fun a ha => h a (List.mem_cons_of_mem _ ha)) hb')

theorem ite {α : Type} {P : α → Prop} {c : Prop} [Decidable c] {x y x' y' : U α} (hx : Two C D N l0 x x' P) (hy : Two C D N l0 y y' P) :
    Two C D N l0 (if c then x else y) (if c then x' else y') P := by
  split
  · exact hx
  · exact hy

end Two

section
variable {rs rs' : Json → U Val} (R : NRules env C D N) (A : NAgree env env' C D)
  (h : ∀ j, DocOk env D j → Two C D N l0 (rs j) (rs' j) (Fit C N))

include h in
theorem tw_restoreList {xs : Except Exc (List Json)} (hx : ∀ l, xs = .ok l → ∀ x ∈ l, DocOk env D x) :
    Two C D N l0 (restoreList rs xs) (restoreList rs' xs) (fun a => N ≤ a) := by
  unfold restoreList
  refine Two.bind (Two.same (Flow.alloc (fun x hx => by cases hx))) (fun a ha => Two.bind (Two.same (Flow.mkref (v := .ref a) ha)) (fun _ _ =>
    Two.bind (Two.same (Flow.ofExcept _)) (fun l hl => Two.bind (Two.mapM (fun x hm => h x (hx l hl x hm))) (fun vs hvs => Two.same (
      Flow.bind (Flow.setCell _ hvs) (fun _ _ => Flow.bind (fl_noteList _ _ hvs) (fun _ _ => Flow.pure ha)))))))

include h in
theorem tw_restoreIterator {kvs} (hd : DocOk env D (.obj kvs)) : Two C D N l0 (restoreIterator rs kvs) (restoreIterator rs' kvs) (Fit C N) := by
  unfold restoreIterator
  exact Two.bind (P := fun a => N ≤ a) (Two.tryCatch (Two.bind (Two.same (Flow.ofExcept _)) (fun j hj => tw_restoreList h (fun l hl => (hd.item hj).iter hl)))
    (fun _ => Flow.alloc (fun x hx => by cases hx)))
    (fun a ha => Two.same (Flow.bind (Flow.alloc ⟨(fun x hx => by cases hx), (fun x hx => by cases hx)⟩) (fun _ hb => Flow.pure hb)))

include R A in
theorem tw_loadclassJ {j : Json} (hj : ∀ s, j = .str s → D s) : Two C D N l0 (loadclassJ env j) (loadclassJ env' j) (fun c => ∀ v, c = some v → Fit C N v) := by
  refine Two.eq (fl_loadclassJ R hj) ?_
  unfold loadclassJ
  split
  · next s => rw [A.cls s (hj s rfl)]
  · rfl

theorem tw_reduceFinish {p : Addr} {cls : Str} (hc : env.classInfo cls = env'.classInfo cls) (vals c d e) {g : Val} (hg : Fit C N g) :
    Two C D N l0 (reduceFinish env p cls vals c d e g) (reduceFinish env' p cls vals c d e g) (Fit C N) := by
  refine Two.eq (fl_reduceFinish _ _ _ _ _ hg) ?_
  unfold reduceFinish reduceInst
  rw [hc]

include A in
theorem tw_reduceBuild {p : Addr} {vals : List Val} (hv : ∀ v ∈ vals, Fit C N v) : Two C D N l0 (reduceBuild env p vals) (reduceBuild env' p vals) (Fit C N) := by
  refine ⟨fl_reduceBuild hv, ?_⟩
  have key : Two C D N l0 (reduceBuild env p vals) (reduceBuild env' p vals) (fun _ => True) := by
    unfold reduceBuild
    split
    · next f args c d e g =>
      have hf : Fit C N f := hv f (by simp)
      have ha : Fit C N args := hv args (by simp)
      have hg : Fit C N g := hv g (by simp)
      refine Two.bind (Two.same Flow.get) (fun s0 hs0 => ?_)
      have fin : ∀ (n vals), C n → Two C D N l0 (emit (.call n) >>= fun _ => reduceFinish env p n vals c d e g) (emit (.call n) >>= fun _ => reduceFinish env' p n vals c d e g) (fun _ => True) :=
        fun n vals hn => Two.bind (Two.same (Flow.emit (e := .call n) hn)) (fun _ _ =>
          ⟨Flow.weaken (fl_reduceFinish _ _ _ _ _ hg) (fun _ _ => trivial), (tw_reduceFinish (A.info n hn) _ _ _ _ hg).2⟩)
      split
      · refine Two.bind (Two.same (Flow.ofExcept _)) (fun a hq => ?_)
        have h1 := newobj_fit hs0 ha hq
        obtain ⟨a1, a2⟩ := a
        cases a1 with
        | type n =>
          dsimp only
          rw [← A.info n h1]
          split
          · exact fin _ _ h1
          · exact Two.same (Flow.throw _)
        | _ => exact Two.same (Flow.throw _)
      · split
        · next n _ =>
          generalize starArgs _ _ = q
          cases q with
          | none => exact Two.same (Flow.throw _)
          | some l =>
            dsimp only
            rw [← A.info n hf]
            split
            · exact fin _ _ hf
            · exact Two.same (Flow.throw _)
        · next n _ =>
          generalize starArgs _ _ = q
          cases q with
          | none => exact Two.same (Flow.throw _)
          | some l =>
            dsimp only
            rw [← A.info n hf]
            split
            · exact fin _ _ hf
            · exact Two.same (Flow.throw _)
        · exact Two.same (Flow.weaken fl_reduceFallback (fun _ _ => trivial))
    · exact Two.same (Flow.throw _)
  exact key.2

include A h in
theorem tw_restoreReduce {kvs} (hd : DocOk env D (.obj kvs)) : Two C D N l0 (restoreReduce env rs kvs) (restoreReduce env' rs' kvs) (Fit C N) := by
  unfold restoreReduce
  refine Two.bind (Two.same (Flow.alloc (o := .proxy none) trivial)) (fun p hp => Two.bind (Two.same (Flow.mkref (v := .ref p) hp)) (fun _ _ =>
    Two.bind (P := fun r => ∀ vs, r = some vs → ∀ v ∈ vs, Fit C N v) (Two.tryCatch (Two.bind (Two.same (Flow.ofExcept _)) (fun j hj => Two.bind (Two.same (Flow.ofExcept _)) (fun xs hxs =>
      Two.bind (Two.mapM (fun x hx => h x ((hd.item hj).iter hxs x hx))) (fun vs hvs => Two.same (Flow.pure (fun ws hw => by cases hw; exact hvs))))))
      (fun _ => Flow.pure (fun ws hw => by cases hw))) (fun r hr => ?_)))
  cases r with
  | none => exact Two.same fl_reduceFallback
  | some vs =>
    refine tw_reduceBuild A (fun v hv => ?_)
    unfold padVals at hv
    rcases List.mem_append.1 hv with q | q
    · exact hr vs rfl v q
    · rw [(List.mem_replicate.1 q).2]; exact trivial

include R A in
theorem tw_restoreType {kvs} (hd : DocOk env D (.obj kvs)) : Two C D N l0 (restoreType env kvs) (restoreType env' kvs) (Fit C N) := by
  unfold restoreType
  refine Two.bind (Two.same (Flow.ofExcept _)) (fun j hj => Two.bind (tw_loadclassJ R A (fun s hs => hd.name (hs ▸ hj) (by simp))) (fun c hc => ?_))
  cases c with
  | some v => exact Two.same (Flow.pure (hc _ rfl))
  | none => exact Two.same (fl_raw _)

include R A in
theorem tw_restoreModule {j : Json} (hj : ∀ s, j = .str s → D s) : Two C D N l0 (restoreModule env j) (restoreModule env' j) (Fit C N) := by
  refine Two.eq (fl_restoreModule R hj) ?_
  unfold restoreModule
  split
  · next s => rw [A.mod s (hj s rfl)]
  · rfl

include h in
theorem tw_loadFactory {kvs} (hd : DocOk env D (.obj kvs)) :
    Two C D N l0 (loadFactory rs kvs) (loadFactory rs' kvs) (fun p => Fit C N p.1 ∧ DocOk env D (.obj p.2)) := by
  unfold loadFactory
  split
  · exact Two.same (Flow.pure ⟨trivial, hd⟩)
  · next k _ =>
    split
    · exact Two.same (Flow.pure ⟨trivial, hd.ddel k⟩)
    · exact Two.same (Flow.pure ⟨trivial, hd.ddel k⟩)
    · next j _ hj => exact Two.bind (h j (hd.get hj)) (fun v hv => Two.same (Flow.pure ⟨hv, hd.ddel k⟩))

include A h in
theorem tw_restorePickledKey {kvs} (hd : DocOk env D (.obj kvs)) (hk : env.keys = true) {k : Str} {x : Json}
    (hm : (k, x) ∈ kvs) : Two C D N l0 (restorePickledKey env rs k) (restorePickledKey env' rs' k) (Fit C N) := by
  unfold restorePickledKey
  rw [← A.loads]
  split
  · next hj =>
    split
    · exact Two.same (Flow.throw _)
    · next j hl => exact h j (fun s hs => hd s (.key hk hm hj hl hs))
  · exact Two.same (Flow.pure trivial)

include A h in
theorem tw_restoreKey {kvs} (hd : DocOk env D (.obj kvs)) {k : Str} {x : Json}
    (hm : (k, x) ∈ kvs) : Two C D N l0 (restoreKey env rs k) (restoreKey env' rs' k) (Fit C N) := by
  unfold restoreKey
  rw [← A.keys]
  split
  · next hk => exact tw_restorePickledKey A h hd hk hm
  · exact Two.same (Flow.pure trivial)

include A h in
theorem tw_restoreFromJson (a : Addr) {kvs} (hd : DocOk env D (.obj kvs)) :
    Two C D N l0 (restoreFromJson env rs a kvs) (restoreFromJson env' rs' a kvs) (fun _ => True) := by
  unfold restoreFromJson
  refine Two.bind (Two.mapM (P := fun _ => True) (fun kv hm => ?_)) (fun _ _ => Two.same (Flow.pure trivial))
  split
  · exact Two.same (Flow.pure trivial)
  · exact Two.bind (tw_restoreKey A h hd (k := kv.1) (x := kv.2) hm) (fun _ hk => Two.bind (h _ (hd.value (k := kv.1) hm)) (fun _ hv => Two.same (fl_storeEntry a hk hv)))

include h in
theorem tw_restoreState {a : Addr} (ha : N ≤ a) {j} (hd : DocOk env D j) : Two C D N l0 (restoreState rs a j) (restoreState rs' a j) (Fit C N) := by
  unfold restoreState
  refine Two.bind (h j hd) (fun st hst => Two.same (Flow.bind Flow.get (fun s hs => ?_)))
  split
  · exact Flow.bind (Flow.modInst a (fun i hi => hi)) (fun _ _ => Flow.pure ha)
  · split
    · next kvs hk => exact Flow.bind (fl_restoreFromVals a (hs.dictEntries hst hk)) (fun _ _ => Flow.pure ha)
    · exact fl_applyOtherState ha hst

include h in
theorem tw_restoreSeq (a : Addr) {j} (hd : DocOk env D j) : Two C D N l0 (restoreSeq rs a j) (restoreSeq rs' a j) (fun _ => True) := by
  unfold restoreSeq
  refine Two.bind (Two.same Flow.get) (fun s0 hs0 => ?_)
  split
  · refine Two.bind (Two.same (Flow.ofExcept _)) (fun xs hxs => Two.bind (Two.mapM (P := fun _ => True) (fun x hx =>
      Two.bind (h x (hd.iter hxs x hx)) (fun v hv => Two.same (Flow.modInst a (fun i hi => ⟨hi.1, fun w hw => ?_⟩))))) (fun _ _ => Two.same (Flow.pure trivial)))
    rcases List.mem_append.1 hw with q | q
    · exact hi.2 w q
    · rw [List.mem_singleton] at q; subst q; exact hv
  · refine Two.bind (Two.same (Flow.ofExcept _)) (fun xs hxs => Two.bind (Two.mapM (P := fun _ => True) (fun x hx =>
      Two.bind (h x (hd.iter hxs x hx)) (fun v hv => Two.bind (Two.same Flow.get) (fun s hs => ?_)))) (fun _ _ => Two.same (Flow.pure trivial)))
    split
    · exact Two.same (Flow.modInst a (fun i hi => ⟨hi.1, fit_sadd hv hi.2⟩))
    · exact Two.same (Flow.throw _)
  · exact Two.same (Flow.pure trivial)

include h in
theorem tw_restoreSeqTag (a : Addr) {kvs} (hd : DocOk env D (.obj kvs)) : Two C D N l0 (restoreSeqTag rs a kvs) (restoreSeqTag rs' a kvs) (fun _ => True) := by
  unfold restoreSeqTag
  split
  · exact Two.same (Flow.pure trivial)
  · next j hj => exact tw_restoreSeq h a (hd.get hj)

include A h in
theorem tw_restoreVariables {a : Addr} (ha : N ≤ a) {kvs} (hd : DocOk env D (.obj kvs)) :
    Two C D N l0 (restoreVariables env rs a kvs) (restoreVariables env' rs' a kvs) (Fit C N) := by
  unfold restoreVariables
  refine Two.bind (tw_restoreFromJson A h a hd) (fun _ _ => Two.bind (tw_restoreSeqTag h a hd) (fun _ _ => ?_))
  split
  · exact Two.same (Flow.pure ha)
  · next j hj => exact tw_restoreState h ha (hd.get hj)

include R A in
theorem tw_getargs {kvs} (hd : DocOk env D (.obj kvs)) : Two C D N l0 (getargs env kvs) (getargs env' kvs) (DocOk env D) := by
  unfold getargs
  split
  · next j hj => exact Two.same (Flow.pure (hd.get hj))
  · split
    · next j hj => exact Two.same (Flow.pure (hd.get hj))
    · split
      · next sq o hsq ho =>
        refine Two.bind (tw_loadclassJ R A (fun s hs => hd s (.here (t := Tags.OBJECT) (hs ▸ dget_mem' ho) (by simp)))) (fun c hc => ?_)
        split
        · next n =>
          rw [← A.info n (hc _ rfl)]
          split
          · exact Two.same (Flow.pure docOk_nil)
          · split
            · exact Two.same (Flow.throw _)
            · refine Two.same (Flow.pure ?_)
              split
              · exact hd.get hsq
              · exact docOk_nil
        · exact Two.same (Flow.pure docOk_nil)
      · exact Two.same (Flow.pure docOk_nil)

include R A in
theorem tw_ctorArgs {kvs} (hd : DocOk env D (.obj kvs)) : Two C D N l0 (ctorArgs env kvs) (ctorArgs env' kvs) (fun p => DocOk env D p.1 ∧ DocOk env D p.2) := by
  refine ⟨fl_ctorArgs R hd, fun s hs => ?_⟩
  unfold ctorArgs
  cases dget Tags.NEWARGSEX kvs with
  | some j => rfl
  | none => simp only []; rw [bind_run, bind_run, (tw_getargs R A hd).2 s hs]

include h in
theorem tw_restoreArg {j} (hd : DocOk env D j) : Two C D N l0 (restoreArg rs j) (restoreArg rs' j) (Fit C N) := by
  unfold restoreArg
  split
  · exact h j hd
  · split <;> exact Two.same (Flow.pure trivial)

include A in
theorem tw_missingRaw {n : Str} (hn : D n) (kvs) :
    Two C D N l0 (do processMissing env n; let r ← raw (.obj kvs); mkref r) (do processMissing env' n; let r ← raw (.obj kvs); mkref r) (Fit C N) := by
  refine Two.eq (fl_missingRaw hn kvs) ?_
  have : processMissing env n = processMissing env' n := by unfold processMissing; rw [A.onMissing]
  rw [this]

include R A h in
theorem tw_restoreInstance {n : Str} (hn : D n) {kvs} (hd : DocOk env D (.obj kvs)) :
    Two C D N l0 (restoreInstance env rs n kvs) (restoreInstance env' rs' n kvs) (Fit C N) := by
  unfold restoreInstance
  refine Two.bind (Two.same (Flow.alloc (o := .proxy none) trivial)) (fun p hp => Two.bind (Two.same (Flow.mkref (v := .ref p) hp)) (fun _ _ =>
    Two.bind (tw_loadFactory h hd) (fun fk hfk => ?_)))
  obtain ⟨fac, kvs⟩ := fk
  obtain ⟨hfac, hd⟩ := hfk
  refine Two.bind (tw_ctorArgs R A hd) (fun aj haj => ?_)
  obtain ⟨ja, jk⟩ := aj
  refine Two.bind (tw_restoreArg h haj.1) (fun args hargs => Two.bind (tw_restoreArg h haj.2) (fun kw _ => Two.bind (Two.same Flow.get) (fun s hs =>
    Two.bind (Two.same (Flow.emit (e := .call n) (R.named n hn))) (fun _ _ => ?_))))
  rw [← A.info n (R.named n hn)]
  split
  · exact tw_missingRaw A hn _
  · next inst hi =>
    refine Two.bind (Two.same (Flow.alloc (fit_construct hs hargs hi))) (fun a ha => Two.bind (Two.same (Flow.setCell p (o := .proxy (some (.ref a))) ha)) (fun _ _ =>
      Two.bind (Two.same (Flow.swapref p (v := .ref a) ha)) (fun _ _ => ?_)))
    split
    · exact Two.same (Flow.pure ha)
    · exact Two.bind (tw_restoreVariables A h ha hd) (fun v hv => Two.same (Flow.bind (Flow.fixFactory v) (fun _ _ => Flow.pure hv)))

include A h in
theorem tw_restoreDate {kvs} (hd : DocOk env D (.obj kvs)) : Two C D N l0 (restoreDate env rs kvs) (restoreDate env' rs' kvs) (Fit C N) := by
  unfold restoreDate
  refine Two.bind (Two.same (Flow.ofExcept _)) (fun r hr => Two.bind (Two.same (Flow.ofExcept _)) (fun ps hps => ?_))
  have hi := (hd.item hr).iter hps
  split
  · next c a =>
    refine Two.bind (h c (hi c (by simp))) (fun cls hcls => Two.bind (Two.same (Flow.ofExcept _)) (fun pa hpa => Two.bind (Two.same (Flow.ofExcept _)) (fun b _ =>
      Two.bind (Two.mapM (fun x hx => h x (docOk_dateArgs (hi a (by simp)) hpa x hx))) (fun params hparams => ?_))))
    split
    · next m =>
      rw [← A.info m hcls]
      exact Two.same (Flow.bind (Flow.emit (e := .call m) hcls) (fun _ _ =>
        Flow.bind (Flow.alloc ⟨(fun x hx => by cases hx), (fun x hx => by cases hx)⟩) (fun _ ha => Flow.pure ha)))
    · exact Two.same (Flow.throw _)
  · exact Two.same (Flow.throw _)

include R A h in
theorem tw_handlerRestore (k) {n : Str} (hn : D n) {kvs} (hd : DocOk env D (.obj kvs)) :
    Two C D N l0 (handlerRestore env rs k n kvs) (handlerRestore env' rs' k n kvs) (Fit C N) := by
  unfold handlerRestore
  rw [← A.info n (R.named n hn)]
  split
  · refine Two.bind (Two.mapM (P := fun _ => True) (fun kv hm => Two.bind (h kv.2 ((hd.ddel Tags.OBJECT).value (k := kv.1) hm)) (fun _ _ => Two.same (Flow.pure trivial)))) (fun fs _ =>
      Two.same (Flow.bind (Flow.alloc ⟨(fun x hx => by cases hx), (fun x hx => by cases hx)⟩) (fun _ ha => Flow.pure ha)))
  · exact tw_restoreDate A h hd
  · exact Two.same (Flow.bind (Flow.alloc ⟨(fun x hx => by cases hx), (fun x hx => by cases hx)⟩) (fun _ ha => Flow.pure ha))
  · exact Two.same (Flow.throw _)

include R A h in
theorem tw_restoreHandled (k) {n : Str} (hn : D n) {kvs} (hd : DocOk env D (.obj kvs)) :
    Two C D N l0 (restoreHandled env rs k n kvs) (restoreHandled env' rs' k n kvs) (Fit C N) := by
  unfold restoreHandled
  exact Two.bind (Two.same (Flow.alloc (o := .proxy none) trivial)) (fun p hp => Two.bind (Two.same (Flow.mkref (v := .ref p) hp)) (fun _ _ =>
    Two.bind (tw_handlerRestore R A h k hn hd) (fun v hv => Two.same (Flow.bind (Flow.setCell p (o := .proxy (some v)) hv) (fun _ _ =>
      Flow.bind (Flow.swapref p hv) (fun _ _ => Flow.pure hv))))))

include R A h in
theorem tw_restoreObject {kvs} (hd : DocOk env D (.obj kvs)) : Two C D N l0 (restoreObject env rs kvs) (restoreObject env' rs' kvs) (Fit C N) := by
  unfold restoreObject
  refine Two.bind (Two.same (Flow.ofExcept _)) (fun j hj => ?_)
  have hn : ∀ s, j = .str s → D s := fun s hs => hd.name (t := Tags.OBJECT) (hs ▸ hj) (by simp)
  refine Two.bind (tw_loadclassJ R A hn) (fun c _ => ?_)
  cases j with
  | str n =>
    have hn := hn n rfl
    refine Two.bind (Two.same (Flow.emit (e := .obj n) hn)) (fun _ _ => ?_)
    rw [← A.handler n hn]
    split
    · exact tw_restoreHandled R A h _ hn hd
    · split
      · exact tw_missingRaw A hn _
      · exact tw_restoreInstance R A h hn hd
  | _ => exact Two.same (Flow.throw _)

include R A in
theorem tw_restoreFunction {kvs} (hd : DocOk env D (.obj kvs)) : Two C D N l0 (restoreFunction env kvs) (restoreFunction env' kvs) (Fit C N) := by
  unfold restoreFunction
  refine Two.bind (Two.same (Flow.ofExcept _)) (fun j hj => Two.bind (tw_loadclassJ R A (fun s hs => hd.name (hs ▸ hj) (by simp))) (fun c hc => Two.same (Flow.pure ?_)))
  cases c with
  | none => exact trivial
  | some v => exact hc v rfl

include h in
theorem tw_restoreTuple {kvs} (hd : DocOk env D (.obj kvs)) : Two C D N l0 (restoreTuple rs kvs) (restoreTuple rs' kvs) (Fit C N) := by
  unfold restoreTuple
  exact Two.bind (P := fun vs => ∀ v ∈ vs, Fit C N v) (Two.tryCatch (Two.bind (Two.same (Flow.ofExcept _)) (fun j hj => Two.bind (Two.same (Flow.ofExcept _)) (fun xs hxs =>
    Two.mapM (fun x hx => h x ((hd.item hj).iter hxs x hx))))) (fun _ => Flow.pure (fun v hv => by cases hv)))
    (fun vs hvs => Two.same (Flow.bind Flow.fresh (fun _ _ => Flow.pure (fitL_iff.2 hvs))))

include h in
theorem tw_restoreSet {kvs} (hd : DocOk env D (.obj kvs)) : Two C D N l0 (restoreSet rs kvs) (restoreSet rs' kvs) (Fit C N) := by
  unfold restoreSet
  refine Two.bind (P := fun vs => ∀ v ∈ vs, Fit C N v) (Two.tryCatch (Two.bind (Two.same (Flow.ofExcept _)) (fun j hj => Two.bind (Two.same (Flow.ofExcept _)) (fun xs hxs =>
    Two.foldM (fun x hx acc hacc => Two.bind (h x ((hd.item hj).iter hxs x hx)) (fun v hv => Two.bind (Two.same Flow.get) (fun s _ => ?_))) (fun v hv => by cases hv))))
    (fun _ => Flow.pure (fun v hv => by cases hv))) (fun vs hvs => Two.same (Flow.bind Flow.fresh (fun _ _ => Flow.pure (fitL_iff.2 hvs))))
  split
  · exact Two.same (Flow.pure (fit_sadd hv hacc))
  · exact Two.same (Flow.throw _)

include A h in
theorem tw_restoreDict {kvs} (hd : DocOk env D (.obj kvs)) : Two C D N l0 (restoreDict env rs kvs) (restoreDict env' rs' kvs) (Fit C N) := by
  unfold restoreDict
  rw [← A.keys]
  refine Two.bind (Two.same (Flow.alloc (fun x hx => by cases hx))) (fun a ha => Two.bind (P := fun _ => True) ?_ (fun _ _ => ?_))
  · unfold mkrefUnlessV1
    rw [← A.v1]
    exact Two.ite (Two.same (Flow.pure trivial)) (Two.same (Flow.bind (Flow.mkref (v := .ref a) ha) (fun _ _ => Flow.pure trivial)))
  split
  · next hk =>
    refine Two.bind (Two.mapM (P := fun _ => True) (fun kv hm => ?_)) (fun _ _ => Two.bind (Two.mapM (P := fun _ => True) (fun kv hm => ?_)) (fun _ _ => Two.same (Flow.pure ha)))
    · unfold dictEntry1
      exact Two.ite (Two.same (Flow.pure trivial)) (Two.bind (h _ (hd.value (k := kv.1) hm)) (fun v hv => Two.same (Flow.dictSet a (fit_str _) hv)))
    · unfold dictEntry2
      exact Two.ite (Two.bind (tw_restorePickledKey A h hd hk (k := kv.1) (x := kv.2) hm) (fun k hkk => Two.bind (h _ (hd.value (k := kv.1) hm)) (fun v hv =>
        Two.same (Flow.bind (Flow.dictSet a hkk hv) (fun _ _ => Flow.noteProxy a (sl := .key k) hkk hv))))) (Two.same (Flow.pure trivial))
  · refine Two.bind (Two.mapM (P := fun _ => True) (fun kv hm => ?_)) (fun _ _ => Two.same (Flow.pure ha))
    unfold dictEntry
    exact Two.bind (h _ (hd.value (k := kv.1) hm)) (fun v hv => Two.same (Flow.bind (Flow.dictSet a (fit_str _) hv) (fun _ _ =>
      Flow.noteProxy a (sl := .key (.str kv.1)) trivial hv)))

include R A h in
theorem tw_restoreTags {kvs} (hd : DocOk env D (.obj kvs)) : Two C D N l0 (restoreTags env rs kvs) (restoreTags env' rs' kvs) (Fit C N) := by
  unfold restoreTags
  rw [← A.safe]
  refine Two.ite (tw_restoreTuple h hd) ?_
  refine Two.ite (tw_restoreSet h hd) ?_
  refine Two.ite (Two.same (fl_bytes _ (fun _ _ => trivial))) ?_
  refine Two.ite (Two.same (fl_bytes _ (fun _ _ => trivial))) ?_
  refine Two.ite (Two.same (fl_bytes _ (fun _ _ => trivial))) ?_
  refine Two.ite (Two.same (fl_restoreId _)) ?_
  refine Two.ite (tw_restoreIterator h hd) ?_
  refine Two.ite (tw_restoreObject R A h hd) ?_
  refine Two.ite (tw_restoreType R A hd) ?_
  refine Two.ite (tw_restoreReduce A h hd) ?_
  refine Two.ite (tw_restoreFunction R A hd) ?_
  refine Two.ite (Two.bind (Two.same (Flow.ofExcept _)) (fun j hj => tw_restoreModule R A (fun s hs => hd.name (hs ▸ hj) (by simp)))) ?_
  refine Two.ite (Two.bind (Two.same (Flow.ofExcept _)) (fun j hj => ?_)) (tw_restoreDict A h hd)
  rw [if_pos R.safe, if_pos R.safe]
  exact tw_restoreModule R A (fun s hs => hd.name (hs ▸ hj) (by simp))

include R A h in
theorem tw_restoreStep {j} (hd : DocOk env D j) : Two C D N l0 (restoreStep env rs j) (restoreStep env' rs' j) (Fit C N) := by
  unfold restoreStep
  split
  · exact Two.same (Flow.pure trivial)
  · exact Two.same (Flow.pure trivial)
  · exact Two.same (Flow.pure trivial)
  · exact Two.same (Flow.pure trivial)
  · exact Two.same (Flow.pure trivial)
  · exact Two.bind (tw_restoreList h (fun l hl x hx => by cases hl; exact hd.arr hx)) (fun _ ha => Two.same (Flow.pure ha))
  · exact tw_restoreTags R A h hd

end

theorem tw_restore (R : NRules env C D N) (A : NAgree env env' C D) : ∀ (n : Nat) (j), DocOk env D j →
    Two C D N l0 (restore env n j) (restore env' n j) (Fit C N)
  | 0, _, _ => ⟨(fun s r s' h => by cases h), fun _ _ => rfl⟩
  | n + 1, _, hd => tw_restoreStep R A (tw_restore R A n) hd

end JP.Unpickler
