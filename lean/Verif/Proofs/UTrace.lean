import Verif.Unpickler
/-!
# A trace logic for the decoder

`Traced G x` says that a run of `x` only appends events to the log, and that the appended events
together with the exception raised (if any) satisfy `G`.  `TraceRule` lists what `G` must be closed
under for all of `restore` to satisfy it.
-/
namespace JP.Unpickler
open JP PyM

/-- the exception of a result, if any -/
def errOf {α : Type} : Except Exc α → Option Exc
  | .ok _ => none
  | .error e => some e

def Traced {α : Type} (G : List Event → Option Exc → Prop) (x : U α) : Prop :=
  ∀ s r s', x s = some (r, s') → ∃ evs, s'.log = s.log ++ evs ∧ G evs (errOf r)

structure TraceRule (env : UEnv) (G : List Event → Option Exc → Prop) : Prop where
  nil : ∀ e, G [] e
  app : ∀ {a b e}, G a none → G b e → G (a ++ b) e
  caught : ∀ {a b e}, G a (some .typeError) → G b e → G (a ++ b) e
  imp : ∀ n, G [.imp n] none
  call : ∀ n, G [.call n] none
  miss : ∀ n, env.onMissing = .warn ∨ env.onMissing = .callback → G [.missing n] none
  missErr : ∀ n, env.onMissing = .error → G [.missing n] (some .classNotFound)
  eval : ∀ t, env.safe = false → G [.eval t] none
  obj : ∀ n, env.loadclass n ≠ none ∨ env.handler n ≠ none ∨ env.onMissing ≠ .error → G [.obj n] none
  objErr : ∀ n, env.onMissing = .error → G [.obj n, .missing n] (some .classNotFound)

namespace Traced
variable {env : UEnv} {G : List Event → Option Exc → Prop} (R : TraceRule env G)
include R

/-- a computation that does not write to the log -/
theorem quiet {α : Type} {x : U α} (h : ∀ s r s', x s = some (r, s') → s'.log = s.log) : Traced G x :=
  fun s r s' hx => ⟨[], by rw [h s r s' hx, List.append_nil], R.nil _⟩

theorem pure {α : Type} (a : α) : Traced G (pure a : U α) :=
  quiet R (fun s r s' h => by cases h; rfl)

theorem pureP {α : Type} (a : α) : Traced G (PyM.pure a : U α) :=
  quiet R (fun s r s' h => by cases h; rfl)

theorem throw {α : Type} (e : Exc) : Traced G (PyM.throw e : U α) :=
  quiet R (fun s r s' h => by cases h; rfl)

theorem get : Traced G (PyM.get : U UState) :=
  quiet R (fun s r s' h => by cases h; rfl)

theorem ofExcept {α : Type} (e : Except Exc α) : Traced G (PyM.ofExcept e : U α) :=
  quiet R (fun s r s' h => by cases h; rfl)

theorem bind {α β : Type} {x : U α} {f : α → U β} (hx : Traced G x) (hf : ∀ a, Traced G (f a)) :
    Traced G (x >>= f) := by
  intro s r s' h
  rw [bind_run] at h
  cases he : x s with
  | none => rw [he] at h; cases h
  | some p =>
    obtain ⟨q, s1⟩ := p
    rw [he] at h
    obtain ⟨evs, hl, hg⟩ := hx s q s1 he
    cases q with
    | error e =>
      cases h
      exact ⟨evs, hl, hg⟩
    | ok a =>
      obtain ⟨evs', hl', hg'⟩ := hf a s1 r s' h
      exact ⟨evs ++ evs', by rw [hl', hl, List.append_assoc], R.app hg hg'⟩

theorem tryCatch {α : Type} {x : U α} {f : Exc → U α} (hx : Traced G x) (hf : ∀ e, Traced G (f e)) :
    Traced G (PyM.tryCatch x (· == .typeError) f) := by
  intro s r s' h
  unfold PyM.tryCatch at h
  cases he : x s with
  | none => rw [he] at h; cases h
  | some p =>
    obtain ⟨q, s1⟩ := p
    rw [he] at h
    obtain ⟨evs, hl, hg⟩ := hx s q s1 he
    cases q with
    | ok a =>
      cases h
      exact ⟨evs, hl, hg⟩
    | error e =>
      simp only [] at h
      split at h
      · next hp =>
        have : e = .typeError := by simpa using hp
        subst this
        obtain ⟨evs', hl', hg'⟩ := hf _ s1 r s' h
        exact ⟨evs ++ evs', by rw [hl', hl, List.append_assoc], R.caught hg hg'⟩
      · cases h
        exact ⟨evs, hl, hg⟩

theorem mapM {α β : Type} {f : α → U β} (h : ∀ a, Traced G (f a)) : ∀ xs, Traced G (PyM.mapM f xs)
  | [] => quiet R (fun s r s' h => by cases h; rfl)
  | x :: xs => by
    rw [mapM_cons]
    exact bind R (h x) (fun _ => bind R (mapM h xs) (fun _ => pure R _))

theorem foldM {α β : Type} {f : β → α → U β} (h : ∀ b a, Traced G (f b a)) :
    ∀ xs b, Traced G (PyM.foldM f b xs)
  | [], _ => quiet R (fun s r s' h => by cases h; rfl)
  | x :: xs, b => by
    rw [foldM_cons]
    exact bind R (h b x) (fun b => foldM h xs b)

theorem emit {e : Event} (h : G [e] none) : Traced G (emit e) := by
  intro s r s' hx
  cases hx
  exact ⟨[e], rfl, h⟩

theorem alloc (o : Obj) : Traced G (alloc o) := quiet R (fun s r s' h => by cases h; rfl)
theorem setCell (a o) : Traced G (setCell a o) := quiet R (fun s r s' h => by cases h; rfl)
theorem modInst (a f) : Traced G (modInst a f) := quiet R (fun s r s' h => by
  unfold Unpickler.modInst at h
  rw [modify_run] at h
  cases h
  split <;> rfl)
theorem fresh : Traced G fresh := quiet R (fun s r s' h => by cases h; rfl)
theorem mkref (v) : Traced G (mkref v) := quiet R (fun s r s' h => by
  unfold Unpickler.mkref at h
  split at h <;> (cases h; rfl))
theorem swapref (p v) : Traced G (swapref p v) := quiet R (fun s r s' h => by
  unfold Unpickler.swapref at h
  split at h <;> (cases h; rfl))
theorem noteProxy (a sl v) : Traced G (noteProxy a sl v) := quiet R (fun s r s' h => by
  unfold Unpickler.noteProxy at h
  rw [modify_run] at h
  cases h
  split <;> rfl)
theorem noteEntry (a k v) : Traced G (noteEntry a k v) := quiet R (fun s r s' h => by
  unfold Unpickler.noteEntry at h
  split at h
  · cases h; rfl
  · unfold Unpickler.noteProxy at h
    rw [modify_run] at h
    cases h
    split <;> rfl)
theorem setattr (a k v) : Traced G (setattr a k v) := quiet R (fun s r s' h => by
  unfold Unpickler.setattr at h
  repeat' split at h
  all_goals (cases h; rfl))
theorem setItem (a k v) : Traced G (setItem a k v) := quiet R (fun s r s' h => by
  unfold Unpickler.setItem at h
  repeat' split at h
  all_goals (cases h; rfl))
theorem setAttrMangled (a k v) : Traced G (setAttrMangled a k v) := by
  intro s r s' h
  unfold Unpickler.setAttrMangled at h
  repeat' split at h
  all_goals first
    | exact setattr R _ _ _ s r s' h
    | (cases h; exact ⟨[], by rw [List.append_nil], R.nil _⟩)
theorem storeRaw (a k v) : Traced G (storeRaw a k v) := by
  intro s r s' h
  unfold Unpickler.storeRaw at h
  split at h
  · exact setItem R _ _ _ s r s' h
  · exact setAttrMangled R _ _ _ s r s' h
theorem dictSet (a k v) : Traced G (dictSet a k v) := quiet R (fun s r s' h => by
  unfold Unpickler.dictSet at h
  repeat' split at h
  all_goals (cases h; rfl))
theorem fixFactory (v) : Traced G (fixFactory v) := quiet R (fun s r s' h => by
  unfold Unpickler.fixFactory at h
  rw [modify_run] at h
  cases h
  repeat' split
  all_goals rfl)
theorem swapOne (e) : Traced G (swapOne e) := by
  intro s r s' h
  unfold Unpickler.swapOne at h
  simp only [] at h
  split at h
  all_goals first
    | exact setattr R _ _ _ s r s' h
    | (cases h; exact ⟨[], by rw [List.append_nil], R.nil _⟩)
theorem swapProxies : Traced G swapProxies := by
  unfold Unpickler.swapProxies
  exact bind R (get R) (fun s => bind R (mapM R (swapOne R) _) (fun _ =>
    quiet R (fun s r s' h => by cases h; rfl)))
theorem reset : Traced G reset := quiet R (fun s r s' h => by cases h; rfl)

end Traced

section
variable {env : UEnv} {rs : Json → U Val} {G : List Event → Option Exc → Prop}

/-- close a `Traced` goal by following the program -/
macro "tr" R:term ", " h:term : tactic => `(tactic| repeat' first
  | exact $h _
  | exact Traced.pure $R _
  | exact Traced.pureP $R _
  | exact Traced.throw $R _
  | exact Traced.get $R
  | exact Traced.ofExcept $R _
  | exact Traced.alloc $R _
  | exact Traced.setCell $R _ _
  | exact Traced.modInst $R _ _
  | exact Traced.fresh $R
  | exact Traced.mkref $R _
  | exact Traced.swapref $R _ _
  | exact Traced.noteProxy $R _ _ _
  | exact Traced.noteEntry $R _ _ _
  | exact Traced.storeRaw $R _ _ _
  | exact Traced.dictSet $R _ _ _
  | exact Traced.fixFactory $R _
  | exact Traced.emit $R (TraceRule.imp $R _)
  | exact Traced.emit $R (TraceRule.call $R _)
  | with_reducible apply Traced.bind $R
  | with_reducible apply Traced.tryCatch $R
  | with_reducible apply Traced.mapM $R
  | with_reducible apply Traced.foldM $R
  | with_reducible intro _
  | split)

variable (R : TraceRule env G)
include R

mutual
theorem tr_raw : ∀ j, Traced G (raw j)
  | .null | .bool _ | .int _ | .float _ | .str _ => by unfold raw; tr R, (fun (x : Empty) => nomatch x)
  | .arr xs => by
    unfold raw
    exact Traced.bind R (tr_raws xs) (fun _ => Traced.bind R (Traced.alloc R _) (fun _ => Traced.pure R _))
  | .obj kvs => by
    unfold raw
    exact Traced.bind R (tr_rawKvs kvs) (fun _ => Traced.bind R (Traced.alloc R _) (fun _ => Traced.pure R _))
theorem tr_raws : ∀ xs, Traced G (raws xs)
  | [] => by unfold raws; exact Traced.pure R _
  | x :: xs => by
    unfold raws
    exact Traced.bind R (tr_raw x) (fun _ => Traced.bind R (tr_raws xs) (fun _ => Traced.pure R _))
theorem tr_rawKvs : ∀ xs, Traced G (rawKvs xs)
  | [] => by unfold rawKvs; exact Traced.pure R _
  | (k, x) :: xs => by
    unfold rawKvs
    exact Traced.bind R (tr_raw x) (fun _ => Traced.bind R (tr_rawKvs xs) (fun _ => Traced.pure R _))
end

theorem tr_noteList (a) : ∀ n vs, Traced G (noteList a n vs)
  | _, [] => by unfold noteList; exact Traced.pure R _
  | n, v :: vs => by
    unfold noteList
    exact Traced.bind R (Traced.noteProxy R _ _ _) (fun _ => tr_noteList a _ vs)

theorem tr_restoreList (h : ∀ j, Traced G (rs j)) (xs) : Traced G (restoreList rs xs) := by
  have := fun (p : Addr × Nat × List Val) => tr_noteList R p.1 p.2.1 p.2.2
  unfold restoreList
  refine Traced.bind R (Traced.alloc R _) (fun a => ?_)
  refine Traced.bind R (Traced.mkref R _) (fun _ => ?_)
  refine Traced.bind R (Traced.ofExcept R _) (fun _ => ?_)
  refine Traced.bind R (Traced.mapM R h _) (fun _ => ?_)
  refine Traced.bind R (Traced.setCell R _ _) (fun _ => ?_)
  exact Traced.bind R (tr_noteList R _ _ _) (fun _ => Traced.pure R _)

theorem tr_restoreIterator (h : ∀ j, Traced G (rs j)) (kvs) : Traced G (restoreIterator rs kvs) := by
  have := tr_restoreList R h
  unfold restoreIterator; tr R, this

theorem tr_loadclassJ (j) : Traced G (loadclassJ env j) := by
  unfold loadclassJ; tr R, (fun (x : Empty) => nomatch x)

theorem tr_reduceFallback (p) : Traced G (reduceFallback p) := by
  unfold reduceFallback; tr R, (fun (x : Empty) => nomatch x)

theorem Traced.ite {α : Type} {c : Prop} [Decidable c] {x y : U α} (hx : Traced G x) (hy : Traced G y) :
    Traced G (if c then x else y) := by
  split
  · exact hx
  · exact hy

theorem tr_emitSetter (ops) : Traced G (emitSetter ops) := by
  unfold emitSetter
  split
  · exact Traced.emit R (R.call _)
  · exact Traced.emit R (R.call _)
  · exact Traced.pure R _

theorem tr_reduceFinish (p cls vals c d e g) : Traced G (reduceFinish env p cls vals c d e g) := by
  have h := tr_emitSetter (G := G) R
  unfold reduceFinish; tr R, h

theorem tr_reduceBuild (p vals) : Traced G (reduceBuild env p vals) := by
  have h := tr_reduceFallback R p
  have h' := tr_reduceFinish (env := env) R p
  unfold reduceBuild
  split
  · refine Traced.bind R (Traced.get R) (fun s => ?_)
    refine Traced.ite R (Traced.bind R (Traced.ofExcept R _) (fun a => ?_)) ?_
    all_goals
      repeat' first
        | exact Traced.throw R _
        | exact h
        | exact Traced.bind R (Traced.emit R (R.call _)) (fun _ => h' _ _ _ _ _ _)
        | split
  · exact Traced.throw R _

theorem tr_restoreReduce (h : ∀ j, Traced G (rs j)) (kvs) : Traced G (restoreReduce env rs kvs) := by
  unfold restoreReduce
  refine Traced.bind R (Traced.alloc R _) (fun p => Traced.bind R (Traced.mkref R _) (fun _ => ?_))
  refine Traced.bind R (by tr R, h) (fun r => ?_)
  split
  · exact tr_reduceFallback R _
  · exact tr_reduceBuild R _ _

theorem tr_idLookup (n) : Traced G (idLookup n) := by
  unfold idLookup
  refine Traced.bind R (Traced.get R) (fun s => ?_)
  cases pyIndex s.objs n <;> tr R, (fun (x : Empty) => nomatch x)

theorem tr_restoreId (kvs) : Traced G (restoreId kvs) := by
  unfold restoreId
  tr R, tr_idLookup R

theorem tr_restoreType (kvs) : Traced G (restoreType env kvs) := by
  unfold restoreType
  refine Traced.bind R (Traced.ofExcept R _) (fun j => Traced.bind R (tr_loadclassJ R j) (fun c => ?_))
  tr R, tr_raw R

theorem tr_restoreModule (j) : Traced G (restoreModule env j) := by
  unfold restoreModule; tr R, (fun (x : Empty) => nomatch x)

theorem tr_restoreRepr (hs : env.safe = false) (j) : Traced G (restoreRepr env j) := by
  unfold restoreRepr
  split
  · exact Traced.bind R (Traced.emit R (R.eval _ hs)) (fun _ => by tr R, (fun (x : Empty) => nomatch x))
  · exact Traced.throw R _

theorem tr_processMissing (n) : Traced G (processMissing env n) := by
  unfold processMissing
  split
  · exact Traced.pure R _
  · next h => exact Traced.emit R (R.miss n (.inl h))
  · next h => exact Traced.emit R (R.miss n (.inr h))
  · next h =>
    intro s r s' hx
    cases hx
    exact ⟨[.missing n], rfl, R.missErr n h⟩

theorem tr_loadFactory (h : ∀ j, Traced G (rs j)) (kvs) : Traced G (loadFactory rs kvs) := by
  unfold loadFactory; tr R, h

theorem tr_restorePickledKey (h : ∀ j, Traced G (rs j)) (k) : Traced G (restorePickledKey env rs k) := by
  unfold restorePickledKey; tr R, h

theorem tr_restoreKey (h : ∀ j, Traced G (rs j)) (k) : Traced G (restoreKey env rs k) := by
  unfold restoreKey
  split
  · exact tr_restorePickledKey R h k
  · exact Traced.pure R _

theorem tr_storeEntry (a k v) : Traced G (storeEntry a k v) := by
  unfold storeEntry; tr R, (fun (x : Empty) => nomatch x)

theorem tr_restoreFromJson (h : ∀ j, Traced G (rs j)) (a kvs) : Traced G (restoreFromJson env rs a kvs) := by
  unfold restoreFromJson
  refine Traced.bind R (Traced.mapM R (fun kv => ?_) _) (fun _ => Traced.pure R _)
  split
  · exact Traced.pure R _
  · exact Traced.bind R (tr_restoreKey R h _) (fun _ => Traced.bind R (h _) (fun _ => tr_storeEntry R _ _ _))

theorem tr_restoreFromVals (a kvs) : Traced G (restoreFromVals a kvs) := by
  unfold restoreFromVals
  exact Traced.bind R (Traced.mapM R (fun kv => tr_storeEntry R _ _ _) _) (fun _ => Traced.pure R _)

theorem tr_applyOtherState (a st) : Traced G (applyOtherState a st) := by
  have := tr_restoreFromVals R a
  unfold applyOtherState; tr R, this

theorem tr_restoreState (h : ∀ j, Traced G (rs j)) (a j) : Traced G (restoreState rs a j) := by
  unfold restoreState
  refine Traced.bind R (h _) (fun st => Traced.bind R (Traced.get R) (fun s => ?_))
  split
  · tr R, (fun (x : Empty) => nomatch x)
  · split
    · exact Traced.bind R (tr_restoreFromVals R _ _) (fun _ => Traced.pure R _)
    · exact tr_applyOtherState R _ _

theorem tr_restoreSeq (h : ∀ j, Traced G (rs j)) (a j) : Traced G (restoreSeq rs a j) := by
  unfold restoreSeq; tr R, h

theorem tr_restoreSeqTag (h : ∀ j, Traced G (rs j)) (a kvs) : Traced G (restoreSeqTag rs a kvs) := by
  unfold restoreSeqTag
  split
  · exact Traced.pure R _
  · exact tr_restoreSeq R h _ _

theorem tr_restoreVariables (h : ∀ j, Traced G (rs j)) (a kvs) : Traced G (restoreVariables env rs a kvs) := by
  unfold restoreVariables
  refine Traced.bind R (tr_restoreFromJson R h a kvs) (fun _ => Traced.bind R (tr_restoreSeqTag R h a kvs) (fun _ => ?_))
  split
  · exact Traced.pure R _
  · exact tr_restoreState R h _ _

theorem tr_getargs (kvs) : Traced G (getargs env kvs) := by
  unfold getargs
  tr R, tr_loadclassJ R

theorem tr_ctorArgs (kvs) : Traced G (ctorArgs env kvs) := by
  unfold ctorArgs
  tr R, tr_getargs R

theorem tr_restoreArg (h : ∀ j, Traced G (rs j)) (j) : Traced G (restoreArg rs j) := by
  unfold restoreArg; tr R, h

theorem tr_missingRaw (n : Str) (kvs) : Traced G (do processMissing env n; let r ← raw (.obj kvs); mkref r) :=
  Traced.bind R (tr_processMissing R n) (fun _ => Traced.bind R (tr_raw R _) (fun _ => Traced.mkref R _))

theorem tr_restoreInstance (h : ∀ j, Traced G (rs j)) (n kvs) : Traced G (restoreInstance env rs n kvs) := by
  unfold restoreInstance
  refine Traced.bind R (Traced.alloc R _) (fun p => Traced.bind R (Traced.mkref R _) (fun _ => Traced.bind R (tr_loadFactory R h _) (fun fk => ?_)))
  obtain ⟨fac, kvs⟩ := fk
  refine Traced.bind R (tr_ctorArgs R _) (fun aj => ?_)
  obtain ⟨ja, jk⟩ := aj
  refine Traced.bind R (tr_restoreArg R h _) (fun _ => Traced.bind R (tr_restoreArg R h _) (fun _ =>
    Traced.bind R (Traced.get R) (fun _ => Traced.bind R (Traced.emit R (R.call _)) (fun _ => ?_))))
  split
  · exact tr_missingRaw R _ _
  · refine Traced.bind R (Traced.alloc R _) (fun _ => Traced.bind R (Traced.setCell R _ _) (fun _ => Traced.bind R (Traced.swapref R _ _) (fun _ => ?_)))
    split
    · exact Traced.pure R _
    · exact Traced.bind R (tr_restoreVariables R h _ _) (fun _ => Traced.bind R (Traced.fixFactory R _) (fun _ => Traced.pure R _))

theorem tr_restoreDate (h : ∀ j, Traced G (rs j)) (kvs) : Traced G (restoreDate env rs kvs) := by
  unfold restoreDate; tr R, h

theorem tr_handlerRestore (h : ∀ j, Traced G (rs j)) (k n kvs) : Traced G (handlerRestore env rs k n kvs) := by
  have := tr_restoreDate R h kvs
  unfold handlerRestore; tr R, h
  exact this

theorem tr_restoreHandled (h : ∀ j, Traced G (rs j)) (k n kvs) : Traced G (restoreHandled env rs k n kvs) := by
  have := tr_handlerRestore R h k n
  unfold restoreHandled; tr R, this

theorem tr_restoreObject (h : ∀ j, Traced G (rs j)) (kvs) : Traced G (restoreObject env rs kvs) := by
  unfold restoreObject
  refine Traced.bind R (Traced.ofExcept R _) (fun j => ?_)
  cases j with
  | str n =>
    have key : Traced G (do
        emit (.obj n)
        match env.handler n with
        | some k => restoreHandled env rs k n kvs
        | none => match env.loadclass n with
          | none => do
            processMissing env n
            let r ← raw (.obj kvs)
            mkref r
          | some _ => restoreInstance env rs n kvs) := by
      cases hh : env.handler n with
      | some k => exact Traced.bind R (Traced.emit R (R.obj n (.inr (.inl (by rw [hh]; simp))))) (fun _ => tr_restoreHandled R h _ _ _)
      | none =>
        cases hc : env.loadclass n with
        | some v => exact Traced.bind R (Traced.emit R (R.obj n (.inl (by rw [hc]; simp)))) (fun _ => tr_restoreInstance R h _ _)
        | none =>
          by_cases ho : env.onMissing = .error
          · intro s r s' hx
            simp only [processMissing, ho] at hx
            cases hx
            exact ⟨[.obj n, .missing n], by simp, R.objErr n ho⟩
          · exact Traced.bind R (Traced.emit R (R.obj n (.inr (.inr ho)))) (fun _ => tr_missingRaw R _ _)
    exact Traced.bind (x := emit (.imp n)) R (Traced.emit R (R.imp _)) (fun _ => key)
  | _ => exact Traced.throw R _

theorem tr_restoreFunction (kvs) : Traced G (restoreFunction env kvs) := by
  unfold restoreFunction
  tr R, tr_loadclassJ R

theorem tr_restoreTuple (h : ∀ j, Traced G (rs j)) (kvs) : Traced G (restoreTuple rs kvs) := by
  unfold restoreTuple; tr R, h

theorem tr_restoreSet (h : ∀ j, Traced G (rs j)) (kvs) : Traced G (restoreSet rs kvs) := by
  unfold restoreSet; tr R, h

theorem tr_dictEntry (h : ∀ j, Traced G (rs j)) (a kv) : Traced G (dictEntry rs a kv) := by
  unfold dictEntry; tr R, h

theorem tr_dictEntry1 (h : ∀ j, Traced G (rs j)) (a kv) : Traced G (dictEntry1 rs a kv) := by
  unfold dictEntry1; tr R, h

theorem tr_dictEntry2 (h : ∀ j, Traced G (rs j)) (a kv) : Traced G (dictEntry2 env rs a kv) := by
  unfold dictEntry2
  split
  · refine Traced.bind R (tr_restorePickledKey R h _) (fun _ => ?_)
    tr R, h
  · exact Traced.pure R _

theorem tr_mkrefUnlessV1 (a) : Traced G (mkrefUnlessV1 env a) := by
  unfold mkrefUnlessV1; tr R, (fun (x : Empty) => nomatch x)

theorem tr_restoreDict (h : ∀ j, Traced G (rs j)) (kvs) : Traced G (restoreDict env rs kvs) := by
  unfold restoreDict
  refine Traced.bind R (Traced.alloc R _) (fun a => Traced.bind R (tr_mkrefUnlessV1 R a) (fun _ => ?_))
  split
  · exact Traced.bind R (Traced.mapM R (tr_dictEntry1 R h a) _) (fun _ => Traced.bind R (Traced.mapM R (tr_dictEntry2 R h a) _) (fun _ => Traced.pure R _))
  · exact Traced.bind R (Traced.mapM R (tr_dictEntry R h a) _) (fun _ => Traced.pure R _)

theorem tr_bytes {α : Type} (r : Except Exc Bytes) (f : Nat → Bytes → α) :
    Traced G (do let b ← PyM.ofExcept r; let n ← fresh; Pure.pure (f n b) : U α) :=
  Traced.bind R (Traced.ofExcept R _) (fun _ => Traced.bind R (Traced.fresh R) (fun _ => Traced.pure R _))

theorem tr_restoreTags (h : ∀ j, Traced G (rs j)) (kvs) : Traced G (restoreTags env rs kvs) := by
  unfold restoreTags
  refine Traced.ite R (tr_restoreTuple R h _) ?_
  refine Traced.ite R (tr_restoreSet R h _) ?_
  refine Traced.ite R (tr_bytes R _ _) ?_
  refine Traced.ite R (tr_bytes R _ _) ?_
  refine Traced.ite R (tr_bytes R _ _) ?_
  refine Traced.ite R (tr_restoreId R _) ?_
  refine Traced.ite R (tr_restoreIterator R h _) ?_
  refine Traced.ite R (tr_restoreObject R h _) ?_
  refine Traced.ite R (tr_restoreType R _) ?_
  refine Traced.ite R (tr_restoreReduce R h _) ?_
  refine Traced.ite R (tr_restoreFunction R _) ?_
  refine Traced.ite R (Traced.bind R (Traced.ofExcept R _) (fun _ => tr_restoreModule R _)) ?_
  refine Traced.ite R (Traced.bind R (Traced.ofExcept R _) (fun _ => ?_)) (tr_restoreDict R h _)
  split
  · exact tr_restoreModule R _
  · next hs => exact tr_restoreRepr R (by simpa using hs) _

theorem tr_restoreStep (h : ∀ j, Traced G (rs j)) (j) : Traced G (restoreStep env rs j) := by
  unfold restoreStep
  split
  all_goals first
    | exact Traced.pure R _
    | exact Traced.bind R (tr_restoreList R h _) (fun _ => Traced.pure R _)
    | exact tr_restoreTags R h _

theorem tr_restore : ∀ (n : Nat) (j), Traced G (restore env n j)
  | 0, _ => fun s r s' h => by cases h
  | n + 1, j => tr_restoreStep R (tr_restore n) j

theorem tr_restoreTop (n : Nat) (j b) : Traced G (restoreTop env n j b) := by
  unfold restoreTop
  split
  · exact Traced.bind R (Traced.reset R) (fun _ => Traced.bind R (tr_restore R n j) (fun _ =>
      Traced.bind R (Traced.swapProxies R) (fun _ => Traced.pure R _)))
  · exact tr_restore R n j

end
end JP.Unpickler
