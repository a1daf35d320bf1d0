import Verif.Unpickler
/-!
# Instances made by the decoder

`Makes env n x`: if every instance in cell `n` or above is one as the decoder makes them, this is still so after a run of `x`.
Established for the whole of `restore`.
-/
namespace JP.Unpickler
open JP PyM

/-- an instance as the decoder makes them: what is known about it comes from its class, nothing is excluded, and only a dict subclass
with `__dict__` may have its `__dict__` in a cell of its own -/
structure Made (env : UEnv) (i : Inst) : Prop where
  info : i.info = env.classInfo i.cls ∨ (i.cls = p!"builtins.list_iterator" ∧ i.info.isIterator = true)
  exclude : i.exclude = []
  dictCell : i.info.hasDict = false ∨ i.info.base ≠ .dict → i.dictCell = none

/-- in the cells from `n` on -/
def MadeFrom (env : UEnv) (n : Nat) (h : Heap) : Prop := ∀ (a : Addr) (i : Inst), n ≤ a → h[a]? = some (.inst i) → Made env i

variable {env : UEnv} {N : Nat}

theorem MadeFrom.set {h : Heap} (hm : MadeFrom env N h) {a : Addr} {o : Obj} (ho : ∀ i, o = .inst i → N ≤ a → Made env i) : MadeFrom env N (h.set a o) := by
  intro b i hb hi
  rw [List.getElem?_set] at hi
  split at hi
  · next e =>
    subst e
    split at hi
    · cases hi; exact ho i rfl hb
    · cases hi
  · exact hm b i hb hi

theorem MadeFrom.append {h : Heap} (hm : MadeFrom env N h) {o : Obj} (ho : ∀ i, o = .inst i → Made env i) : MadeFrom env N (h ++ [o]) := by
  intro b i hb hi
  by_cases hl : b < h.length
  · rw [List.getElem?_append_left hl] at hi
    exact hm b i hb hi
  · rw [List.getElem?_append_right (Nat.le_of_not_lt hl)] at hi
    cases hk : b - h.length with
    | zero => rw [hk] at hi; cases hi; exact ho i rfl
    | succ k => rw [hk] at hi; cases hi

def Makes {α : Type} (env : UEnv) (N : Nat) (x : U α) : Prop := ∀ s r s', x s = some (r, s') → MadeFrom env N s.heap → MadeFrom env N s'.heap

namespace Makes

theorem quiet {α : Type} {x : U α} (h : ∀ s r s', x s = some (r, s') → s'.heap = s.heap) : Makes env N x :=
  fun s r s' hx hm => by rw [h s r s' hx]; exact hm

theorem pure {α : Type} (a : α) : Makes env N (pure a : U α) := quiet (fun s r s' h => by cases h; rfl)
theorem pureP {α : Type} (a : α) : Makes env N (PyM.pure a : U α) := quiet (fun s r s' h => by cases h; rfl)
theorem throw {α : Type} (e : Exc) : Makes env N (PyM.throw e : U α) := quiet (fun s r s' h => by cases h; rfl)
theorem get : Makes env N (PyM.get : U UState) := quiet (fun s r s' h => by cases h; rfl)
theorem ofExcept {α : Type} (e : Except Exc α) : Makes env N (PyM.ofExcept e : U α) := quiet (fun s r s' h => by cases h; rfl)

theorem bind {α β : Type} {x : U α} {f : α → U β} (hx : Makes env N x) (hf : ∀ a, Makes env N (f a)) : Makes env N (x >>= f) := by
  intro s r s' h hm
  rw [bind_run] at h
  cases he : x s with
  | none => rw [he] at h; cases h
  | some p =>
    obtain ⟨q, s1⟩ := p
    rw [he] at h
    have k := hx s q s1 he hm
    cases q with
    | error e => cases h; exact k
    | ok a => exact hf a s1 r s' h k

theorem tryCatch {α : Type} {x : U α} {c : Exc → Bool} {f : Exc → U α} (hx : Makes env N x) (hf : ∀ e, Makes env N (f e)) :
    Makes env N (PyM.tryCatch x c f) := by
  intro s r s' h hm
  unfold PyM.tryCatch at h
  cases he : x s with
  | none => rw [he] at h; cases h
  | some p =>
    obtain ⟨q, s1⟩ := p
    rw [he] at h
    have k := hx s q s1 he hm
    cases q with
    | ok a => cases h; exact k
    | error e =>
      simp only [] at h
      split at h
      · exact hf _ s1 r s' h k
      · cases h; exact k

theorem mapM {α β : Type} {f : α → U β} (h : ∀ a, Makes env N (f a)) : ∀ xs, Makes env N (PyM.mapM f xs)
  | [] => quiet (fun s r s' h => by cases h; rfl)
  | x :: xs => by
    rw [mapM_cons]
    exact bind (h x) (fun _ => bind (mapM h xs) (fun _ => pure _))

theorem foldM {α β : Type} {f : β → α → U β} (h : ∀ b a, Makes env N (f b a)) : ∀ xs b, Makes env N (PyM.foldM f b xs)
  | [], _ => quiet (fun s r s' h => by cases h; rfl)
  | x :: xs, b => by
    rw [foldM_cons]
    exact bind (h b x) (fun b => foldM h xs b)

theorem emit (e : Event) : Makes env N (emit e) := quiet (fun s r s' h => by cases h; rfl)

theorem alloc {o : Obj} (ho : ∀ i, o = .inst i → Made env i) : Makes env N (alloc o) := fun s r s' h hm => by cases h; exact hm.append ho
theorem allocInst {i : Inst} (hi : Made env i) : Makes env N (Unpickler.alloc (.inst i)) := alloc (fun _ e => by cases e; exact hi)

theorem setCell (a : Addr) {o : Obj} (ho : ∀ i, o ≠ .inst i) : Makes env N (setCell a o) := by
  intro s r s' h hm
  cases h
  exact hm.set (fun i e => absurd e (ho i))

theorem modInst (a : Addr) {f : Inst → Inst} (hf : ∀ i, Made env i → Made env (f i)) : Makes env N (modInst a f) := by
  intro s r s' h hm
  unfold Unpickler.modInst at h
  rw [modify_run] at h
  cases h
  split
  · next i hi => exact hm.set (fun _ e hn => by cases e; exact hf i (hm a i hn hi))
  · exact hm

theorem fresh : Makes env N fresh := quiet (fun s r s' h => by cases h; rfl)
theorem mkref (v) : Makes env N (mkref v) := quiet (fun s r s' h => by
  unfold Unpickler.mkref at h
  split at h <;> (cases h; rfl))
theorem swapref (p v) : Makes env N (swapref p v) := quiet (fun s r s' h => by
  unfold Unpickler.swapref at h
  split at h <;> (cases h; rfl))
theorem noteProxy (a sl v) : Makes env N (noteProxy a sl v) := quiet (fun s r s' h => by
  unfold Unpickler.noteProxy at h
  rw [modify_run] at h
  cases h
  split <;> rfl)
theorem noteEntry (a k v) : Makes env N (noteEntry a k v) := quiet (fun s r s' h => by
  unfold Unpickler.noteEntry at h
  split at h
  · cases h; rfl
  · unfold Unpickler.noteProxy at h
    rw [modify_run] at h
    cases h
    split <;> rfl)
theorem setattr (a k v) : Makes env N (setattr a k v) := by
  intro s r s' h hm
  unfold Unpickler.setattr at h
  split at h
  · next i hi =>
    split at h
    · split at h
      · cases h
        exact hm.set (fun _ e hn => by cases e; exact ⟨(hm a i hn hi).info, (hm a i hn hi).exclude, (hm a i hn hi).dictCell⟩)
      · split at h
        · cases h
          exact hm.set (fun _ e => by cases e)
        · cases h; exact hm
    · cases h; exact hm
  · cases h; exact hm
theorem setAttrMangled (a k v) : Makes env N (setAttrMangled a k v) := by
  intro s r s' h
  unfold Unpickler.setAttrMangled at h
  repeat' split at h
  all_goals first
    | exact setattr _ _ _ s r s' h
    | (cases h; exact id)
theorem storeRaw (a k v) : Makes env N (storeRaw a k v) := by
  intro s r s' h hm
  unfold Unpickler.storeRaw at h
  split at h
  · next hd =>
    unfold Unpickler.setItem at h
    unfold isDictSub at hd
    split at h
    · next i hi =>
      rw [hi] at hd
      have hb : i.info.base = .dict := by simpa using hd
      have hg : ∀ (i' : Inst), i'.info = i.info → i'.cls = i.cls → i'.exclude = i.exclude → (i'.dictCell = i.dictCell ∨ i.info.hasDict = true) →
          MadeFrom env N (s.heap.set a (.inst i')) := by
        intro i' e1 e2 e3 e4
        refine hm.set (fun _ e hn => ?_)
        cases e
        have := hm a i hn hi
        refine ⟨by rw [e1, e2]; exact this.info, by rw [e3]; exact this.exclude, fun hne => ?_⟩
        rw [e1] at hne
        rcases e4 with e4 | e4
        · rw [e4]; exact this.dictCell hne
        · rcases hne with q | q
          · rw [e4] at q; cases q
          · exact absurd hb q
      repeat' split at h
      all_goals cases h
      all_goals first
        | exact hm
        | exact hg _ rfl rfl rfl (Or.inl rfl)
        | exact hg _ rfl rfl rfl (Or.inr (by assumption))
    · cases h; exact hm
  · exact setAttrMangled _ _ _ s r s' h hm
theorem dictSet (a k v) : Makes env N (dictSet a k v) := by
  intro s r s' h hm
  unfold Unpickler.dictSet at h
  repeat' split at h
  all_goals cases h
  all_goals first
    | exact hm
    | exact hm.set (fun _ e => by cases e)
theorem fixFactory (v) : Makes env N (fixFactory v) := by
  intro s r s' h hm
  unfold Unpickler.fixFactory at h
  rw [modify_run] at h
  cases h
  split
  · next a =>
    split
    · next i hi =>
      have hg : ∀ (i' : Inst), i'.info = i.info → i'.cls = i.cls → i'.exclude = i.exclude → i'.dictCell = i.dictCell →
          MadeFrom env N (s.heap.set a (.inst i')) := by
        intro i' e1 e2 e3 e4
        refine hm.set (fun _ e hn => ?_)
        cases e
        have := hm a i hn hi
        exact ⟨by rw [e1, e2]; exact this.info, by rw [e3]; exact this.exclude, by rw [e1, e4]; exact this.dictCell⟩
      repeat' split
      all_goals first
        | exact hm
        | exact hg _ rfl rfl rfl rfl
    · exact hm
  · exact hm
theorem swapOne (e) : Makes env N (swapOne e) := by
  intro s r s' h hm
  unfold Unpickler.swapOne at h
  simp only [] at h
  split at h
  all_goals first
    | exact setattr _ _ _ s r s' h hm
    | (cases h; exact hm)
    | (cases h; exact hm.set (fun _ e => by cases e))
theorem swapProxies : Makes env N swapProxies := by
  unfold Unpickler.swapProxies
  exact bind get (fun s => bind (mapM swapOne _) (fun _ => quiet (fun s r s' h => by cases h; rfl)))
theorem reset : Makes env N reset := quiet (fun s r s' h => by cases h; rfl)

theorem ite {α : Type} {c : Prop} [Decidable c] {x y : U α} (hx : Makes env N x) (hy : Makes env N y) : Makes env N (if c then x else y) := by
  split
  · exact hx
  · exact hy

end Makes

section
variable {rs : Json → U Val}

/-- close a `Makes` goal by following the program -/
macro "mk" h:term : tactic => `(tactic| repeat' first
  | exact $h _
  | exact Makes.pure _
  | exact Makes.pureP _
  | exact Makes.throw _
  | exact Makes.get
  | exact Makes.ofExcept _
  | exact Makes.alloc (fun _ e => by cases e)
  | exact Makes.setCell _ (fun _ e => by cases e)
  | exact Makes.modInst _ (fun _ hm => ⟨hm.info, hm.exclude, hm.dictCell⟩)
  | exact Makes.fresh
  | exact Makes.mkref _
  | exact Makes.swapref _ _
  | exact Makes.noteProxy _ _ _
  | exact Makes.noteEntry _ _ _
  | exact Makes.storeRaw _ _ _
  | exact Makes.dictSet _ _ _
  | exact Makes.fixFactory _
  | exact Makes.emit _
  | with_reducible apply Makes.bind
  | with_reducible apply Makes.tryCatch
  | with_reducible apply Makes.mapM
  | with_reducible apply Makes.foldM
  | with_reducible intro _
  | split)

mutual
theorem mk_raw : ∀ j, Makes env N (raw j)
  | .null | .bool _ | .int _ | .float _ | .str _ => by unfold raw; mk (fun (x : Empty) => nomatch x)
  | .arr xs => by
    unfold raw
    exact Makes.bind (mk_raws xs) (fun _ => Makes.bind (Makes.alloc (fun _ e => by cases e)) (fun _ => Makes.pure _))
  | .obj kvs => by
    unfold raw
    exact Makes.bind (mk_rawKvs kvs) (fun _ => Makes.bind (Makes.alloc (fun _ e => by cases e)) (fun _ => Makes.pure _))
theorem mk_raws : ∀ xs, Makes env N (raws xs)
  | [] => by unfold raws; exact Makes.pure _
  | x :: xs => by
    unfold raws
    exact Makes.bind (mk_raw x) (fun _ => Makes.bind (mk_raws xs) (fun _ => Makes.pure _))
theorem mk_rawKvs : ∀ xs, Makes env N (rawKvs xs)
  | [] => by unfold rawKvs; exact Makes.pure _
  | (k, x) :: xs => by
    unfold rawKvs
    exact Makes.bind (mk_raw x) (fun _ => Makes.bind (mk_rawKvs xs) (fun _ => Makes.pure _))
end

theorem mk_noteList (a) : ∀ n vs, Makes env N (noteList a n vs)
  | _, [] => by unfold noteList; exact Makes.pure _
  | n, v :: vs => by
    unfold noteList
    exact Makes.bind (Makes.noteProxy _ _ _) (fun _ => mk_noteList a _ vs)

theorem mk_restoreList (h : ∀ j, Makes env N (rs j)) (xs) : Makes env N (restoreList rs xs) := by
  unfold restoreList
  refine Makes.bind (Makes.alloc (fun _ e => by cases e)) (fun a => Makes.bind (Makes.mkref _) (fun _ => Makes.bind (Makes.ofExcept _) (fun _ =>
    Makes.bind (Makes.mapM h _) (fun vs => Makes.bind (Makes.setCell _ (fun _ e => by cases e)) (fun _ => Makes.bind (mk_noteList _ _ _) (fun _ => Makes.pure _))))))

theorem mk_restoreIterator (h : ∀ j, Makes env N (rs j)) (kvs) : Makes env N (restoreIterator rs kvs) := by
  have := mk_restoreList h
  have hi : ∀ a, Makes env N (alloc (.inst (iterOf a))) := fun a => Makes.allocInst ⟨Or.inr ⟨rfl, rfl⟩, rfl, fun _ => rfl⟩
  unfold restoreIterator
  refine Makes.bind ?_ (fun a => Makes.bind (hi a) (fun _ => Makes.pure _))
  mk this

theorem mk_loadclassJ (j) : Makes env N (loadclassJ env j) := by
  unfold loadclassJ; mk (fun (x : Empty) => nomatch x)

/-- the placeholder is replaced -/
theorem mk_replace {α : Type} {p : Addr} {o : Obj} (ho : ∀ i, o = .inst i → Made env i) {k : Addr → U α} (hk : ∀ a, Makes env N (k a)) :
    Makes env N (alloc o >>= fun a => setCell p (.proxy (some (.ref a))) >>= fun _ => k a) :=
  Makes.bind (Makes.alloc ho) (fun a => Makes.bind (Makes.setCell _ (fun _ e => by cases e)) (fun _ => hk a))

theorem mk_reduceFallback {p : Addr} : Makes env N (reduceFallback p) := by
  unfold reduceFallback
  exact mk_replace (fun _ e => by cases e) (fun a => by mk (fun (x : Empty) => nomatch x))

theorem mk_emitSetter (ops) : Makes env N (emitSetter ops) := by
  unfold emitSetter
  split
  · exact Makes.emit _
  · exact Makes.emit _
  · exact Makes.pure _

theorem mk_reduceFinish {p : Addr} (cls vals c d e g) : Makes env N (reduceFinish env p cls vals c d e g) := by
  unfold reduceFinish
  refine Makes.bind Makes.get (fun _ => Makes.bind (Makes.ofExcept _) (fun _ => Makes.bind (mk_emitSetter _) (fun _ =>
    Makes.bind (Makes.ofExcept _) (fun _ => Makes.bind (Makes.ofExcept _) (fun _ => ?_)))))
  exact mk_replace (fun _ e => by cases e; exact ⟨Or.inl rfl, rfl, fun _ => rfl⟩) (fun a => by mk (fun (x : Empty) => nomatch x))

theorem mk_reduceBuild {p : Addr} (vals) : Makes env N (reduceBuild env p vals) := by
  unfold reduceBuild
  split
  · refine Makes.bind Makes.get (fun s0 => ?_)
    have fin : ∀ (n cls vals c d e g), Makes env N (emit (.call n) >>= fun _ => reduceFinish env p cls vals c d e g) := fun n cls vals c d e g =>
      Makes.bind (Makes.emit _) (fun _ => mk_reduceFinish _ _ _ _ _ _)
    split
    · refine Makes.bind (Makes.ofExcept _) (fun a => ?_)
      obtain ⟨a1, a2⟩ := a
      cases a1 with
      | type n =>
        dsimp only
        split
        · exact fin _ _ _ _ _ _ _
        · exact Makes.throw _
      | _ => exact Makes.throw _
    · split
      · generalize starArgs _ _ = q
        cases q with
        | none => exact Makes.throw _
        | some l =>
          dsimp only
          split
          · exact fin _ _ _ _ _ _ _
          · exact Makes.throw _
      · generalize starArgs _ _ = q
        cases q with
        | none => exact Makes.throw _
        | some l =>
          dsimp only
          split
          · exact fin _ _ _ _ _ _ _
          · exact Makes.throw _
      · exact mk_reduceFallback
  · exact Makes.throw _

theorem mk_restoreReduce (h : ∀ j, Makes env N (rs j)) (kvs) : Makes env N (restoreReduce env rs kvs) := by
  unfold restoreReduce
  refine Makes.bind (Makes.alloc (fun _ e => by cases e)) (fun p => Makes.bind (Makes.mkref _) (fun _ => Makes.bind (by mk h) (fun r => ?_)))
  split
  · exact mk_reduceFallback
  · exact mk_reduceBuild _

theorem mk_idLookup (n) : Makes env N (idLookup n) := by
  unfold idLookup
  refine Makes.bind (Makes.get) (fun s => ?_)
  cases pyIndex s.objs n <;> mk (fun (x : Empty) => nomatch x)

theorem mk_restoreId (kvs) : Makes env N (restoreId kvs) := by
  unfold restoreId
  mk mk_idLookup

theorem mk_restoreType (kvs) : Makes env N (restoreType env kvs) := by
  unfold restoreType
  refine Makes.bind (Makes.ofExcept _) (fun j => Makes.bind (mk_loadclassJ j) (fun c => ?_))
  mk mk_raw

theorem mk_restoreModule (j) : Makes env N (restoreModule env j) := by
  unfold restoreModule; mk (fun (x : Empty) => nomatch x)

theorem mk_restoreRepr (j) : Makes env N (restoreRepr env j) := by
  unfold restoreRepr
  mk (fun (x : Empty) => nomatch x)

theorem mk_processMissing (n) : Makes env N (processMissing env n) := by
  unfold processMissing
  mk (fun (x : Empty) => nomatch x)

theorem mk_loadFactory (h : ∀ j, Makes env N (rs j)) (kvs) : Makes env N (loadFactory rs kvs) := by
  unfold loadFactory; mk h

theorem mk_restorePickledKey (h : ∀ j, Makes env N (rs j)) (k) : Makes env N (restorePickledKey env rs k) := by
  unfold restorePickledKey; mk h

theorem mk_restoreKey (h : ∀ j, Makes env N (rs j)) (k) : Makes env N (restoreKey env rs k) := by
  unfold restoreKey
  split
  · exact mk_restorePickledKey h k
  · exact Makes.pure _

theorem mk_storeEntry (a k v) : Makes env N (storeEntry a k v) := by
  unfold storeEntry; mk (fun (x : Empty) => nomatch x)

theorem mk_restoreFromJson (h : ∀ j, Makes env N (rs j)) (a kvs) : Makes env N (restoreFromJson env rs a kvs) := by
  unfold restoreFromJson
  refine Makes.bind (Makes.mapM (fun kv => ?_) _) (fun _ => Makes.pure _)
  split
  · exact Makes.pure _
  · exact Makes.bind (mk_restoreKey h _) (fun _ => Makes.bind (h _) (fun _ => mk_storeEntry _ _ _))

theorem mk_restoreFromVals (a kvs) : Makes env N (restoreFromVals a kvs) := by
  unfold restoreFromVals
  exact Makes.bind (Makes.mapM (fun kv => mk_storeEntry _ _ _) _) (fun _ => Makes.pure _)

theorem mk_applyOtherState (a st) : Makes env N (applyOtherState a st) := by
  have := mk_restoreFromVals (env := env) (N := N) a
  unfold applyOtherState; mk this

theorem mk_restoreState (h : ∀ j, Makes env N (rs j)) (a j) : Makes env N (restoreState rs a j) := by
  unfold restoreState
  refine Makes.bind (h _) (fun st => Makes.bind (Makes.get) (fun s => ?_))
  split
  · mk (fun (x : Empty) => nomatch x)
  · split
    · exact Makes.bind (mk_restoreFromVals _ _) (fun _ => Makes.pure _)
    · exact mk_applyOtherState _ _

theorem mk_restoreSeq (h : ∀ j, Makes env N (rs j)) (a j) : Makes env N (restoreSeq rs a j) := by
  unfold restoreSeq; mk h

theorem mk_restoreSeqTag (h : ∀ j, Makes env N (rs j)) (a kvs) : Makes env N (restoreSeqTag rs a kvs) := by
  unfold restoreSeqTag
  split
  · exact Makes.pure _
  · exact mk_restoreSeq h _ _

theorem mk_restoreVariables (h : ∀ j, Makes env N (rs j)) (a kvs) : Makes env N (restoreVariables env rs a kvs) := by
  unfold restoreVariables
  refine Makes.bind (mk_restoreFromJson h a kvs) (fun _ => Makes.bind (mk_restoreSeqTag h a kvs) (fun _ => ?_))
  split
  · exact Makes.pure _
  · exact mk_restoreState h _ _

theorem mk_getargs (kvs) : Makes env N (getargs env kvs) := by
  unfold getargs
  mk mk_loadclassJ

theorem mk_ctorArgs (kvs) : Makes env N (ctorArgs env kvs) := by
  unfold ctorArgs
  mk mk_getargs

theorem mk_restoreArg (h : ∀ j, Makes env N (rs j)) (j) : Makes env N (restoreArg rs j) := by
  unfold restoreArg; mk h

theorem mk_missingRaw (n : Str) (kvs) : Makes env N (do processMissing env n; let r ← raw (.obj kvs); mkref r) :=
  Makes.bind (mk_processMissing n) (fun _ => Makes.bind (mk_raw _) (fun _ => Makes.mkref _))

theorem made_construct {h : Heap} {n : Str} {fac args kw : Val} {i : Inst} (hc : construct h n (env.classInfo n) fac args kw = some i) : Made env i := by
  unfold construct at hc
  dsimp only at hc
  repeat' split at hc
  all_goals first
    | (cases hc; exact ⟨Or.inl rfl, rfl, fun _ => rfl⟩)
    | cases hc

theorem mk_restoreInstance (h : ∀ j, Makes env N (rs j)) (n kvs) : Makes env N (restoreInstance env rs n kvs) := by
  unfold restoreInstance
  refine Makes.bind (Makes.alloc (fun _ e => by cases e)) (fun p => Makes.bind (Makes.mkref _) (fun _ => Makes.bind (mk_loadFactory h _) (fun fk => ?_)))
  obtain ⟨fac, kvs⟩ := fk
  refine Makes.bind (mk_ctorArgs _) (fun aj => ?_)
  obtain ⟨ja, jk⟩ := aj
  refine Makes.bind (mk_restoreArg h _) (fun _ => Makes.bind (mk_restoreArg h _) (fun _ => Makes.bind Makes.get (fun _ => Makes.bind (Makes.emit _) (fun _ => ?_))))
  split
  · exact mk_missingRaw _ _
  · next inst hi =>
    refine mk_replace (fun _ e => by cases e; exact made_construct hi) (fun a => Makes.bind (Makes.swapref _ _) (fun _ => ?_))
    split
    · exact Makes.pure _
    · exact Makes.bind (mk_restoreVariables h _ _) (fun _ => Makes.bind (Makes.fixFactory _) (fun _ => Makes.pure _))

theorem mk_restoreDate (h : ∀ j, Makes env N (rs j)) (kvs) : Makes env N (restoreDate env rs kvs) := by
  unfold restoreDate
  refine Makes.bind (Makes.ofExcept _) (fun r => Makes.bind (Makes.ofExcept _) (fun ps => ?_))
  split
  · refine Makes.bind (h _) (fun c => Makes.bind (Makes.ofExcept _) (fun pa => Makes.bind (Makes.ofExcept _) (fun b => Makes.bind (by mk h) (fun params => ?_))))
    split
    · exact Makes.bind (Makes.emit _) (fun _ => Makes.bind (Makes.allocInst ⟨Or.inl rfl, rfl, fun _ => rfl⟩) (fun _ => Makes.pure _))
    · exact Makes.throw _
  · exact Makes.throw _

theorem mk_handlerRestore (h : ∀ j, Makes env N (rs j)) (k n kvs) : Makes env N (handlerRestore env rs k n kvs) := by
  unfold handlerRestore
  split
  · refine Makes.bind (by mk h) (fun fs => Makes.bind (Makes.allocInst ⟨Or.inl rfl, rfl, fun _ => rfl⟩) (fun _ => Makes.pure _))
  · exact mk_restoreDate h _
  · exact Makes.bind (Makes.allocInst ⟨Or.inl rfl, rfl, fun _ => rfl⟩) (fun _ => Makes.pure _)
  · exact Makes.throw _

theorem mk_restoreHandled (h : ∀ j, Makes env N (rs j)) (k n kvs) : Makes env N (restoreHandled env rs k n kvs) := by
  unfold restoreHandled
  exact Makes.bind (Makes.alloc (fun _ e => by cases e)) (fun p => Makes.bind (Makes.mkref _) (fun _ => Makes.bind (mk_handlerRestore h _ _ _) (fun v =>
    Makes.bind (Makes.setCell _ (fun _ e => by cases e)) (fun _ => Makes.bind (Makes.swapref _ _) (fun _ => Makes.pure _)))))

theorem mk_restoreObject (h : ∀ j, Makes env N (rs j)) (kvs) : Makes env N (restoreObject env rs kvs) := by
  unfold restoreObject
  refine Makes.bind (Makes.ofExcept _) (fun j => Makes.bind (mk_loadclassJ _) (fun c => ?_))
  cases j with
  | str n =>
    refine Makes.bind (Makes.emit _) (fun _ => ?_)
    split
    · exact mk_restoreHandled h _ _ _
    · split
      · exact mk_missingRaw _ _
      · exact mk_restoreInstance h _ _
  | _ => exact Makes.throw _

theorem mk_restoreFunction (kvs) : Makes env N (restoreFunction env kvs) := by
  unfold restoreFunction
  mk mk_loadclassJ

theorem mk_restoreTuple (h : ∀ j, Makes env N (rs j)) (kvs) : Makes env N (restoreTuple rs kvs) := by
  unfold restoreTuple; mk h

theorem mk_restoreSet (h : ∀ j, Makes env N (rs j)) (kvs) : Makes env N (restoreSet rs kvs) := by
  unfold restoreSet; mk h

theorem mk_dictEntry (h : ∀ j, Makes env N (rs j)) (a kv) : Makes env N (dictEntry rs a kv) := by
  unfold dictEntry; mk h

theorem mk_dictEntry1 (h : ∀ j, Makes env N (rs j)) (a kv) : Makes env N (dictEntry1 rs a kv) := by
  unfold dictEntry1; mk h

theorem mk_dictEntry2 (h : ∀ j, Makes env N (rs j)) (a kv) : Makes env N (dictEntry2 env rs a kv) := by
  unfold dictEntry2
  split
  · refine Makes.bind (mk_restorePickledKey h _) (fun _ => ?_)
    mk h
  · exact Makes.pure _

theorem mk_mkrefUnlessV1 (a) : Makes env N (mkrefUnlessV1 env a) := by
  unfold mkrefUnlessV1; mk (fun (x : Empty) => nomatch x)

theorem mk_restoreDict (h : ∀ j, Makes env N (rs j)) (kvs) : Makes env N (restoreDict env rs kvs) := by
  unfold restoreDict
  refine Makes.bind (Makes.alloc (fun _ e => by cases e)) (fun a => Makes.bind (mk_mkrefUnlessV1 a) (fun _ => ?_))
  split
  · exact Makes.bind (Makes.mapM (mk_dictEntry1 h a) _) (fun _ => Makes.bind (Makes.mapM (mk_dictEntry2 h a) _) (fun _ => Makes.pure _))
  · exact Makes.bind (Makes.mapM (mk_dictEntry h a) _) (fun _ => Makes.pure _)

theorem mk_bytes {α : Type} (r : Except Exc Bytes) (f : Nat → Bytes → α) :
    Makes env N (do let b ← PyM.ofExcept r; let n ← fresh; Pure.pure (f n b) : U α) :=
  Makes.bind (Makes.ofExcept _) (fun _ => Makes.bind (Makes.fresh) (fun _ => Makes.pure _))

theorem mk_restoreTags (h : ∀ j, Makes env N (rs j)) (kvs) : Makes env N (restoreTags env rs kvs) := by
  unfold restoreTags
  refine Makes.ite (mk_restoreTuple h _) ?_
  refine Makes.ite (mk_restoreSet h _) ?_
  refine Makes.ite (mk_bytes _ _) ?_
  refine Makes.ite (mk_bytes _ _) ?_
  refine Makes.ite (mk_bytes _ _) ?_
  refine Makes.ite (mk_restoreId _) ?_
  refine Makes.ite (mk_restoreIterator h _) ?_
  refine Makes.ite (mk_restoreObject h _) ?_
  refine Makes.ite (mk_restoreType _) ?_
  refine Makes.ite (mk_restoreReduce h _) ?_
  refine Makes.ite (mk_restoreFunction _) ?_
  refine Makes.ite (Makes.bind (Makes.ofExcept _) (fun _ => mk_restoreModule _)) ?_
  refine Makes.ite (Makes.bind (Makes.ofExcept _) (fun _ => ?_)) (mk_restoreDict h _)
  split
  · exact mk_restoreModule _
  · exact mk_restoreRepr _

theorem mk_restoreStep (h : ∀ j, Makes env N (rs j)) (j) : Makes env N (restoreStep env rs j) := by
  unfold restoreStep
  split
  all_goals first
    | exact Makes.pure _
    | exact Makes.bind (mk_restoreList h _) (fun _ => Makes.pure _)
    | exact mk_restoreTags h _

theorem mk_restore : ∀ (n : Nat) (j), Makes env N (restore env n j)
  | 0, _ => fun s r s' h => by cases h
  | n + 1, j => mk_restoreStep (mk_restore n) j

theorem mk_restoreTop (n : Nat) (j b) : Makes env N (restoreTop env n j b) := by
  unfold restoreTop
  split
  · exact Makes.bind (Makes.reset) (fun _ => Makes.bind (mk_restore n j) (fun _ =>
      Makes.bind (Makes.swapProxies) (fun _ => Makes.pure _)))
  · exact mk_restore n j

end
end JP.Unpickler
