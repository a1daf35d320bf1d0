import Verif.Unpickler
/-!
# What kind of object a cell holds does not change while decoding

`Stays x`: a run of `x` leaves every list a list, every dict a dict, every instance an instance of the same class that was made the
same way, and every placeholder a placeholder.  Established for the whole of `restore`.
-/
namespace JP.Unpickler
open JP PyM

/-- the same kind of object, of the same class -/
def SameKind : Obj → Obj → Prop
  | .list _, .list _ => True
  | .dict _, .dict _ => True
  | .inst i, .inst i' => i'.cls = i.cls ∧ i'.info = i.info ∧ i'.viaCall = i.viaCall
  | .proxy _, .proxy _ => True
  | .idproxy n, .idproxy m => n = m
  | _, _ => False

theorem SameKind.refl (o : Obj) : SameKind o o := by cases o <;> simp [SameKind]

theorem SameKind.trans {x y z : Obj} (h1 : SameKind x y) (h2 : SameKind y z) : SameKind x z := by
  cases x <;> cases y <;> cases z <;> simp only [SameKind] at *
  · exact ⟨h2.1.trans h1.1, h2.2.1.trans h1.2.1, h2.2.2.trans h1.2.2⟩
  · exact h1.trans h2

/-- every object of the first heap is of the same kind in the second -/
def KindsKept (h h' : Heap) : Prop := ∀ (a : Addr) (o : Obj), h[a]? = some o → ∃ o', h'[a]? = some o' ∧ SameKind o o'

theorem KindsKept.refl (h : Heap) : KindsKept h h := fun _ o ho => ⟨o, ho, SameKind.refl o⟩

theorem KindsKept.trans {h1 h2 h3 : Heap} (a : KindsKept h1 h2) (b : KindsKept h2 h3) : KindsKept h1 h3 := fun x o ho => by
  obtain ⟨o2, e2, k2⟩ := a x o ho
  obtain ⟨o3, e3, k3⟩ := b x o2 e2
  exact ⟨o3, e3, k2.trans k3⟩

theorem KindsKept.set {h : Heap} {a : Addr} {o o' : Obj} (ho : h[a]? = some o) (k : SameKind o o') : KindsKept h (h.set a o') := by
  intro b x hx
  rw [List.getElem?_set]
  by_cases e : a = b
  · subst e
    rw [ho] at hx
    cases hx
    have : a < h.length := by
      rcases Nat.lt_or_ge a h.length with q | q
      · exact q
      · rw [List.getElem?_eq_none q] at ho; cases ho
    exact ⟨o', by rw [if_pos rfl, if_pos this], k⟩
  · exact ⟨x, by rw [if_neg e]; exact hx, SameKind.refl x⟩

theorem KindsKept.append (h l : Heap) : KindsKept h (h ++ l) := fun a o ho => by
  refine ⟨o, ?_, SameKind.refl o⟩
  have : a < h.length := by
    rcases Nat.lt_or_ge a h.length with q | q
    · exact q
    · rw [List.getElem?_eq_none q] at ho; cases ho
  rw [List.getElem?_append_left this]
  exact ho

/-- from this state -/
def StaysAt {α : Type} (s : UState) (x : U α) : Prop := ∀ r s', x s = some (r, s') → KindsKept s.heap s'.heap

def Stays {α : Type} (x : U α) : Prop := ∀ s, StaysAt s x

theorem StaysAt.bind {α β : Type} {s : UState} {x : U α} {f : α → U β} (hx : StaysAt s x)
    (hf : ∀ a s1, x s = some (.ok a, s1) → KindsKept s.heap s1.heap → StaysAt s1 (f a)) : StaysAt s (x >>= f) := by
  intro r s' h
  rw [bind_run] at h
  cases he : x s with
  | none => rw [he] at h; cases h
  | some p =>
    obtain ⟨q, s1⟩ := p
    rw [he] at h
    have k := hx q s1 he
    cases q with
    | error e => cases h; exact k
    | ok a => exact k.trans (hf a s1 he k r s' h)

namespace Stays

theorem quiet {α : Type} {x : U α} (h : ∀ s r s', x s = some (r, s') → s'.heap = s.heap) : Stays x :=
  fun s r s' hx => by rw [h s r s' hx]; exact KindsKept.refl _

theorem pure {α : Type} (a : α) : Stays (pure a : U α) := quiet (fun s r s' h => by cases h; rfl)
theorem pureP {α : Type} (a : α) : Stays (PyM.pure a : U α) := quiet (fun s r s' h => by cases h; rfl)
theorem throw {α : Type} (e : Exc) : Stays (PyM.throw e : U α) := quiet (fun s r s' h => by cases h; rfl)
theorem get : Stays (PyM.get : U UState) := quiet (fun s r s' h => by cases h; rfl)
theorem ofExcept {α : Type} (e : Except Exc α) : Stays (PyM.ofExcept e : U α) := quiet (fun s r s' h => by cases h; rfl)

theorem bind {α β : Type} {x : U α} {f : α → U β} (hx : Stays x) (hf : ∀ a, Stays (f a)) : Stays (x >>= f) :=
  fun s => StaysAt.bind (hx s) (fun a s1 _ _ => hf a s1)

theorem tryCatch {α : Type} {x : U α} {c : Exc → Bool} {f : Exc → U α} (hx : Stays x) (hf : ∀ e, Stays (f e)) : Stays (PyM.tryCatch x c f) := by
  intro s r s' h
  unfold PyM.tryCatch at h
  cases he : x s with
  | none => rw [he] at h; cases h
  | some p =>
    obtain ⟨q, s1⟩ := p
    rw [he] at h
    have k := hx s q s1 he
    cases q with
    | ok a => cases h; exact k
    | error e =>
      simp only [] at h
      split at h
      · exact k.trans (hf _ s1 r s' h)
      · cases h; exact k

theorem mapM {α β : Type} {f : α → U β} (h : ∀ a, Stays (f a)) : ∀ xs, Stays (PyM.mapM f xs)
  | [] => quiet (fun s r s' h => by cases h; rfl)
  | x :: xs => by
    rw [mapM_cons]
    exact bind (h x) (fun _ => bind (mapM h xs) (fun _ => pure _))

theorem foldM {α β : Type} {f : β → α → U β} (h : ∀ b a, Stays (f b a)) : ∀ xs b, Stays (PyM.foldM f b xs)
  | [], _ => quiet (fun s r s' h => by cases h; rfl)
  | x :: xs, b => by
    rw [foldM_cons]
    exact bind (h b x) (fun b => foldM h xs b)

theorem emit (e : Event) : Stays (emit e) := quiet (fun s r s' h => by cases h; rfl)
theorem alloc (o : Obj) : Stays (alloc o) := fun s r s' h => by cases h; exact KindsKept.append _ _

theorem setAt {s : UState} {a : Addr} {o o' : Obj} (ho : s.heap[a]? = some o) (k : SameKind o o') : StaysAt s (setCell a o') := by
  intro r s' h
  cases h
  exact KindsKept.set ho k

theorem modInst (a : Addr) {f : Inst → Inst} (hf : ∀ i, (f i).cls = i.cls ∧ (f i).info = i.info ∧ (f i).viaCall = i.viaCall) : Stays (modInst a f) := by
  intro s r s' h
  unfold Unpickler.modInst at h
  rw [modify_run] at h
  cases h
  split
  · next i hi => exact KindsKept.set hi (hf i)
  · exact KindsKept.refl _

theorem fresh : Stays fresh := quiet (fun s r s' h => by cases h; rfl)
theorem mkref (v) : Stays (mkref v) := quiet (fun s r s' h => by
  unfold Unpickler.mkref at h
  split at h <;> (cases h; rfl))
theorem swapref (p v) : Stays (swapref p v) := quiet (fun s r s' h => by
  unfold Unpickler.swapref at h
  split at h <;> (cases h; rfl))
theorem noteProxy (a sl v) : Stays (noteProxy a sl v) := quiet (fun s r s' h => by
  unfold Unpickler.noteProxy at h
  rw [modify_run] at h
  cases h
  split <;> rfl)
theorem noteEntry (a k v) : Stays (noteEntry a k v) := quiet (fun s r s' h => by
  unfold Unpickler.noteEntry at h
  split at h
  · cases h; rfl
  · unfold Unpickler.noteProxy at h
    rw [modify_run] at h
    cases h
    split <;> rfl)
theorem setattr (a k v) : Stays (setattr a k v) := by
  intro s r s' h
  unfold Unpickler.setattr at h
  repeat' split at h
  all_goals cases h
  all_goals first
    | exact KindsKept.refl _
    | (apply KindsKept.set; assumption; trivial)
    | (apply KindsKept.set; assumption; exact ⟨rfl, rfl, rfl⟩)
theorem setItem (a k v) : Stays (setItem a k v) := by
  intro s r s' h
  unfold Unpickler.setItem at h
  repeat' split at h
  all_goals cases h
  all_goals first
    | exact KindsKept.refl _
    | (apply KindsKept.set; assumption; exact ⟨rfl, rfl, rfl⟩)
theorem setAttrMangled (a k v) : Stays (setAttrMangled a k v) := by
  intro s r s' h
  unfold Unpickler.setAttrMangled at h
  repeat' split at h
  all_goals first
    | exact setattr _ _ _ s r s' h
    | (cases h; exact KindsKept.refl _)
theorem storeRaw (a k v) : Stays (storeRaw a k v) := by
  intro s r s' h
  unfold Unpickler.storeRaw at h
  split at h
  · exact setItem _ _ _ s r s' h
  · exact setAttrMangled _ _ _ s r s' h
theorem dictSet (a k v) : Stays (dictSet a k v) := by
  intro s r s' h
  unfold Unpickler.dictSet at h
  repeat' split at h
  all_goals cases h
  all_goals first
    | exact KindsKept.refl _
    | (apply KindsKept.set; assumption; trivial)
theorem fixFactory (v) : Stays (fixFactory v) := by
  intro s r s' h
  unfold Unpickler.fixFactory at h
  rw [modify_run] at h
  cases h
  repeat' split
  all_goals first
    | exact KindsKept.refl _
    | (apply KindsKept.set; assumption; exact ⟨rfl, rfl, rfl⟩)
theorem swapOne (e) : Stays (swapOne e) := by
  intro s r s' h
  unfold Unpickler.swapOne at h
  simp only [] at h
  split at h
  all_goals first
    | exact setattr _ _ _ s r s' h
    | (cases h; exact KindsKept.refl _)
    | (cases h; apply KindsKept.set; assumption; trivial)
theorem swapProxies : Stays swapProxies := by
  unfold Unpickler.swapProxies
  exact bind get (fun s => bind (mapM swapOne _) (fun _ => quiet (fun s r s' h => by cases h; rfl)))
theorem reset : Stays reset := quiet (fun s r s' h => by cases h; rfl)

theorem ite {α : Type} {c : Prop} [Decidable c] {x y : U α} (hx : Stays x) (hy : Stays y) : Stays (if c then x else y) := by
  split
  · exact hx
  · exact hy

end Stays

section
variable {env : UEnv} {rs : Json → U Val}

/-- close a `Stays` goal by following the program -/
macro "st" h:term : tactic => `(tactic| repeat' first
  | exact $h _
  | exact Stays.pure _
  | exact Stays.pureP _
  | exact Stays.throw _
  | exact Stays.get
  | exact Stays.ofExcept _
  | exact Stays.alloc _
  | exact Stays.modInst _ (fun _ => ⟨rfl, rfl, rfl⟩)
  | exact Stays.fresh
  | exact Stays.mkref _
  | exact Stays.swapref _ _
  | exact Stays.noteProxy _ _ _
  | exact Stays.noteEntry _ _ _
  | exact Stays.storeRaw _ _ _
  | exact Stays.dictSet _ _ _
  | exact Stays.fixFactory _
  | exact Stays.emit _
  | with_reducible apply Stays.bind
  | with_reducible apply Stays.tryCatch
  | with_reducible apply Stays.mapM
  | with_reducible apply Stays.foldM
  | with_reducible intro _
  | split)

mutual
theorem st_raw : ∀ j, Stays (raw j)
  | .null | .bool _ | .int _ | .float _ | .str _ => by unfold raw; st (fun (x : Empty) => nomatch x)
  | .arr xs => by
    unfold raw
    exact Stays.bind (st_raws xs) (fun _ => Stays.bind (Stays.alloc _) (fun _ => Stays.pure _))
  | .obj kvs => by
    unfold raw
    exact Stays.bind (st_rawKvs kvs) (fun _ => Stays.bind (Stays.alloc _) (fun _ => Stays.pure _))
theorem st_raws : ∀ xs, Stays (raws xs)
  | [] => by unfold raws; exact Stays.pure _
  | x :: xs => by
    unfold raws
    exact Stays.bind (st_raw x) (fun _ => Stays.bind (st_raws xs) (fun _ => Stays.pure _))
theorem st_rawKvs : ∀ xs, Stays (rawKvs xs)
  | [] => by unfold rawKvs; exact Stays.pure _
  | (k, x) :: xs => by
    unfold rawKvs
    exact Stays.bind (st_raw x) (fun _ => Stays.bind (st_rawKvs xs) (fun _ => Stays.pure _))
end

theorem st_noteList (a) : ∀ n vs, Stays (noteList a n vs)
  | _, [] => by unfold noteList; exact Stays.pure _
  | n, v :: vs => by
    unfold noteList
    exact Stays.bind (Stays.noteProxy _ _ _) (fun _ => st_noteList a _ vs)

theorem st_restoreList (h : ∀ j, Stays (rs j)) (xs) : Stays (restoreList rs xs) := by
  unfold restoreList
  intro s
  refine StaysAt.bind (Stays.alloc _ s) (fun a s1 e1 _ => ?_)
  cases e1
  have h0 : (s.heap ++ [Obj.list []])[s.heap.length]? = some (.list []) := by simp
  refine StaysAt.bind (Stays.mkref _ _) (fun _ s2 _ k2 => ?_)
  refine StaysAt.bind (Stays.ofExcept _ _) (fun _ s3 _ k3 => ?_)
  refine StaysAt.bind (Stays.mapM h _ _) (fun vs s4 _ k4 => ?_)
  obtain ⟨o', e, k⟩ := ((k2.trans k3).trans k4) _ _ h0
  have ke : SameKind o' (.list vs) := by cases o' <;> simp_all [SameKind]
  refine StaysAt.bind (Stays.setAt e ke) (fun _ s5 _ _ => ?_)
  exact Stays.bind (st_noteList _ _ _) (fun _ => Stays.pure _) s5

theorem st_restoreIterator (h : ∀ j, Stays (rs j)) (kvs) : Stays (restoreIterator rs kvs) := by
  have := st_restoreList h
  unfold restoreIterator; st this

theorem st_loadclassJ (j) : Stays (loadclassJ env j) := by
  unfold loadclassJ; st (fun (x : Empty) => nomatch x)

/-- the placeholder is replaced -/
theorem st_replace {α : Type} {p : Addr} {s : UState} (hp : ∃ w, s.heap[p]? = some (.proxy w)) (o : Obj) {k : Addr → U α} (hk : ∀ a, Stays (k a)) :
    StaysAt s (alloc o >>= fun a => setCell p (.proxy (some (.ref a))) >>= fun _ => k a) := by
  obtain ⟨w, hw⟩ := hp
  refine StaysAt.bind (Stays.alloc _ s) (fun a s1 e1 k1 => ?_)
  obtain ⟨o', e, q⟩ := k1 _ _ hw
  have ke : SameKind o' (.proxy (some (.ref a))) := by cases o' <;> simp_all [SameKind]
  exact StaysAt.bind (Stays.setAt e ke) (fun _ s2 _ _ => hk a s2)

theorem st_reduceFallback {p : Addr} {s : UState} (hp : ∃ w, s.heap[p]? = some (.proxy w)) : StaysAt s (reduceFallback p) := by
  unfold reduceFallback
  exact st_replace hp _ (fun a => by st (fun (x : Empty) => nomatch x))

theorem st_emitSetter (ops) : Stays (emitSetter ops) := by
  unfold emitSetter
  split
  · exact Stays.emit _
  · exact Stays.emit _
  · exact Stays.pure _

theorem still {s s1 : UState} {p : Addr} (hp : ∃ w, s.heap[p]? = some (.proxy w)) (k : KindsKept s.heap s1.heap) : ∃ w, s1.heap[p]? = some (.proxy w) := by
  obtain ⟨w, hw⟩ := hp
  obtain ⟨o', e, q⟩ := k _ _ hw
  cases o' <;> simp only [SameKind] at q
  exact ⟨_, e⟩

theorem st_reduceFinish {p : Addr} {s : UState} (hp : ∃ w, s.heap[p]? = some (.proxy w)) (cls vals c d e g) : StaysAt s (reduceFinish env p cls vals c d e g) := by
  unfold reduceFinish
  refine StaysAt.bind (Stays.get s) (fun _ s1 _ k1 => ?_)
  refine StaysAt.bind (Stays.ofExcept _ _) (fun _ s2 _ k2 => ?_)
  refine StaysAt.bind (st_emitSetter _ _) (fun _ s3 _ k3 => ?_)
  refine StaysAt.bind (Stays.ofExcept _ _) (fun _ s4 _ k4 => ?_)
  refine StaysAt.bind (Stays.ofExcept _ _) (fun _ s5 _ k5 => ?_)
  exact st_replace (still hp ((((k1.trans k2).trans k3).trans k4).trans k5)) _ (fun a => by st (fun (x : Empty) => nomatch x))

theorem st_reduceBuild {p : Addr} {s : UState} (hp : ∃ w, s.heap[p]? = some (.proxy w)) (vals) : StaysAt s (reduceBuild env p vals) := by
  unfold reduceBuild
  split
  · refine StaysAt.bind (Stays.get s) (fun s0 s1 e1 k1 => ?_)
    have hp1 := still hp k1
    have fin : ∀ (n cls vals c d e g), StaysAt s1 (emit (.call n) >>= fun _ => reduceFinish env p cls vals c d e g) := fun n cls vals c d e g =>
      StaysAt.bind (Stays.emit _ _) (fun _ s2 _ k2 => st_reduceFinish (still hp1 k2) _ _ _ _ _ _)
    split
    · refine StaysAt.bind (Stays.ofExcept _ _) (fun a s2 _ k2 => ?_)
      have hp2 := still hp1 k2
      obtain ⟨a1, a2⟩ := a
      cases a1 with
      | type n =>
        dsimp only
        split
        · exact StaysAt.bind (Stays.emit _ _) (fun _ s3 _ k3 => st_reduceFinish (still hp2 k3) _ _ _ _ _ _)
        · exact Stays.throw _ _
      | _ => exact Stays.throw _ _
    · split
      · generalize starArgs _ _ = q
        cases q with
        | none => exact Stays.throw _ _
        | some l =>
          dsimp only
          split
          · exact fin _ _ _ _ _ _ _
          · exact Stays.throw _ _
      · generalize starArgs _ _ = q
        cases q with
        | none => exact Stays.throw _ _
        | some l =>
          dsimp only
          split
          · exact fin _ _ _ _ _ _ _
          · exact Stays.throw _ _
      · exact st_reduceFallback hp1
  · exact Stays.throw _ _

theorem st_restoreReduce (h : ∀ j, Stays (rs j)) (kvs) : Stays (restoreReduce env rs kvs) := by
  unfold restoreReduce
  intro s
  refine StaysAt.bind (Stays.alloc _ s) (fun p s1 e1 _ => ?_)
  cases e1
  have h0 : ∃ w, (s.heap ++ [Obj.proxy none])[s.heap.length]? = some (.proxy w) := ⟨none, by simp⟩
  refine StaysAt.bind (Stays.mkref _ _) (fun _ s2 _ k2 => ?_)
  have h2 := still (s1 := s2) (s := { s with heap := s.heap ++ [Obj.proxy none] }) h0 k2
  refine StaysAt.bind ((by st h : Stays _) _) (fun r s3 _ k3 => ?_)
  have h3 := still h2 k3
  split
  · exact st_reduceFallback h3
  · exact st_reduceBuild h3 _

theorem st_idLookup (n) : Stays (idLookup n) := by
  unfold idLookup
  refine Stays.bind (Stays.get) (fun s => ?_)
  cases pyIndex s.objs n <;> st (fun (x : Empty) => nomatch x)

theorem st_restoreId (kvs) : Stays (restoreId kvs) := by
  unfold restoreId
  st st_idLookup

theorem st_restoreType (kvs) : Stays (restoreType env kvs) := by
  unfold restoreType
  refine Stays.bind (Stays.ofExcept _) (fun j => Stays.bind (st_loadclassJ j) (fun c => ?_))
  st st_raw

theorem st_restoreModule (j) : Stays (restoreModule env j) := by
  unfold restoreModule; st (fun (x : Empty) => nomatch x)

theorem st_restoreRepr (j) : Stays (restoreRepr env j) := by
  unfold restoreRepr
  st (fun (x : Empty) => nomatch x)

theorem st_processMissing (n) : Stays (processMissing env n) := by
  unfold processMissing
  st (fun (x : Empty) => nomatch x)

theorem st_loadFactory (h : ∀ j, Stays (rs j)) (kvs) : Stays (loadFactory rs kvs) := by
  unfold loadFactory; st h

theorem st_restorePickledKey (h : ∀ j, Stays (rs j)) (k) : Stays (restorePickledKey env rs k) := by
  unfold restorePickledKey; st h

theorem st_restoreKey (h : ∀ j, Stays (rs j)) (k) : Stays (restoreKey env rs k) := by
  unfold restoreKey
  split
  · exact st_restorePickledKey h k
  · exact Stays.pure _

theorem st_storeEntry (a k v) : Stays (storeEntry a k v) := by
  unfold storeEntry; st (fun (x : Empty) => nomatch x)

theorem st_restoreFromJson (h : ∀ j, Stays (rs j)) (a kvs) : Stays (restoreFromJson env rs a kvs) := by
  unfold restoreFromJson
  refine Stays.bind (Stays.mapM (fun kv => ?_) _) (fun _ => Stays.pure _)
  split
  · exact Stays.pure _
  · exact Stays.bind (st_restoreKey h _) (fun _ => Stays.bind (h _) (fun _ => st_storeEntry _ _ _))

theorem st_restoreFromVals (a kvs) : Stays (restoreFromVals a kvs) := by
  unfold restoreFromVals
  exact Stays.bind (Stays.mapM (fun kv => st_storeEntry _ _ _) _) (fun _ => Stays.pure _)

theorem st_applyOtherState (a st) : Stays (applyOtherState a st) := by
  have := st_restoreFromVals a
  unfold applyOtherState; st this

theorem st_restoreState (h : ∀ j, Stays (rs j)) (a j) : Stays (restoreState rs a j) := by
  unfold restoreState
  refine Stays.bind (h _) (fun st => Stays.bind (Stays.get) (fun s => ?_))
  split
  · st (fun (x : Empty) => nomatch x)
  · split
    · exact Stays.bind (st_restoreFromVals _ _) (fun _ => Stays.pure _)
    · exact st_applyOtherState _ _

theorem st_restoreSeq (h : ∀ j, Stays (rs j)) (a j) : Stays (restoreSeq rs a j) := by
  unfold restoreSeq; st h

theorem st_restoreSeqTag (h : ∀ j, Stays (rs j)) (a kvs) : Stays (restoreSeqTag rs a kvs) := by
  unfold restoreSeqTag
  split
  · exact Stays.pure _
  · exact st_restoreSeq h _ _

theorem st_restoreVariables (h : ∀ j, Stays (rs j)) (a kvs) : Stays (restoreVariables env rs a kvs) := by
  unfold restoreVariables
  refine Stays.bind (st_restoreFromJson h a kvs) (fun _ => Stays.bind (st_restoreSeqTag h a kvs) (fun _ => ?_))
  split
  · exact Stays.pure _
  · exact st_restoreState h _ _

theorem st_getargs (kvs) : Stays (getargs env kvs) := by
  unfold getargs
  st st_loadclassJ

theorem st_ctorArgs (kvs) : Stays (ctorArgs env kvs) := by
  unfold ctorArgs
  st st_getargs

theorem st_restoreArg (h : ∀ j, Stays (rs j)) (j) : Stays (restoreArg rs j) := by
  unfold restoreArg; st h

theorem st_missingRaw (n : Str) (kvs) : Stays (do processMissing env n; let r ← raw (.obj kvs); mkref r) :=
  Stays.bind (st_processMissing n) (fun _ => Stays.bind (st_raw _) (fun _ => Stays.mkref _))

theorem st_restoreInstance (h : ∀ j, Stays (rs j)) (n kvs) : Stays (restoreInstance env rs n kvs) := by
  unfold restoreInstance
  intro s
  refine StaysAt.bind (Stays.alloc _ s) (fun p s1 e1 _ => ?_)
  cases e1
  have h0 : ∃ w, (s.heap ++ [Obj.proxy none])[s.heap.length]? = some (.proxy w) := ⟨none, by simp⟩
  refine StaysAt.bind (Stays.mkref _ _) (fun _ s2 _ k2 => ?_)
  have h2 := still (s1 := s2) (s := { s with heap := s.heap ++ [Obj.proxy none] }) h0 k2
  refine StaysAt.bind (st_loadFactory h _ _) (fun fk s3 _ k3 => ?_)
  obtain ⟨fac, kvs⟩ := fk
  refine StaysAt.bind (st_ctorArgs _ _) (fun aj s4 _ k4 => ?_)
  obtain ⟨ja, jk⟩ := aj
  refine StaysAt.bind (st_restoreArg h _ _) (fun _ s5 _ k5 => ?_)
  refine StaysAt.bind (st_restoreArg h _ _) (fun _ s6 _ k6 => ?_)
  refine StaysAt.bind (Stays.get _) (fun _ s7 _ k7 => ?_)
  refine StaysAt.bind (Stays.emit _ _) (fun _ s8 _ k8 => ?_)
  have h8 := still h2 (((((k3.trans k4).trans k5).trans k6).trans k7).trans k8)
  split
  · exact st_missingRaw _ _ _
  · refine st_replace h8 _ (fun a => Stays.bind (Stays.swapref _ _) (fun _ => ?_))
    split
    · exact Stays.pure _
    · exact Stays.bind (st_restoreVariables h _ _) (fun _ => Stays.bind (Stays.fixFactory _) (fun _ => Stays.pure _))

theorem st_restoreDate (h : ∀ j, Stays (rs j)) (kvs) : Stays (restoreDate env rs kvs) := by
  unfold restoreDate; st h

theorem st_handlerRestore (h : ∀ j, Stays (rs j)) (k n kvs) : Stays (handlerRestore env rs k n kvs) := by
  have := st_restoreDate (env := env) h kvs
  unfold handlerRestore; st h
  exact this

theorem st_restoreHandled (h : ∀ j, Stays (rs j)) (k n kvs) : Stays (restoreHandled env rs k n kvs) := by
  unfold restoreHandled
  intro s
  refine StaysAt.bind (Stays.alloc _ s) (fun p s1 e1 _ => ?_)
  cases e1
  have h0 : ∃ w, (s.heap ++ [Obj.proxy none])[s.heap.length]? = some (.proxy w) := ⟨none, by simp⟩
  refine StaysAt.bind (Stays.mkref _ _) (fun _ s2 _ k2 => ?_)
  have h2 := still (s1 := s2) (s := { s with heap := s.heap ++ [Obj.proxy none] }) h0 k2
  refine StaysAt.bind (st_handlerRestore h _ _ _ _) (fun v s3 _ k3 => ?_)
  obtain ⟨w, hw⟩ := still h2 k3
  refine StaysAt.bind (Stays.setAt hw trivial) (fun _ s4 _ _ => ?_)
  exact Stays.bind (Stays.swapref _ _) (fun _ => Stays.pure _) s4

theorem st_restoreObject (h : ∀ j, Stays (rs j)) (kvs) : Stays (restoreObject env rs kvs) := by
  unfold restoreObject
  refine Stays.bind (Stays.ofExcept _) (fun j => Stays.bind (st_loadclassJ _) (fun c => ?_))
  cases j with
  | str n =>
    refine Stays.bind (Stays.emit _) (fun _ => ?_)
    split
    · exact st_restoreHandled h _ _ _
    · split
      · exact st_missingRaw _ _
      · exact st_restoreInstance h _ _
  | _ => exact Stays.throw _

theorem st_restoreFunction (kvs) : Stays (restoreFunction env kvs) := by
  unfold restoreFunction
  st st_loadclassJ

theorem st_restoreTuple (h : ∀ j, Stays (rs j)) (kvs) : Stays (restoreTuple rs kvs) := by
  unfold restoreTuple; st h

theorem st_restoreSet (h : ∀ j, Stays (rs j)) (kvs) : Stays (restoreSet rs kvs) := by
  unfold restoreSet; st h

theorem st_dictEntry (h : ∀ j, Stays (rs j)) (a kv) : Stays (dictEntry rs a kv) := by
  unfold dictEntry; st h

theorem st_dictEntry1 (h : ∀ j, Stays (rs j)) (a kv) : Stays (dictEntry1 rs a kv) := by
  unfold dictEntry1; st h

theorem st_dictEntry2 (h : ∀ j, Stays (rs j)) (a kv) : Stays (dictEntry2 env rs a kv) := by
  unfold dictEntry2
  split
  · refine Stays.bind (st_restorePickledKey h _) (fun _ => ?_)
    st h
  · exact Stays.pure _

theorem st_mkrefUnlessV1 (a) : Stays (mkrefUnlessV1 env a) := by
  unfold mkrefUnlessV1; st (fun (x : Empty) => nomatch x)

theorem st_restoreDict (h : ∀ j, Stays (rs j)) (kvs) : Stays (restoreDict env rs kvs) := by
  unfold restoreDict
  refine Stays.bind (Stays.alloc _) (fun a => Stays.bind (st_mkrefUnlessV1 a) (fun _ => ?_))
  split
  · exact Stays.bind (Stays.mapM (st_dictEntry1 h a) _) (fun _ => Stays.bind (Stays.mapM (st_dictEntry2 h a) _) (fun _ => Stays.pure _))
  · exact Stays.bind (Stays.mapM (st_dictEntry h a) _) (fun _ => Stays.pure _)

theorem st_bytes {α : Type} (r : Except Exc Bytes) (f : Nat → Bytes → α) :
    Stays (do let b ← PyM.ofExcept r; let n ← fresh; Pure.pure (f n b) : U α) :=
  Stays.bind (Stays.ofExcept _) (fun _ => Stays.bind (Stays.fresh) (fun _ => Stays.pure _))

theorem st_restoreTags (h : ∀ j, Stays (rs j)) (kvs) : Stays (restoreTags env rs kvs) := by
  unfold restoreTags
  refine Stays.ite (st_restoreTuple h _) ?_
  refine Stays.ite (st_restoreSet h _) ?_
  refine Stays.ite (st_bytes _ _) ?_
  refine Stays.ite (st_bytes _ _) ?_
  refine Stays.ite (st_bytes _ _) ?_
  refine Stays.ite (st_restoreId _) ?_
  refine Stays.ite (st_restoreIterator h _) ?_
  refine Stays.ite (st_restoreObject h _) ?_
  refine Stays.ite (st_restoreType _) ?_
  refine Stays.ite (st_restoreReduce h _) ?_
  refine Stays.ite (st_restoreFunction _) ?_
  refine Stays.ite (Stays.bind (Stays.ofExcept _) (fun _ => st_restoreModule _)) ?_
  refine Stays.ite (Stays.bind (Stays.ofExcept _) (fun _ => ?_)) (st_restoreDict h _)
  split
  · exact st_restoreModule _
  · exact st_restoreRepr _

theorem st_restoreStep (h : ∀ j, Stays (rs j)) (j) : Stays (restoreStep env rs j) := by
  unfold restoreStep
  split
  all_goals first
    | exact Stays.pure _
    | exact Stays.bind (st_restoreList h _) (fun _ => Stays.pure _)
    | exact st_restoreTags h _

theorem st_restore : ∀ (n : Nat) (j), Stays (restore env n j)
  | 0, _ => fun s r s' h => by cases h
  | n + 1, j => st_restoreStep (st_restore n) j

theorem st_restoreTop (n : Nat) (j b) : Stays (restoreTop env n j b) := by
  unfold restoreTop
  split
  · exact Stays.bind (Stays.reset) (fun _ => Stays.bind (st_restore n j) (fun _ =>
      Stays.bind (Stays.swapProxies) (fun _ => Stays.pure _)))
  · exact st_restore n j

end
end JP.Unpickler
