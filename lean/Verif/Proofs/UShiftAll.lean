import Verif.Proofs.UShiftRun
/-! # All of `restore` commutes with lifting -/
namespace JP.Unpickler
open JP PyM

variable {o : Old} {env : UEnv} {rs : Json → U Val}

abbrev Same (o : Old) (rs : Json → U Val) : Prop := ∀ j, Com o o.v (rs j) (rs j)

theorem obj_list (xs : List Val) : Obj.list (o.vs xs) = o.obj (.list xs) := rfl

mutual
theorem com_raw : ∀ j, Com o o.v (raw j) (raw j)
  | .null | .bool _ | .int _ | .float _ | .str _ => by unfold raw; exact Com.pure rfl
  | .arr xs => by
    unfold raw
    exact Com.bind (com_raws xs) (fun _ => Com.bind (Com.alloc rfl) (fun _ => Com.pure rfl))
  | .obj kvs => by
    unfold raw
    exact Com.bind (com_rawKvs kvs) (fun _ => Com.bind (Com.alloc rfl) (fun _ => Com.pure rfl))
theorem com_raws : ∀ xs, Com o o.vs (raws xs) (raws xs)
  | [] => by unfold raws; exact Com.pure rfl
  | x :: xs => by
    unfold raws
    exact Com.bind (com_raw x) (fun _ => Com.bind (com_raws xs) (fun _ => Com.pure rfl))
theorem com_rawKvs : ∀ xs, Com o o.kv (rawKvs xs) (rawKvs xs)
  | [] => by unfold rawKvs; exact Com.pure rfl
  | (k, x) :: xs => by
    unfold rawKvs
    exact Com.bind (com_raw x) (fun _ => Com.bind (com_rawKvs xs) (fun _ => Com.pure rfl))
end

theorem com_noteList (a : Addr) : ∀ n vs, Com o id (noteList a n vs) (noteList (o.addr a) n (o.vs vs))
  | _, [] => by unfold noteList; exact Com.pure rfl
  | n, v :: vs => by
    show Com o id (noteProxy a (.idx n) v >>= fun _ => noteList a (n + 1) vs)
      (noteProxy (o.addr a) (.idx n) (o.v v) >>= fun _ => noteList (o.addr a) (n + 1) (o.vs vs))
    exact Com.bind (Com.noteProxy rfl v) (fun _ => com_noteList a (n + 1) vs)

theorem com_restoreList (h : Same o rs) (xs) : Com o o.addr (restoreList rs xs) (restoreList rs xs) := by
  unfold restoreList
  refine Com.bind (Com.alloc rfl) (fun a => ?_)
  refine Com.bind (Com.mkref (.ref a)) (fun _ => ?_)
  refine Com.bind (Com.ofExceptId _) (fun _ => ?_)
  refine Com.bind (Com.mapMV h _) (fun vs => ?_)
  refine Com.bind (Com.setCell rfl rfl) (fun _ => ?_)
  exact Com.bind (com_noteList a 0 vs) (fun _ => Com.pure rfl)

theorem com_restoreIterator (h : Same o rs) (kvs) : Com o o.v (restoreIterator rs kvs) (restoreIterator rs kvs) := by
  unfold restoreIterator
  refine Com.bind (Com.tryCatch (Com.bind (Com.ofExceptId _) (fun _ => com_restoreList h _)) (fun _ => Com.alloc rfl)) (fun a => ?_)
  exact Com.bind (Com.alloc rfl) (fun b => Com.pure rfl)

theorem map_global {x : Option Val} (h : ∀ v, x = some v → v.Global) : x = x.map o.v := by
  cases x with
  | none => rfl
  | some v => rw [Option.map_some, show o.v v = v from shift_global (h v rfl)]

theorem com_loadclassJ (g : env.Globals) (j) : Com o (Option.map o.v) (loadclassJ env j) (loadclassJ env j) := by
  unfold loadclassJ
  split
  · exact Com.bind (Com.emit _) (fun _ => Com.pure (map_global (g.cls _)))
  · exact Com.throw _ _

theorem com_reduceFallback (p : Addr) : Com o o.v (reduceFallback p) (reduceFallback (o.addr p)) := by
  unfold reduceFallback
  refine Com.bind (Com.alloc rfl) (fun a => ?_)
  refine Com.bind (Com.setCell rfl rfl) (fun _ => ?_)
  exact Com.bind (Com.swapref rfl rfl) (fun _ => Com.pure rfl)

theorem com_emitSetter (ops : List Op) : Com o id (emitSetter ops) (emitSetter (o.ops ops)) := by
  match ops with
  | [] => exact Com.pure rfl
  | .setter f _ :: _ => cases f <;> first | exact Com.emit _ | exact Com.pure rfl
  | .setstate _ :: _ | .setDict _ :: _ | .setattr _ _ :: _ | .extend _ :: _ | .append _ :: _ | .setitem _ _ :: _ => exact Com.pure rfl

theorem com_reduceFinish (p : Addr) (cls : Str) (vals : List Val) (c d e g : Val) :
    Com o o.v (reduceFinish env p cls vals c d e g) (reduceFinish env (o.addr p) cls (o.vs vals) (o.v c) (o.v d) (o.v e) (o.v g)) := by
  unfold reduceFinish
  refine Com.bind Com.get (fun s => ?_)
  rw [Old.lift_heap]
  refine Com.bind (Com.ofExcept (o.stateOps_lift s.heap _ c g)) (fun st => ?_)
  refine Com.bind (com_emitSetter st) (fun _ => ?_)
  refine Com.bind (Com.ofExcept (o.listOps_lift s.heap _ d)) (fun ls => ?_)
  refine Com.bind (Com.ofExcept (o.dictOps_lift s.heap _ e)) (fun ds => ?_)
  have e3 : o.ops st ++ o.ops ls ++ o.ops ds = o.ops (st ++ ls ++ ds) := by simp [Old.ops]
  rw [e3]
  refine Com.bind (Com.alloc rfl) (fun a => ?_)
  refine Com.bind (Com.setCell rfl rfl) (fun _ => ?_)
  exact Com.bind (Com.swapref rfl rfl) (fun _ => Com.pure rfl)

theorem isNewobj_lift (f : Val) : isNewobj (o.v f) = isNewobj f := by cases f <;> rfl

theorem com_reduceBuild (p : Addr) (vals : List Val) :
    Com o o.v (reduceBuild env p vals) (reduceBuild env (o.addr p) (o.vs vals)) := by
  have hfin := fun n c d e g => com_reduceFinish (o := o) (env := env) p n vals c d e g
  have hfall := com_reduceFallback (o := o) p
  match vals, hfin with
  | [f, args, x1, x2, x3, x4], hfin =>
    simp only [Old.vs, Val.shifts, reduceBuild] at hfin ⊢
    refine Com.bind Com.get (fun s => ?_)
    rw [Old.lift_heap]
    have hst := o.starArgs_lift s.heap args
    rw [show Val.shift o.m o.ids args = o.v args from rfl, hst]
    have hn : isNewobj (Val.shift o.m o.ids f) = isNewobj f := isNewobj_lift f
    rw [hn]
    refine Com.ite (Com.bind (Com.ofExcept (o.newobjArgs_lift s.heap args)) (fun a => ?_)) ?_
    · obtain ⟨c, rest⟩ := a
      simp only [Old.vs, shifts_length]
      cases c with
      | type n => exact Com.ite (Com.bind (Com.emit _) (fun _ => hfin n _ _ _ _)) (Com.throw _ _)
      | _ => exact Com.throw _ _
    · cases f with
      | type n =>
        simp only [Val.shift]
        cases starArgs s.heap args with
        | none => exact Com.throw _ _
        | some l =>
          simp only [Option.map_some, Old.vs, shifts_length]
          exact Com.ite (Com.bind (Com.emit _) (fun _ => hfin n _ _ _ _)) (Com.throw _ _)
      | func n =>
        simp only [Val.shift]
        cases starArgs s.heap args with
        | none => exact Com.throw _ _
        | some l =>
          simp only [Option.map_some, Old.vs, shifts_length]
          exact Com.ite (Com.bind (Com.emit _) (fun _ => hfin n _ _ _ _)) (Com.throw _ _)
      | _ => exact hfall
  | [], _ | [_], _ | [_, _], _ | [_, _, _], _ | [_, _, _, _], _ | [_, _, _, _, _], _ | _ :: _ :: _ :: _ :: _ :: _ :: _ :: _, _ =>
    exact Com.throw _ _

theorem padVals_lift (vs : List Val) : padVals (o.vs vs) = o.vs (padVals vs) := by
  unfold padVals Old.vs
  rw [shifts_append, shifts_length]
  congr 1
  rw [shifts_eq_map, List.map_replicate]
  rfl

theorem com_restoreReduce (h : Same o rs) (kvs) : Com o o.v (restoreReduce env rs kvs) (restoreReduce env rs kvs) := by
  unfold restoreReduce
  refine Com.bind (Com.alloc rfl) (fun p => Com.bind (Com.mkref (.ref p)) (fun _ => ?_))
  refine Com.bind (f := Option.map o.vs) (Com.tryCatch (Com.bind (Com.ofExceptId _) (fun _ => Com.bind (Com.ofExceptId _) (fun _ =>
    Com.bind (Com.mapMV h _) (fun _ => Com.pure rfl)))) (fun _ => Com.pure rfl)) (fun r => ?_)
  cases r with
  | none => exact com_reduceFallback p
  | some vs =>
    simp only [Option.map_some, padVals_lift]
    exact com_reduceBuild p (padVals vs)

theorem com_idLookup (n) : Com o o.v (idLookup n) (idLookup n) := by
  unfold idLookup
  refine Com.bind Com.get (fun s => ?_)
  rw [show (o.lift s).objs = o.vs s.objs from rfl, Old.pyIndex_lift]
  cases pyIndex s.objs n with
  | some v => exact Com.pure rfl
  | none => exact Com.bind (Com.alloc rfl) (fun _ => Com.pure rfl)

theorem com_restoreId (kvs) : Com o o.v (restoreId kvs) (restoreId kvs) := by
  unfold restoreId
  refine Com.bind (Com.ofExceptId _) (fun j => ?_)
  cases j with
  | int n => exact com_idLookup n
  | bool b => exact com_idLookup _
  | _ => exact Com.pure rfl

theorem com_restoreType (g : env.Globals) (kvs) : Com o o.v (restoreType env kvs) (restoreType env kvs) := by
  unfold restoreType
  refine Com.bind (Com.ofExceptId _) (fun j => Com.bind (com_loadclassJ g j) (fun c => ?_))
  cases c with
  | some v => exact Com.pure rfl
  | none => exact com_raw _

theorem com_restoreModule (g : env.Globals) (j) : Com o o.v (restoreModule env j) (restoreModule env j) := by
  unfold restoreModule
  split
  · next s =>
    refine Com.bind (Com.emit _) (fun _ => Com.bind (f := Option.map o.v) (Com.ofExcept ?_) (fun r => ?_))
    · cases hm : env.loadmodule s with
      | error e => rfl
      | ok r =>
        show Except.ok r = Except.ok (r.map o.v)
        congr 1
        exact map_global (fun v hv => g.mod s v (by rw [hm, hv]))
    · have : (Option.map o.v r).getD .none = o.v (r.getD .none) := by cases r <;> rfl
      rw [this]
      exact Com.mkref _
  · exact Com.throw _ _

theorem com_restoreRepr (g : env.Globals) (j) : Com o o.v (restoreRepr env j) (restoreRepr env j) := by
  unfold restoreRepr
  split
  · next s =>
    refine Com.bind (Com.emit _) (fun _ => Com.bind (f := o.v) (Com.ofExcept ?_) (fun r => Com.mkref _))
    cases hm : env.loadrepr s with
    | error e => rfl
    | ok v =>
      show Except.ok v = Except.ok (o.v v)
      rw [show o.v v = v from shift_global (g.repr s v hm)]
  · exact Com.throw _ _

theorem com_processMissing (n) : Com o id (processMissing env n) (processMissing env n) := by
  unfold processMissing
  split
  · exact Com.pure rfl
  · exact Com.emit _
  · exact Com.emit _
  · exact Com.bind (Com.emit _) (fun _ => Com.throw _ _)

theorem com_loadFactory (h : Same o rs) (kvs) :
    Com o (fun p => (o.v p.1, p.2)) (loadFactory rs kvs) (loadFactory rs kvs) := by
  unfold loadFactory
  split
  · exact Com.pure rfl
  · split
    · exact Com.pure rfl
    · exact Com.pure rfl
    · exact Com.bind (h _) (fun _ => Com.pure rfl)

theorem com_restorePickledKey (h : Same o rs) (k) : Com o o.v (restorePickledKey env rs k) (restorePickledKey env rs k) := by
  unfold restorePickledKey
  refine Com.ite ?_ (Com.pure rfl)
  split
  · exact Com.throw _ _
  · exact h _

theorem com_restoreKey (h : Same o rs) (k) : Com o o.v (restoreKey env rs k) (restoreKey env rs k) := by
  unfold restoreKey
  exact Com.ite (com_restorePickledKey h k) (Com.pure rfl)

theorem com_storeEntry (a : Addr) (k v : Val) : Com o id (storeEntry a k v) (storeEntry (o.addr a) (o.v k) (o.v v)) := by
  unfold storeEntry
  exact Com.bind (Com.storeRaw a k v) (fun _ => Com.noteEntry a k v)

theorem com_restoreFromJson (h : Same o rs) (a : Addr) (kvs) :
    Com o id (restoreFromJson env rs a kvs) (restoreFromJson env rs (o.addr a) kvs) := by
  unfold restoreFromJson
  refine Com.bind (Com.mapMJ (f := id) (fun kv => ?_) _) (fun _ => Com.pure rfl)
  refine Com.ite (Com.pure rfl) ?_
  exact Com.bind (com_restoreKey h _) (fun _ => Com.bind (h _) (fun _ => com_storeEntry _ _ _))

theorem com_restoreFromVals (a : Addr) (kvs) : Com o id (restoreFromVals a kvs) (restoreFromVals (o.addr a) (o.kv kvs)) := by
  unfold restoreFromVals
  refine Com.bind (f := List.map id) ?_ (fun _ => Com.pure rfl)
  exact Com.mapM (g := shiftPair o.m o.ids) (f := id) (fun kv => com_storeEntry a kv.1 kv.2) kvs

theorem com_applyOtherState (a : Addr) (st : Val) : Com o o.v (applyOtherState a st) (applyOtherState (o.addr a) (o.v st)) := by
  unfold applyOtherState
  refine Com.bind Com.get (fun s => ?_)
  rw [Old.lift_heap, Old.infoOf_lift]
  have hdef : Com o o.v (if ((infoOf s.heap a).hasNewargs || (infoOf s.heap a).hasNewargsEx) = true then pure (.ref a) else pure st : U Val)
      (if ((infoOf s.heap a).hasNewargs || (infoOf s.heap a).hasNewargsEx) = true then pure (.ref (o.addr a)) else pure (o.v st)) :=
    Com.ite (Com.pure rfl) (Com.pure rfl)
  match st with
  | .tuple i [x, y] =>
    simp only [Old.v, Val.shift, Val.shifts]
    have hy := o.dictEntries_lift s.heap y
    have hx := o.dictEntries_lift s.heap x
    simp only [Old.v] at hx hy
    rw [hy, hx]
    cases dictEntries s.heap y with
    | none => exact hdef
    | some kvs =>
      refine Com.bind (com_restoreFromVals a kvs) (fun _ => ?_)
      cases dictEntries s.heap x with
      | none => exact Com.pure rfl
      | some kvs0 => exact Com.bind (com_restoreFromVals a kvs0) (fun _ => Com.pure rfl)
  | .tuple _ [] | .tuple _ [_] | .tuple _ (_ :: _ :: _ :: _) => exact hdef
  | .none | .bool _ | .int _ | .float _ | .str _ | .bytes _ _ | .bytearray _ _ | .set _ _ | .type _ | .func _ | .lambda _
  | .module _ | .ref _ => exact hdef

theorem com_restoreState (h : Same o rs) (a : Addr) (j) : Com o o.v (restoreState rs a j) (restoreState rs (o.addr a) j) := by
  unfold restoreState
  refine Com.bind (h _) (fun st => Com.bind Com.get (fun s => ?_))
  rw [Old.lift_heap, Old.infoOf_lift]
  refine Com.ite (Com.bind (Com.modInst (fun _ => rfl)) (fun _ => Com.pure rfl)) ?_
  rw [Old.dictEntries_lift]
  cases dictEntries s.heap st with
  | none => exact com_applyOtherState a st
  | some kvs => exact Com.bind (com_restoreFromVals a kvs) (fun _ => Com.pure rfl)

theorem com_restoreSeq (h : Same o rs) (a : Addr) (j) : Com o id (restoreSeq rs a j) (restoreSeq rs (o.addr a) j) := by
  unfold restoreSeq
  refine Com.bind Com.get (fun s => ?_)
  rw [Old.lift_heap, Old.infoOf_lift]
  cases (infoOf s.heap a).base with
  | list =>
    refine Com.bind (Com.ofExceptId _) (fun xs => Com.bind (Com.mapMJ (f := id) (fun x => ?_) _) (fun _ => Com.pure rfl))
    refine Com.bind (h _) (fun v => Com.modInst (fun i => ?_))
    simp only [Old.inst, Inst.shift, shifts_append]
    rfl
  | set =>
    refine Com.bind (Com.ofExceptId _) (fun xs => Com.bind (Com.mapMJ (f := id) (fun x => ?_) _) (fun _ => Com.pure rfl))
    refine Com.bind (h _) (fun v => Com.bind Com.get (fun s => ?_))
    rw [Old.lift_heap, Old.hashable_lift]
    refine Com.ite (Com.modInst (fun i => ?_)) (Com.throw _ _)
    simp only [Old.inst, Inst.shift, sadd_shift]
  | _ => exact Com.pure rfl

theorem com_restoreSeqTag (h : Same o rs) (a : Addr) (kvs) : Com o id (restoreSeqTag rs a kvs) (restoreSeqTag rs (o.addr a) kvs) := by
  unfold restoreSeqTag
  split
  · exact Com.pure rfl
  · exact com_restoreSeq h _ _

theorem com_restoreVariables (h : Same o rs) (a : Addr) (kvs) :
    Com o o.v (restoreVariables env rs a kvs) (restoreVariables env rs (o.addr a) kvs) := by
  unfold restoreVariables
  refine Com.bind (com_restoreFromJson h a kvs) (fun _ => Com.bind (com_restoreSeqTag h a kvs) (fun _ => ?_))
  split
  · exact Com.pure rfl
  · exact com_restoreState h _ _

theorem com_getargs (g : env.Globals) (kvs) : Com o id (getargs env kvs) (getargs env kvs) := by
  unfold getargs
  cases dget Tags.NEWARGS kvs with
  | some j => exact Com.pure rfl
  | none =>
  cases dget Tags.INITARGS kvs with
  | some j => exact Com.pure rfl
  | none =>
  cases dget Tags.SEQ kvs with
  | none => exact Com.pure rfl
  | some sq =>
  cases dget Tags.OBJECT kvs with
  | none => exact Com.pure rfl
  | some oj =>
  refine Com.bind (com_loadclassJ g _) (fun c => ?_)
  cases c with
  | none => exact Com.pure rfl
  | some v =>
    cases v with
    | type n =>
      simp only [Option.map_some, Old.v, Val.shift]
      repeat' first
        | exact Com.pure rfl
        | exact Com.throw _ _
        | split
    | _ => exact Com.pure rfl

theorem com_ctorArgs (g : env.Globals) (kvs) : Com o id (ctorArgs env kvs) (ctorArgs env kvs) := by
  unfold ctorArgs
  split
  · refine Com.bind (Com.ofExceptId _) (fun xs => ?_)
    simp only [id]
    split
    · exact Com.pure rfl
    · exact Com.throw _ _
  · exact Com.bind (com_getargs g kvs) (fun _ => Com.pure rfl)

theorem com_restoreArg (h : Same o rs) (j) : Com o o.v (restoreArg rs j) (restoreArg rs j) := by
  unfold restoreArg
  refine Com.ite (h _) ?_
  cases j <;> exact Com.pure rfl

theorem com_missingRaw (n : Str) (kvs) : Com o o.v (do processMissing env n; let r ← raw (.obj kvs); mkref r)
    (do processMissing env n; let r ← raw (.obj kvs); mkref r) :=
  Com.bind (com_processMissing n) (fun _ => Com.bind (com_raw _) (fun _ => Com.mkref _))

theorem com_restoreInstance (g : env.Globals) (h : Same o rs) (n kvs) : Com o o.v (restoreInstance env rs n kvs) (restoreInstance env rs n kvs) := by
  unfold restoreInstance
  refine Com.bind (Com.alloc rfl) (fun p => Com.bind (Com.mkref (.ref p)) (fun _ => Com.bind (com_loadFactory h _) (fun fk => ?_)))
  obtain ⟨fac, kvs⟩ := fk
  refine Com.bind (com_ctorArgs g _) (fun aj => ?_)
  obtain ⟨ja, jk⟩ := aj
  refine Com.bind (com_restoreArg h _) (fun args => Com.bind (com_restoreArg h _) (fun kw =>
    Com.bind Com.get (fun s => Com.bind (Com.emit _) (fun _ => ?_))))
  simp only [Old.lift_heap, Old.construct_lift]
  cases construct s.heap n (env.classInfo n) fac args kw with
  | none => exact com_missingRaw _ _
  | some inst =>
    refine Com.bind (Com.alloc rfl) (fun a => Com.bind (Com.setCell rfl rfl) (fun _ => Com.bind (Com.swapref rfl rfl) (fun _ => ?_)))
    refine Com.ite (Com.pure rfl) ?_
    exact Com.bind (com_restoreVariables h _ _) (fun v => Com.bind (Com.fixFactory v) (fun _ => Com.pure rfl))

theorem com_restoreDate (h : Same o rs) (kvs) : Com o o.v (restoreDate env rs kvs) (restoreDate env rs kvs) := by
  unfold restoreDate
  refine Com.bind (Com.ofExceptId _) (fun r => Com.bind (Com.ofExceptId _) (fun ps => ?_))
  simp only [id]
  split
  · refine Com.bind (h _) (fun c => Com.bind (Com.ofExceptId _) (fun pa => Com.bind (Com.ofExceptId _) (fun b => Com.bind (Com.mapMV h _) (fun params => ?_))))
    cases c <;> first | exact Com.throw _ _ | skip
    refine Com.bind (Com.emit _) (fun _ => Com.bind (Com.alloc ?_) (fun _ => Com.pure rfl))
    simp only [Old.obj, Old.vs, Obj.shift, Inst.shift, shifts_eq_map, List.map_append, List.map_cons, List.map_map]
    rfl
  · exact Com.throw _ _

theorem com_handlerRestore (h : Same o rs) (k n kvs) : Com o o.v (handlerRestore env rs k n kvs) (handlerRestore env rs k n kvs) := by
  unfold handlerRestore
  split
  · refine Com.bind (Com.mapMJ (f := shiftField o.m o.ids) (fun kv => Com.bind (h _) (fun _ => Com.pure rfl)) _) (fun fs => ?_)
    exact Com.bind (Com.alloc rfl) (fun _ => Com.pure rfl)
  · exact com_restoreDate h _
  · exact Com.bind (Com.alloc rfl) (fun _ => Com.pure rfl)
  · exact Com.throw _ _

theorem com_restoreHandled (h : Same o rs) (k n kvs) : Com o o.v (restoreHandled env rs k n kvs) (restoreHandled env rs k n kvs) := by
  unfold restoreHandled
  refine Com.bind (Com.alloc rfl) (fun p => Com.bind (Com.mkref (.ref p)) (fun _ => Com.bind (com_handlerRestore h _ _ _) (fun v => ?_)))
  exact Com.bind (Com.setCell rfl rfl) (fun _ => Com.bind (Com.swapref rfl rfl) (fun _ => Com.pure rfl))

theorem com_restoreObject (g : env.Globals) (h : Same o rs) (kvs) : Com o o.v (restoreObject env rs kvs) (restoreObject env rs kvs) := by
  unfold restoreObject
  refine Com.bind (Com.ofExceptId _) (fun j => Com.bind (com_loadclassJ g j) (fun c => ?_))
  simp only [id]
  split
  · refine Com.bind (Com.emit _) (fun _ => ?_)
    split
    · exact com_restoreHandled h _ _ _
    · cases c with
      | none => exact com_missingRaw _ _
      | some v => exact com_restoreInstance g h _ _
  · exact Com.throw _ _

theorem com_restoreFunction (g : env.Globals) (kvs) : Com o o.v (restoreFunction env kvs) (restoreFunction env kvs) := by
  unfold restoreFunction
  refine Com.bind (Com.ofExceptId _) (fun j => Com.bind (com_loadclassJ g j) (fun c => Com.pure ?_))
  cases c <;> rfl

theorem com_restoreTuple (h : Same o rs) (kvs) : Com o o.v (restoreTuple rs kvs) (restoreTuple rs kvs) := by
  unfold restoreTuple
  refine Com.bind (f := o.vs) (Com.tryCatch (Com.bind (Com.ofExceptId _) (fun _ => Com.bind (Com.ofExceptId _) (fun _ => Com.mapMV h _)))
    (fun _ => Com.pure rfl)) (fun vs => Com.bind Com.fresh (fun n => Com.pure ?_))
  simp only [Old.v, Val.shift]

theorem com_restoreSet (h : Same o rs) (kvs) : Com o o.v (restoreSet rs kvs) (restoreSet rs kvs) := by
  unfold restoreSet
  refine Com.bind (f := o.vs) (Com.tryCatch (Com.bind (Com.ofExceptId _) (fun _ => Com.bind (Com.ofExceptId _) (fun xs =>
    Com.foldM (f := o.vs) (fun acc x => ?_) xs [])))
    (fun _ => Com.pure rfl)) (fun vs => Com.bind Com.fresh (fun n => Com.pure ?_))
  · refine Com.bind (h _) (fun v => Com.bind Com.get (fun s => ?_))
    rw [Old.lift_heap, Old.hashable_lift]
    exact Com.ite (Com.pure (sadd_shift _ _).symm) (Com.throw _ _)
  · simp only [Old.v, Val.shift]

theorem com_dictEntry (h : Same o rs) (a : Addr) (kv) : Com o id (dictEntry rs a kv) (dictEntry rs (o.addr a) kv) := by
  unfold dictEntry
  exact Com.bind (h _) (fun v => Com.bind (Com.dictSet rfl v) (fun _ => Com.noteProxy rfl v))

theorem com_dictEntry1 (h : Same o rs) (a : Addr) (kv) : Com o id (dictEntry1 rs a kv) (dictEntry1 rs (o.addr a) kv) := by
  unfold dictEntry1
  exact Com.ite (Com.pure rfl) (Com.bind (h _) (fun v => Com.dictSet rfl v))

theorem com_dictEntry2 (h : Same o rs) (a : Addr) (kv) : Com o id (dictEntry2 env rs a kv) (dictEntry2 env rs (o.addr a) kv) := by
  unfold dictEntry2
  exact Com.ite (Com.bind (com_restorePickledKey h _) (fun k => Com.bind (h _) (fun v => Com.bind (Com.dictSet rfl v) (fun _ => Com.noteProxy rfl v)))) (Com.pure rfl)

theorem com_mkrefUnlessV1 (a : Addr) : Com o id (mkrefUnlessV1 env a) (mkrefUnlessV1 env (o.addr a)) := by
  unfold mkrefUnlessV1
  exact Com.ite (Com.pure rfl) (Com.bind (Com.mkref (.ref a)) (fun _ => Com.pure rfl))

theorem com_restoreDict (h : Same o rs) (kvs) : Com o o.v (restoreDict env rs kvs) (restoreDict env rs kvs) := by
  unfold restoreDict
  refine Com.bind (Com.alloc rfl) (fun a => Com.bind (com_mkrefUnlessV1 a) (fun _ => ?_))
  refine Com.ite ?_ ?_
  · exact Com.bind (Com.mapMJ (com_dictEntry1 h a) _) (fun _ => Com.bind (Com.mapMJ (com_dictEntry2 h a) _) (fun _ => Com.pure rfl))
  · exact Com.bind (Com.mapMJ (com_dictEntry h a) _) (fun _ => Com.pure rfl)

theorem com_bytes {f : Nat → Bytes → Val} (hf : ∀ n b, f (shiftId o.ids n) b = o.v (f n b)) (r : Except Exc Bytes) :
    Com o o.v (do let b ← PyM.ofExcept r; let n ← fresh; pure (f n b) : U Val) (do let b ← PyM.ofExcept r; let n ← fresh; pure (f n b)) :=
  Com.bind (Com.ofExceptId _) (fun b => Com.bind Com.fresh (fun n => Com.pure (hf n b)))

theorem com_restoreTags (g : env.Globals) (h : Same o rs) (kvs) : Com o o.v (restoreTags env rs kvs) (restoreTags env rs kvs) := by
  unfold restoreTags
  refine Com.ite (com_restoreTuple h _) ?_
  refine Com.ite (com_restoreSet h _) ?_
  refine Com.ite (com_bytes (fun _ _ => by simp only [Old.v, Val.shift]) _) ?_
  refine Com.ite (com_bytes (fun _ _ => by simp only [Old.v, Val.shift]) _) ?_
  refine Com.ite (com_bytes (fun _ _ => by simp only [Old.v, Val.shift]) _) ?_
  refine Com.ite (com_restoreId _) ?_
  refine Com.ite (com_restoreIterator h _) ?_
  refine Com.ite (com_restoreObject g h _) ?_
  refine Com.ite (com_restoreType g _) ?_
  refine Com.ite (com_restoreReduce h _) ?_
  refine Com.ite (com_restoreFunction g _) ?_
  refine Com.ite (Com.bind (Com.ofExceptId _) (fun _ => com_restoreModule g _)) ?_
  refine Com.ite (Com.bind (Com.ofExceptId _) (fun _ => ?_)) (com_restoreDict h _)
  exact Com.ite (com_restoreModule g _) (com_restoreRepr g _)

theorem com_restoreStep (g : env.Globals) (h : Same o rs) (j) : Com o o.v (restoreStep env rs j) (restoreStep env rs j) := by
  unfold restoreStep
  cases j with
  | arr xs => exact Com.bind (com_restoreList h _) (fun _ => Com.pure rfl)
  | obj kvs => exact com_restoreTags g h _
  | _ => exact Com.pure rfl

theorem com_restore (g : env.Globals) : ∀ (n : Nat) (j), Com o o.v (restore env n j) (restore env n j)
  | 0, _ => Com.outOfFuel _
  | n + 1, j => com_restoreStep g (com_restore g n) j

theorem com_restoreTop (g : env.Globals) (n : Nat) (j b) : Com o o.v (restoreTop env n j b) (restoreTop env n j b) := by
  unfold restoreTop
  exact Com.ite (Com.bind Com.reset (fun _ => Com.bind (com_restore g n j) (fun _ => Com.bind Com.swapProxies (fun _ => Com.pure rfl))))
    (com_restore g n j)

end JP.Unpickler
