import Verif.Proofs.UShift
/-! # Every step of the decoder commutes with lifting -/
namespace JP.Unpickler
open JP PyM

def Com (o : Old) {α β : Type} (f : α → β) (x : U α) (y : U β) : Prop :=
  ∀ s, y (o.lift s) = (x s).map (o.liftRun f)

namespace Com
variable {o : Old}

theorem pure {α β : Type} {f : α → β} {a : α} {b : β} (h : b = f a) : Com o f (pure a : U α) (pure b : U β) := by
  intro s; rw [h]; rfl

theorem throw {α β : Type} (f : α → β) (e : Exc) : Com o f (PyM.throw e : U α) (PyM.throw e : U β) := fun _ => rfl

theorem outOfFuel {α β : Type} (f : α → β) : Com o f (PyM.outOfFuel : U α) (PyM.outOfFuel : U β) := fun _ => rfl

theorem get : Com o o.lift (PyM.get : U UState) PyM.get := fun _ => rfl

theorem ofExcept {α β : Type} {f : α → β} {r : Except Exc α} {r' : Except Exc β} (h : r' = r.map f) :
    Com o f (PyM.ofExcept r : U α) (PyM.ofExcept r') := by
  intro s; rw [h]; rfl

theorem ofExceptId {α : Type} (r : Except Exc α) : Com o id (PyM.ofExcept r : U α) (PyM.ofExcept r) :=
  ofExcept (by cases r <;> rfl)

theorem bind {α β γ δ : Type} {f : α → β} {g : γ → δ} {x : U α} {y : U β} {p : α → U γ} {q : β → U δ}
    (h : Com o f x y) (hp : ∀ a, Com o g (p a) (q (f a))) : Com o g (x >>= p) (y >>= q) := by
  intro s
  rw [bind_run, bind_run, h s]
  cases x s with
  | none => rfl
  | some r =>
    obtain ⟨r, s1⟩ := r
    cases r with
    | error e => rfl
    | ok a => exact hp a s1

theorem tryCatch {α β : Type} {f : α → β} {x : U α} {y : U β} {c : Exc → Bool} {p : Exc → U α} {q : Exc → U β}
    (h : Com o f x y) (hp : ∀ e, Com o f (p e) (q e)) : Com o f (PyM.tryCatch x c p) (PyM.tryCatch y c q) := by
  intro s
  unfold PyM.tryCatch
  rw [h s]
  cases x s with
  | none => rfl
  | some r =>
    obtain ⟨r, s1⟩ := r
    cases r with
    | ok a => rfl
    | error e =>
      simp only [Option.map_some, Old.liftRun, Except.map]
      split
      · exact hp e s1
      · rfl

theorem mapM {α α' β β' : Type} {g : α → α'} {f : β → β'} {p : α → U β} {q : α' → U β'} (h : ∀ a, Com o f (p a) (q (g a))) :
    ∀ xs, Com o (List.map f) (PyM.mapM p xs) (PyM.mapM q (xs.map g))
  | [] => fun _ => rfl
  | x :: xs => by
    rw [List.map_cons, mapM_cons, mapM_cons]
    exact bind (h x) (fun _ => bind (mapM h xs) (fun _ => pure rfl))

theorem mapMJ {β β' α : Type} {f : β → β'} {p : α → U β} {q : α → U β'} (h : ∀ a, Com o f (p a) (q a)) (xs : List α) :
    Com o (List.map f) (PyM.mapM p xs) (PyM.mapM q xs) := by
  have := mapM (g := id) (q := q) h xs
  rwa [List.map_id] at this

theorem mapMV {α : Type} {p q : α → U Val} (h : ∀ a, Com o o.v (p a) (q a)) (xs : List α) :
    Com o o.vs (PyM.mapM p xs) (PyM.mapM q xs) := by
  have := mapMJ h xs
  rwa [show List.map o.v = o.vs from (funext (fun xs => (shifts_eq_map o.m o.ids xs).symm))] at this

theorem foldM {α β β' : Type} {f : β → β'} {p : β → α → U β} {q : β' → α → U β'} (h : ∀ b a, Com o f (p b a) (q (f b) a)) :
    ∀ xs b, Com o f (PyM.foldM p b xs) (PyM.foldM q (f b) xs)
  | [], _ => fun _ => rfl
  | x :: xs, b => by
    rw [foldM_cons, foldM_cons]
    exact bind (h b x) (fun b => foldM h xs b)

theorem ite {α β : Type} {f : α → β} {c : Prop} [Decidable c] {x x' : U α} {y y' : U β} (h : Com o f x y) (h' : Com o f x' y') :
    Com o f (if c then x else x') (if c then y else y') := by
  split
  · exact h
  · exact h'

theorem emit (e : Event) : Com o id (emit e) (emit e) := by
  intro s
  simp only [Unpickler.emit, modify_run, Option.map_some, Old.liftRun, Old.lift]
  congr 3
  simp

theorem alloc {c c' : Obj} (h : c' = o.obj c) : Com o o.addr (alloc c) (alloc c') := by
  intro s
  simp only [Unpickler.alloc, Option.map_some, Old.liftRun, Old.lift, h, Except.map, Old.h_length, Old.h_append]

theorem setCell {a : Addr} {a' : Addr} (ha : a' = o.addr a) {c c' : Obj} (h : c' = o.obj c) : Com o id (setCell a c) (setCell a' c') := by
  intro s
  simp only [Unpickler.setCell, modify_run, Option.map_some, Old.liftRun, Old.lift, h, ha, Except.map, Old.h_set, id]

theorem modInst {a : Addr} {f f' : Inst → Inst} (h : ∀ i, f' (o.inst i) = o.inst (f i)) :
    Com o id (modInst a f) (modInst (o.addr a) f') := by
  intro s
  simp only [Unpickler.modInst, modify_run, Option.map_some, Old.liftRun, Old.lift_heap, Old.h_get, Except.map, id]
  congr 2
  cases hc : s.heap[a]? with
  | none => rfl
  | some c =>
    cases c with
    | inst i =>
      simp only [Option.map_some, Old.obj, Obj.shift]
      rw [show i.shift o.m o.ids = o.inst i from rfl, h]
      simp only [Old.lift, Old.h_set]
      rfl
    | _ => rfl

theorem fresh : Com o (shiftId o.ids) fresh fresh := by
  intro s
  simp only [Unpickler.fresh, Option.map_some, Old.liftRun, Old.lift, Except.map, shiftId]
  congr 2
  · congr 1
    simp
    omega
  · congr 1
    omega

theorem mkref (w : Val) : Com o o.v (mkref w) (mkref (o.v w)) := by
  intro s
  unfold Unpickler.mkref
  rw [ident_shift]
  have := o.idxGet_lift w.ident s.idx
  rw [show (o.lift s).idx = s.idx.map (fun p => (p.1.shift o.m o.ids, p.2)) from rfl, this]
  cases idxGet w.ident s.idx with
  | some n => rfl
  | none =>
    simp only [Option.map_some, Old.liftRun, Old.lift, Except.map, shifts_length, shifts_append, List.map_append]
    rfl

theorem swapref {p p' : Addr} (hp : p' = o.addr p) {w w' : Val} (hw : w' = o.v w) : Com o id (swapref p w) (swapref p' w') := by
  intro s
  subst hp hw
  unfold Unpickler.swapref
  have := o.idxGet_lift (.addr p) s.idx
  rw [show (o.lift s).idx = s.idx.map (fun p => (p.1.shift o.m o.ids, p.2)) from rfl,
    show Ident.addr (o.addr p) = Ident.shift o.m o.ids (.addr p) from rfl, this]
  cases idxGet (.addr p) s.idx with
  | none => rfl
  | some n =>
    rw [ident_shift]
    simp only [o.idxFilter_lift]
    simp only [Option.map_some, Old.liftRun, Old.lift, Except.map, shifts_set, List.map_append, List.map_cons, List.map_nil, id]

theorem noteProxy {a : Addr} {sl sl' : Slot} (hs : sl' = sl.shift o.m o.ids) (w : Val) :
    Com o id (noteProxy a sl w) (noteProxy (o.addr a) sl' (o.v w)) := by
  intro s
  subst hs
  simp only [Unpickler.noteProxy, modify_run, Option.map_some, Old.liftRun, Old.lift_heap, Old.proxyAddr_lift, Except.map, id]
  cases proxyAddr s.heap w with
  | none => rfl
  | some p => simp [Old.lift, Old.pending]

theorem attrOk_lift (i : Inst) (k : Str) : attrOk (o.inst i) k = attrOk i k := rfl

theorem setattr (a : Addr) (k : Str) (w : Val) : Com o id (setattr a k w) (setattr (o.addr a) k (o.v w)) := by
  intro s
  unfold Unpickler.setattr
  rw [Old.lift_heap, Old.h_get]
  cases s.heap[a]? with
  | none => rfl
  | some c =>
    cases c with
    | inst i =>
      simp only [Option.map_some, Old.obj, Obj.shift]
      rw [show i.shift o.m o.ids = o.inst i from rfl, attrOk_lift]
      split
      · cases hd : i.dictCell with
        | none =>
          have hd' : (o.inst i).dictCell = none := by simp [Old.inst, Inst.shift, hd]
          rw [hd']
          simp only [Option.map_some, Old.liftRun, Old.lift, Except.map, Old.h_set, id]
          congr 5
          simp only [Obj.shift, Inst.shift, dset_shift]
          rfl
        | some d =>
          have hd' : (o.inst i).dictCell = some (o.addr d) := by simp [Old.inst, Inst.shift, hd, Old.addr]
          rw [hd']
          simp only [Old.h_get]
          cases s.heap[d]? with
          | none => rfl
          | some c =>
            cases c with
            | dict kvs =>
              simp only [Option.map_some, Old.obj, Obj.shift, Old.liftRun, Old.lift, Except.map, Old.h_set, id, vset_shift]
              rfl
            | _ => rfl
      · rfl
    | _ => rfl

theorem ite_run {α β : Type} {c c' : Bool} (h : c' = c) {F : α → β} {x y : Option α} {x' y' : Option β} (hx : x' = x.map F)
    (hy : y' = y.map F) : (if c' = true then x' else y') = (if c = true then x else y).map F := by
  subst h
  split
  · exact hx
  · exact hy

theorem setItem (a : Addr) (k w : Val) : Com o id (setItem a k w) (setItem (o.addr a) (o.v k) (o.v w)) := by
  intro s
  have hset : ∀ i : Inst,
      (some (.ok (), { o.lift s with heap := (o.h s.heap).set (o.addr a) (.inst { o.inst i with items := vset (o.v k) (o.v w) (o.inst i).items }) }) : Option (Except Exc Unit × UState)) =
      Option.map (o.liftRun id) (some (.ok (), { s with heap := s.heap.set a (.inst { i with items := vset k w i.items }) })) := by
    intro i
    simp only [Option.map_some, Old.liftRun, Old.lift, Except.map, Old.h_set, id]
    congr 5
    simp only [Obj.shift, Inst.shift, vset_shift]
  unfold Unpickler.setItem
  rw [Old.lift_heap, Old.h_get]
  cases s.heap[a]? with
  | none => rfl
  | some c =>
    cases c with
    | inst i =>
      simp only [Option.map_some, Old.obj, Obj.shift]
      have hh := o.hashable_lift s.heap k
      cases k with
      | str t =>
        simp only [Old.v, Val.shift]
        split
        · cases w with
          | ref d =>
            simp only [Val.shift]
            rw [show d + o.m = o.addr d from rfl, Old.h_get]
            cases s.heap[d]? with
            | none => rfl
            | some c =>
              cases c with
              | dict kvs =>
                simp only [Option.map_some, Old.obj, Obj.shift]
                rw [show (i.shift o.m o.ids).info = i.info from rfl]
                split
                · simp only [Option.map_some, Old.liftRun, Old.lift, Except.map, Old.h_set, id]
                  congr 5
                · rfl
              | _ => rfl
          | _ => rfl
        · exact hset i
      | _ =>
        simp only [Val.shift, Old.v] at hh ⊢
        exact ite_run hh (hset i) rfl
    | _ => rfl

theorem setAttrMangled (a : Addr) (k w : Val) : Com o id (setAttrMangled a k w) (setAttrMangled (o.addr a) (o.v k) (o.v w)) := by
  intro s
  unfold Unpickler.setAttrMangled
  cases k with
  | str t =>
    simp only [Old.v, Val.shift]
    split
    · rw [Old.lift_heap, Old.h_get]
      cases s.heap[a]? with
      | none => rfl
      | some c =>
        cases c with
        | inst i => exact setattr a (mangle i t) w s
        | _ => rfl
    · exact setattr a t w s
  | _ => rfl

theorem storeRaw (a : Addr) (k w : Val) : Com o id (storeRaw a k w) (storeRaw (o.addr a) (o.v k) (o.v w)) := by
  intro s
  unfold Unpickler.storeRaw
  rw [Old.lift_heap, Old.isDictSub_lift]
  split
  · exact setItem a k w s
  · exact setAttrMangled a k w s

theorem noteEntry (a : Addr) (k w : Val) : Com o id (noteEntry a k w) (noteEntry (o.addr a) (o.v k) (o.v w)) := by
  intro s
  unfold Unpickler.noteEntry
  rw [Old.lift_heap, Old.isDictSub_lift, show isDictKey (o.v k) = isDictKey k by cases k <;> rfl]
  split
  · rfl
  · exact noteProxy (o := o) (a := a) (sl := .attr k) (sl' := .attr (o.v k)) rfl w s

theorem dictSet {a : Addr} {k k' : Val} (hk : k' = o.v k) (w : Val) : Com o id (dictSet a k w) (dictSet (o.addr a) k' (o.v w)) := by
  intro s
  subst hk
  unfold Unpickler.dictSet
  rw [Old.lift_heap, Old.hashable_lift]
  split
  · rw [Old.h_get]
    cases s.heap[a]? with
    | none => rfl
    | some c =>
      cases c with
      | dict kvs =>
        simp only [Option.map_some, Old.obj, Obj.shift, Old.liftRun, Old.lift, Except.map, Old.h_set, id, vset_shift]
      | _ => rfl
  · rfl

theorem fixFactory (w : Val) : Com o id (fixFactory w) (fixFactory (o.v w)) := by
  intro s
  simp only [Unpickler.fixFactory, modify_run, Option.map_some, Old.liftRun, Except.map, id]
  congr 2
  cases w with
  | ref a =>
    simp only [Old.v, Val.shift]
    rw [Old.lift_heap, show a + o.m = o.addr a from rfl, Old.h_get]
    cases s.heap[a]? with
    | none => rfl
    | some c =>
      cases c with
      | inst i =>
        simp only [Option.map_some, Old.obj, Obj.shift]
        cases hf : i.factory with
        | some f =>
          have hf' : (i.shift o.m o.ids).factory = some (o.v f) := by simp [Inst.shift, hf]
          simp only [hf', Old.proxyAddr_lift]
          cases proxyAddr s.heap f with
          | none => rfl
          | some p =>
            simp only [Option.map_some, Option.isSome_some, if_true, Old.proxyGet_lift]
            simp only [Old.lift, Old.h_set]
            congr 3
        | none =>
          have hf' : (i.shift o.m o.ids).factory = none := by simp [Inst.shift, hf]
          simp only [hf']
          rw [show (i.shift o.m o.ids).attrs = i.attrs.map (shiftField o.m o.ids) from rfl, dget_shift]
          cases hg : dget p!"default_factory" i.attrs with
          | none => rfl
          | some f =>
            simp only [Option.map_some]
            rw [show f.shift o.m o.ids = o.v f from rfl, Old.proxyAddr_lift]
            cases proxyAddr s.heap f with
            | none => rfl
            | some p =>
              simp only [Option.map_some, Option.isSome_none, Bool.false_eq_true, if_false, Old.proxyGet_lift]
              simp only [Old.lift, Old.h_set]
              congr 3
              simp only [Old.obj, Obj.shift, Inst.shift, dset_shift, hf]
              rfl
      | _ => rfl
  | _ => rfl

theorem swapOne (e : Addr × Slot × Addr) : Com o id (swapOne e) (swapOne (o.pending e)) := by
  intro s
  obtain ⟨a, sl, p⟩ := e
  unfold Unpickler.swapOne
  simp only [Old.pending, Old.proxyGet_lift]
  rw [Old.lift_heap, Old.h_get]
  cases sl with
  | idx n =>
    cases s.heap[a]? with
    | none => rfl
    | some c =>
      cases c with
      | list xs =>
        simp only [Slot.shift, Option.map_some, Old.obj, Obj.shift, Old.liftRun, Old.lift, Except.map, Old.h_set, id, shifts_set]
      | _ => rfl
  | key k =>
    cases s.heap[a]? with
    | none => rfl
    | some c =>
      cases c with
      | dict xs =>
        simp only [Slot.shift, Option.map_some, Old.obj, Obj.shift, Old.liftRun, Old.lift, Except.map, Old.h_set, id, vset_shift]
      | _ => rfl
  | attr k =>
    cases k with
    | str k => exact setattr a k (proxyGet s p) s
    | _ => rfl

theorem swapProxies : Com o id swapProxies swapProxies := by
  unfold Unpickler.swapProxies
  refine bind get (fun s => ?_)
  refine bind (f := List.map id) (mapM swapOne s.proxies) (fun _ => ?_)
  intro s
  rfl

theorem reset : Com o id reset reset := fun _ => rfl

end Com
end JP.Unpickler
