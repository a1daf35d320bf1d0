import Verif.Rename
/-!
# The decoder does not care where in memory it works

`lift` puts a state on top of an old heap `P`, an old label counter and an old log, renaming accordingly;
`Com f x y` says that `y` run on the lifted state does what `x` does on the original one, with result
renamed by `f`.  All of `restore` commutes with lifting.
-/
namespace JP.Unpickler
open JP PyM

/-- what was there before -/
structure Old where
  heap : Heap
  ids : Nat
  log : List Event

namespace Old
variable (o : Old)

abbrev m : Nat := o.heap.length
abbrev v (x : Val) : Val := x.shift o.m o.ids
abbrev vs (x : List Val) : List Val := Val.shifts o.m o.ids x
abbrev kv (x : List (Val × Val)) : List (Val × Val) := x.map (shiftPair o.m o.ids)
abbrev fs (x : List (Str × Val)) : List (Str × Val) := x.map (shiftField o.m o.ids)
abbrev obj (x : Obj) : Obj := x.shift o.m o.ids
abbrev inst (x : Inst) : Inst := x.shift o.m o.ids
def addr (a : Addr) : Addr := a + o.m
def pending (e : Addr × Slot × Addr) : Addr × Slot × Addr := (o.addr e.1, e.2.1.shift o.m o.ids, o.addr e.2.2)
def h (x : Heap) : Heap := o.heap ++ x.map o.obj

/-- the state `s`, on top of what was there before -/
def lift (s : UState) : UState where
  heap := o.h s.heap
  objs := o.vs s.objs
  idx := s.idx.map (fun p => (p.1.shift o.m o.ids, p.2))
  proxies := s.proxies.map o.pending
  nextId := s.nextId + o.ids
  log := o.log ++ s.log

def liftRun {α β : Type} (f : α → β) (p : Except Exc α × UState) : Except Exc β × UState := (p.1.map f, o.lift p.2)

end Old

theorem shifts_eq_map (m k : Nat) : ∀ xs, Val.shifts m k xs = xs.map (Val.shift m k)
  | [] => rfl
  | x :: xs => by simp [Val.shifts, shifts_eq_map m k xs]

theorem shiftId_inj {k a b : Nat} : shiftId k a = shiftId k b ↔ a = b := by
  unfold shiftId; split <;> split <;> omega

theorem ident_shift_inj {m k : Nat} {a b : Ident} : a.shift m k = b.shift m k ↔ a = b := by
  constructor
  · intro h
    cases a <;> cases b <;> simp [Ident.shift, shiftId_inj] at h ⊢ <;> omega
  · intro h; rw [h]

theorem ident_shift (m k : Nat) (v : Val) : (v.shift m k).ident = v.ident.shift m k := by
  cases v <;> simp [Val.shift, Val.ident, Ident.shift]

theorem shift_global {m k : Nat} {v : Val} (h : v.Global) : v.shift m k = v := by
  cases v <;> simp [Val.Global, Val.shift] at h ⊢

section eqs
variable {m k : Nat}

theorem bool_eq_iff {a b : Bool} : (a = true ↔ b = true) → a = b := by cases a <;> cases b <;> simp

mutual
theorem pyEq_shift : ∀ a b : Val, pyEq (a.shift m k) (b.shift m k) = pyEq a b
  | .tuple i xs, .tuple j ys => by simp only [Val.shift, pyEq]; exact pyEqs_shift xs ys
  | .lambda i, .lambda j => by
    simp only [Val.shift, pyEq]
    refine bool_eq_iff ?_
    simp [shiftId_inj]
  | .ref a, .ref b => by
    simp only [Val.shift, pyEq]
    refine bool_eq_iff ?_
    simp
  | .none, b | .bool _, b | .int _, b | .float _, b | .str _, b | .bytes _ _, b | .bytearray _ _, b
  | .set _ _, b | .type _, b | .func _, b | .module _, b => by cases b <;> simp [Val.shift, pyEq]
  | .tuple _ _, .none | .tuple _ _, .bool _ | .tuple _ _, .int _ | .tuple _ _, .float _ | .tuple _ _, .str _
  | .tuple _ _, .bytes _ _ | .tuple _ _, .bytearray _ _ | .tuple _ _, .set _ _ | .tuple _ _, .type _ | .tuple _ _, .func _
  | .tuple _ _, .module _ | .tuple _ _, .lambda _ | .tuple _ _, .ref _ => by simp [Val.shift, pyEq]
  | .lambda _, .none | .lambda _, .bool _ | .lambda _, .int _ | .lambda _, .float _ | .lambda _, .str _
  | .lambda _, .bytes _ _ | .lambda _, .bytearray _ _ | .lambda _, .set _ _ | .lambda _, .type _ | .lambda _, .func _
  | .lambda _, .module _ | .lambda _, .tuple _ _ | .lambda _, .ref _ => by simp [Val.shift, pyEq]
  | .ref _, .none | .ref _, .bool _ | .ref _, .int _ | .ref _, .float _ | .ref _, .str _
  | .ref _, .bytes _ _ | .ref _, .bytearray _ _ | .ref _, .set _ _ | .ref _, .type _ | .ref _, .func _
  | .ref _, .module _ | .ref _, .tuple _ _ | .ref _, .lambda _ => by simp [Val.shift, pyEq]
theorem pyEqs_shift : ∀ a b : List Val, pyEqs (Val.shifts m k a) (Val.shifts m k b) = pyEqs a b
  | [], [] => rfl
  | [], _ :: _ => rfl
  | _ :: _, [] => rfl
  | x :: xs, y :: ys => by simp only [Val.shifts, pyEqs]; rw [pyEq_shift x y, pyEqs_shift xs ys]
end

theorem vset_shift (a b : Val) : ∀ l, (vset a b l).map (shiftPair m k) = vset (a.shift m k) (b.shift m k) (l.map (shiftPair m k))
  | [] => rfl
  | (c, d) :: l => by
    simp only [vset, List.map_cons, shiftPair, pyEq_shift]
    split
    · simp [shiftPair]
    · rw [List.map_cons, vset_shift a b l]; rfl

theorem dset_shift (a : Str) (b : Val) : ∀ l, (dset a b l).map (shiftField m k) = dset a (b.shift m k) (l.map (shiftField m k))
  | [] => rfl
  | (c, d) :: l => by
    simp only [dset, List.map_cons, shiftField]
    split
    · simp [shiftField]
    · rw [List.map_cons, dset_shift a b l]; rfl

theorem dget_shift (a : Str) : ∀ l : List (Str × Val), dget a (l.map (shiftField m k)) = (dget a l).map (Val.shift m k)
  | [] => rfl
  | (c, d) :: l => by
    simp only [dget, List.map_cons, shiftField]
    split
    · rfl
    · exact dget_shift a l

theorem shifts_append : ∀ a b : List Val, Val.shifts m k (a ++ b) = Val.shifts m k a ++ Val.shifts m k b := by
  intro a b; simp [shifts_eq_map]

theorem shifts_length (a : List Val) : (Val.shifts m k a).length = a.length := by simp [shifts_eq_map]

theorem shifts_set (a : List Val) (n : Nat) (v : Val) : Val.shifts m k (a.set n v) = (Val.shifts m k a).set n (v.shift m k) := by
  simp only [shifts_eq_map]; rw [List.map_set]

theorem sadd_shift (x : Val) (s : List Val) : Val.shifts m k (sadd x s) = sadd (x.shift m k) (Val.shifts m k s) := by
  have : (Val.shifts m k s).any (fun y => pyEq y (x.shift m k)) = s.any (fun y => pyEq y x) := by
    rw [shifts_eq_map, List.any_map]
    congr 1
    funext y
    exact pyEq_shift y x
  unfold sadd
  rw [this]
  split
  · rfl
  · rw [shifts_append]; rfl

end eqs

namespace Old
variable (o : Old)

theorem h_get (x : Heap) (a : Addr) : (o.h x)[o.addr a]? = (x[a]?).map o.obj := by
  unfold h addr
  rw [List.getElem?_append_right (by simp)]
  simp

theorem h_length (x : Heap) : (o.h x).length = o.addr x.length := by
  unfold h addr
  simp [Nat.add_comm]

theorem h_append (x : Heap) (c : Obj) : o.h (x ++ [c]) = o.h x ++ [o.obj c] := by
  unfold h; simp

theorem h_set (x : Heap) (a : Addr) (c : Obj) : o.h (x.set a c) = (o.h x).set (o.addr a) (o.obj c) := by
  unfold h addr
  rw [List.set_append_right _ _ (by simp)]
  simp [List.map_set]

theorem lift_heap (s : UState) : (o.lift s).heap = o.h s.heap := rfl

theorem idxGet_lift (i : Ident) : ∀ l, idxGet (i.shift o.m o.ids) (l.map (fun p => (p.1.shift o.m o.ids, p.2))) = idxGet i l
  | [] => rfl
  | (c, n) :: l => by
    have ih := idxGet_lift i l
    unfold idxGet at ih ⊢
    rw [List.map_cons, List.find?_cons, List.find?_cons]
    have : (c.shift o.m o.ids == i.shift o.m o.ids) = (c == i) := by
      refine bool_eq_iff ?_
      simp [ident_shift_inj]
    simp only [this]
    cases c == i
    · exact ih
    · rfl

theorem idxFilter_lift (i j : Ident) (l : List (Ident × Nat)) :
    (l.map (fun p => (p.1.shift o.m o.ids, p.2))).filter (fun q => q.1 != i.shift o.m o.ids && q.1 != j.shift o.m o.ids) =
      (l.filter (fun q => q.1 != i && q.1 != j)).map (fun p => (p.1.shift o.m o.ids, p.2)) := by
  rw [List.filter_map]
  congr 1
  refine congrArg (fun p => l.filter p) ?_
  funext p
  refine bool_eq_iff ?_
  simp [ident_shift_inj]

theorem proxyAddr_lift (x : Heap) (w : Val) : proxyAddr (o.h x) (o.v w) = (proxyAddr x w).map o.addr := by
  cases w <;> simp [proxyAddr, Old.v, Val.shift]
  next a =>
    rw [show a + o.m = o.addr a from rfl, h_get]
    cases x[a]? with
    | none => rfl
    | some c => cases c <;> rfl

theorem pyIndex_lift (l : List Val) (i : Int) : pyIndex (o.vs l) i = (pyIndex l i).map o.v := by
  unfold pyIndex Old.vs
  rw [shifts_length, shifts_eq_map]
  split
  · simp
  · split
    · simp
    · rfl

theorem proxyGet_lift (s : UState) (p : Addr) : proxyGet (o.lift s) (o.addr p) = o.v (proxyGet s p) := by
  unfold proxyGet
  rw [lift_heap, h_get]
  cases s.heap[p]? with
  | none => rfl
  | some c =>
    cases c with
    | proxy t => cases t <;> rfl
    | idproxy i =>
      simp only [Option.map_some, Old.obj, Obj.shift]
      show (pyIndex (o.vs s.objs) i).getD .none = _
      rw [pyIndex_lift]
      cases pyIndex s.objs i <;> rfl
    | _ => rfl

theorem truthy_lift (x : Heap) (w : Val) : truthy (o.h x) (o.v w) = truthy x w := by
  cases w <;> simp [truthy, Old.v, Val.shift, shifts_eq_map]
  next a =>
    rw [show a + o.m = o.addr a from rfl, h_get]
    cases x[a]? with
    | none => rfl
    | some c =>
      cases c <;> simp [Old.obj, Obj.shift, Inst.shift, shifts_eq_map]

mutual
theorem hashable_lift (x : Heap) : ∀ w : Val, hashable (o.h x) (o.v w) = hashable x w
  | .tuple i xs => by
    simp only [Old.v, Val.shift, hashable]
    exact hashables_lift x xs
  | .ref a => by
    simp only [Old.v, Val.shift, hashable]
    rw [show a + o.m = o.addr a from rfl, h_get]
    cases x[a]? with
    | none => rfl
    | some c => cases c <;> rfl
  | .none | .bool _ | .int _ | .float _ | .str _ | .bytes _ _ | .bytearray _ _ | .set _ _ | .type _ | .func _ | .lambda _
  | .module _ => by simp [Old.v, Val.shift, hashable]
theorem hashables_lift (x : Heap) : ∀ ws : List Val, hashables (o.h x) (o.vs ws) = hashables x ws
  | [] => rfl
  | w :: ws => by
    simp only [Old.vs, Val.shifts, hashables]
    rw [show w.shift o.m o.ids = o.v w from rfl, hashable_lift x w]
    congr 1
    exact hashables_lift x ws
end

theorem starArgs_lift (x : Heap) (w : Val) : starArgs (o.h x) (o.v w) = (starArgs x w).map o.vs := by
  cases w with
  | ref a =>
    simp only [starArgs, Old.v, Val.shift]
    rw [show a + o.m = o.addr a from rfl, h_get]
    cases x[a]? with
    | none => rfl
    | some c =>
      cases c with
      | inst i =>
        simp only [Option.map_some, Old.obj, Obj.shift]
        rw [show (i.shift o.m o.ids).info = i.info from rfl]
        cases i.info.base <;> simp [Inst.shift, shifts_eq_map, shiftPair, Old.vs]
      | _ => simp [Old.obj, Obj.shift, shifts_eq_map, shiftPair, Old.vs]
  | str s => simp [starArgs, Old.v, Val.shift, shifts_eq_map, Old.vs]
  | bytes i b => simp [starArgs, Old.v, Val.shift, shifts_eq_map, Old.vs]
  | bytearray i b => simp [starArgs, Old.v, Val.shift, shifts_eq_map, Old.vs]
  | _ => rfl

theorem dictEntries_lift (x : Heap) (w : Val) : dictEntries (o.h x) (o.v w) = (dictEntries x w).map o.kv := by
  cases w with
  | ref a =>
    simp only [dictEntries, Old.v, Val.shift]
    rw [show a + o.m = o.addr a from rfl, h_get]
    cases x[a]? with
    | none => rfl
    | some c =>
      cases c with
      | inst i =>
        simp only [Option.map_some, Old.obj, Obj.shift]
        rw [show (i.shift o.m o.ids).info = i.info from rfl]
        split <;> rfl
      | _ => rfl
  | _ => rfl

abbrev ops (x : List Op) : List Op := x.map (Op.shift o.m o.ids)

theorem isStrKey_lift (kvs : List (Val × Val)) : (o.kv kvs).all isStrKey = kvs.all isStrKey := by
  rw [List.all_map]
  congr 1
  funext kv
  obtain ⟨k, v⟩ := kv
  cases k <;> rfl

theorem kwOk_lift (x : Heap) (w : Val) : kwOk (o.h x) (o.v w) = kwOk x w := by
  have key : (match dictEntries (o.h x) (o.v w) with | some kvs => kvs.all isStrKey | none => false) =
      (match dictEntries x w with | some kvs => kvs.all isStrKey | none => false) := by
    rw [dictEntries_lift]
    cases dictEntries x w with
    | none => rfl
    | some kvs => exact isStrKey_lift o kvs
  cases w with
  | tuple i xs => cases xs <;> rfl
  | _ => exact key

theorem setattrs_lift (info : ClassInfo) : ∀ kvs : List (Val × Val),
    setattrs info (o.kv kvs) = (o.ops (setattrs info kvs).1, (setattrs info kvs).2)
  | [] => rfl
  | (k, v) :: r => by
    have ih := setattrs_lift info r
    cases k with
    | str t =>
      simp only [Old.kv, List.map_cons, shiftPair, Val.shift, setattrs]
      simp only [Old.kv] at ih
      split
      · rw [ih]; rfl
      · rfl
    | _ => rfl

theorem pairState_lift (x : Heap) (info : ClassInfo) (st : Val) :
    pairState (o.h x) info (o.v st) = (pairState x info st).map o.ops := by
  unfold pairState
  rw [starArgs_lift]
  cases starArgs x st with
  | none => rfl
  | some l =>
    match l with
    | [d, sl] =>
      simp only [Option.map_some, Old.vs, Val.shifts, truthy_lift, dictEntries_lift]
      split
      · rfl
      · split
        · cases dictEntries x sl with
          | none => rfl
          | some kvs =>
            simp only [Option.map_some, setattrs_lift]
            cases h : setattrs info kvs with
            | mk ops e => cases e <;> rfl
        · rfl
    | [] => rfl
    | [_] => rfl
    | _ :: _ :: _ :: _ => rfl

theorem stateOps_lift (x : Heap) (info : ClassInfo) (st setter : Val) :
    stateOps (o.h x) info (o.v st) (o.v setter) = (stateOps x info st setter).map o.ops := by
  unfold stateOps
  rw [truthy_lift]
  split
  · cases setter with
    | none =>
      simp only [Old.v, Val.shift]
      rw [show Val.shift o.m o.ids st = o.v st from rfl, dictEntries_lift, pairState_lift]
      split
      · rfl
      · split
        · cases dictEntries x st <;> rfl
        · cases dictEntries x st with
          | none => rfl
          | some kvs =>
            simp only [Option.map_some, setattrs_lift]
            cases h : setattrs info kvs with
            | mk ops e =>
              cases e with
              | none => rfl
              | some e =>
                simp only []
                cases pairState x info st with
                | error _ => rfl
                | ok l => simp [Except.map, Old.ops]
    | _ => rfl
  · rfl

theorem listOps_lift (x : Heap) (info : ClassInfo) (v : Val) : listOps (o.h x) info (o.v v) = (listOps x info v).map o.ops := by
  unfold listOps
  rw [truthy_lift, starArgs_lift]
  split
  · cases starArgs x v with
    | none => rfl
    | some l =>
      have hl : (o.vs l).isEmpty = l.isEmpty := by cases l <;> rfl
      simp only [Option.map_some, hl]
      split
      · rfl
      · split
        · simp only [Except.map, Old.ops, Old.vs, shifts_eq_map, List.map_map]
          congr 1
        · rfl
  · rfl

theorem setitems_lift (x : Heap) (info : ClassInfo) : ∀ l, setitems (o.h x) info (o.vs l) = (setitems x info l).map o.ops
  | [] => rfl
  | v :: r => by
    have ih := setitems_lift x info r
    simp only [Old.vs, Val.shifts, setitems] at ih ⊢
    rw [show Val.shift o.m o.ids v = o.v v from rfl, starArgs_lift]
    cases starArgs x v with
    | none => rfl
    | some l =>
      match l with
      | [a, b] =>
        simp only [Option.map_some, Old.vs, Val.shifts, ih]
        split
        · cases setitems x info r <;> rfl
        · rfl
      | [] => rfl
      | [_] => rfl
      | _ :: _ :: _ :: _ => rfl

theorem dictOps_lift (x : Heap) (info : ClassInfo) (v : Val) : dictOps (o.h x) info (o.v v) = (dictOps x info v).map o.ops := by
  unfold dictOps
  rw [truthy_lift, starArgs_lift]
  split
  · cases starArgs x v with
    | none => rfl
    | some l => exact o.setitems_lift x info l
  · rfl

theorem newobjArgs_lift (x : Heap) (v : Val) :
    newobjArgs (o.h x) (o.v v) = (newobjArgs x v).map (fun p => (o.v p.1, o.vs p.2)) := by
  have hs : headArgs (starArgs (o.h x) (o.v v)) = (headArgs (starArgs x v)).map (fun p => (o.v p.1, o.vs p.2)) := by
    rw [starArgs_lift]
    cases starArgs x v with
    | none => rfl
    | some l => cases l <;> rfl
  cases v with
  | ref a =>
    simp only [Old.v, Val.shift] at hs ⊢
    simp only [newobjArgs, hs]
    rw [show a + o.m = o.addr a from rfl, h_get]
    cases x[a]? with
    | none => rfl
    | some c =>
      cases c with
      | inst i =>
        simp only [Option.map_some, Old.obj, Obj.shift]
        rw [show (i.shift o.m o.ids).info = i.info from rfl]
        cases i.info.base <;> rfl
      | _ => rfl
  | set _ _ => rfl
  | _ => exact hs

theorem infoOf_lift (x : Heap) (a : Addr) : infoOf (o.h x) (o.addr a) = infoOf x a := by
  unfold infoOf
  rw [h_get]
  cases x[a]? with
  | none => rfl
  | some c => cases c <;> rfl

theorem isDictSub_lift (x : Heap) (a : Addr) : isDictSub (o.h x) (o.addr a) = isDictSub x a := by
  unfold isDictSub
  rw [h_get]
  cases x[a]? with
  | none => rfl
  | some c => cases c <;> rfl

theorem tupleElems_lift (x : Heap) (info : ClassInfo) (args : List Val) :
    tupleElems (o.h x) info (o.vs args) = o.vs (tupleElems x info args) := by
  unfold tupleElems
  cases info.numFields with
  | some _ => rfl
  | none =>
    cases args with
    | nil => rfl
    | cons a as =>
      simp only [Old.vs, Val.shifts]
      rw [show a.shift o.m o.ids = o.v a from rfl, starArgs_lift]
      cases starArgs x a <;> rfl

theorem construct_lift (x : Heap) (n : Str) (info : ClassInfo) (fac args kw : Val) :
    construct (o.h x) n info (o.v fac) (o.v args) (o.v kw) = (construct x n info fac args kw).map o.inst := by
  unfold construct
  simp only [starArgs_lift, truthy_lift, kwOk_lift]
  cases starArgs x args with
  | none => simp only [Option.map_none]; split <;> rfl
  | some xs =>
    simp only [Option.map_some, shifts_length, Old.vs]
    rw [show Val.shifts o.m o.ids xs = o.vs xs from rfl, tupleElems_lift]
    have he : (if (info.base == Base.tuple) = true then o.vs (tupleElems x info xs) else []) =
        o.vs (if (info.base == Base.tuple) = true then tupleElems x info xs else []) := by split <;> rfl
    rw [he]
    repeat' split
    all_goals rfl

end Old
end JP.Unpickler
