import Verif.Proofs.TermDepth
import Verif.Sample
/-!
# C04 — encode terminates

In the default mode (references on) encode finishes on every finite graph, cyclic or not.  In the other
modes the property is false: with `unpicklable=False` and `make_refs=True` lists and dicts are not checked
for cycles at all, and enum members are exempt from the check everywhere.  These are shown by witnesses
(the run needs more than any number of nested calls; Python raises `RecursionError`).  The partial theorem
says that nothing else can go wrong: encode finishes unless a cycle consists of such objects alone.
Python's recursion limit is not modelled.
-/
namespace JP.C04
open JP PyM Pickler

/-- the encoder finishes, with one and the same result for any larger number of nested calls allowed -/
def Finishes (w : World) (cfg : PCfg) (v : Val) : Prop :=
  ∃ (n : Nat) (r : Except Exc Json) (s' : PState), ∀ m s, n ≤ m → flattenTop w cfg m v true s = some (r, s')

/-- the encoder does not finish, however many nested calls are allowed -/
def Diverges (w : World) (cfg : PCfg) (v : Val) : Prop := ∀ m s, flattenTop w cfg m v true s = none

theorem finishes_of {w : World} {cfg : PCfg} {v : Val} {n : Nat} {x} (h : flatten w cfg n v {} = some x) : Finishes w cfg v :=
  ⟨n, x.1, x.2, fun m s hm => by
    simp only [flattenTop, if_true]
    exact flatten_mono hm h⟩

/-- encode finishes unless some cycle consists of unguarded objects alone -/
theorem terminates_partial (w : World) (cfg : PCfg) (v : Val) (h : NoLoop w.heap (unguarded cfg) v) : Finishes w cfg v := by
  obtain ⟨n, hn⟩ := flatten_ends h
  obtain ⟨r, s', h⟩ := hn {} (by decide)
  exact finishes_of h

/-- With references (the default), encode finishes on every finite graph. -/
theorem terminates_with_references (w : World) (cfg : PCfg) (hr : cfg.unpicklable = true ∧ cfg.makeRefs = true) (v : Val) :
    Finishes w cfg v := by
  refine terminates_partial w cfg v (fun a _ h => ?_)
  have hu : ∀ o, unguarded cfg o = false := by intro o; simp [unguarded, hr.1, hr.2]
  cases h with
  | single h => cases h with | ref _ h _ => rw [hu] at h; cases h
  | tail _ h => cases h with | ref _ h _ => rw [hu] at h; cases h

/-- With `make_refs=False`, encode finishes on every finite graph in which no enum member is reached. -/
theorem terminates_without_references_partial (w : World) (cfg : PCfg) (hr : cfg.makeRefs = false) (v : Val)
    (he : ∀ (a : Addr) (i : Inst), Within w.heap v (.ref a) → w.heap[a]? = some (.inst i) → i.info.isEnum = false) :
    Finishes w cfg v := by
  refine terminates_partial w cfg v (fun a ha h => ?_)
  have key : ∀ x, ¬ Sub w.heap (unguarded cfg) x (.ref a) := by
    intro x hx
    cases hx with
    | @ref a o _ h1 h2 h3 =>
      cases o with
      | inst i => simp [unguarded, he a i ha h1] at h2
      | list | dict => simp [unguarded, hr] at h2
      | proxy | idproxy => simp [unguarded] at h2
  cases h with
  | single h => exact key _ h
  | tail _ h => exact key _ h

/-- With a depth limit encode finishes whatever the other options are, and `max_depth + 1` nested calls
suffice.  Missing: graphs with enum members (they are entered at the limit), objects that swallow
exceptions of nested calls, and `fail_safe` (both can leave the counter beyond the limit). -/
theorem terminates_max_depth_partial (w : World) (cfg : PCfg) (M : Nat) (hM : cfg.maxDepth = some (M : Int)) (v : Val)
    (hf : cfg.failSafe = none) (hc : ¬ Catches w (From w v)) (he : ¬ HasEnum w (From w v)) : Finishes w cfg v := by
  obtain ⟨r, s', h, _⟩ := flatten_lim hM hf hc he M v (.inl .self) ⟨-1, []⟩ (by show (M : Int) ≤ -1 + 1 + M; omega)
    (by show (-1 : Int) + 1 ≤ M; omega) {} rfl
  exact finishes_of h

/-! ### Witnesses -/

/-- `l = [l, (l,)]`, with and without references -/
example : Sample.res (flattenTop (Sample.world [.list [.ref 0, .tuple 1 [.ref 0]]]) {} 5 (.ref 0) true {}) =
      some (.ok (.arr [.obj [(Tags.ID, .int 0)], .obj [(Tags.TUPLE, .arr [.obj [(Tags.ID, .int 0)]])]])) ∧
    Sample.res (flattenTop (Sample.world [.list [.ref 0, .tuple 1 [.ref 0]]]) { makeRefs := false } 5 (.ref 0) true {}) =
      some (.ok (.arr [.str p!"R", .obj [(Tags.TUPLE, .arr [.str p!"R"])]])) := by decide +kernel

/-- the hypothesis of `terminates_without_references_partial` holds for this list -/
example : ∀ (a : Addr) (i : Inst), Within (Sample.world [.list [.ref 0, .tuple 1 [.ref 0]]]).heap (.ref 0) (.ref a) →
    (Sample.world [.list [.ref 0, .tuple 1 [.ref 0]]]).heap[a]? = some (.inst i) → i.info.isEnum = false := by
  intro a i _ h
  cases a <;> simp [Sample.world] at h

/-- `o.x = [o]` with `unpicklable=False`: the cycle passes through a guarded object -/
def mixed : Heap := [.inst { cls := p!"m.C", attrs := [(p!"x", .ref 1)] }, .list [.ref 0]]

example : Sample.res (flattenTop (Sample.world mixed) { unpicklable := false } 9 (.ref 0) true {}) =
    some (.ok (.obj [(p!"x", .arr [.null])])) := by decide +kernel

/-- the hypothesis of `terminates_partial` holds for it -/
example : NoLoop (Sample.world mixed).heap (unguarded { unpicklable := false }) (.ref 0) := by
  intro a _ h
  have key : ∀ a x, Sub mixed (unguarded { unpicklable := false }) x (.ref a) → a = 1 ∧ x = .ref 0 := by
    intro a x hx
    cases hx with
    | @ref a o _ h1 h2 h3 =>
      match a with
      | 0 => cases h1; simp [unguarded] at h2
      | 1 =>
        refine ⟨rfl, ?_⟩
        cases h3 with
        | list h4 h5 => cases h4; simpa using h5
        | dictKey h4 _ => cases h4
        | dictVal h4 _ => cases h4
        | inst h4 _ => cases h4
      | n + 2 => simp [mixed] at h1
  cases h with
  | single h => obtain ⟨rfl, h⟩ := key _ _ h; cases h
  | tail h1 h2 =>
    obtain ⟨rfl, rfl⟩ := key _ _ h2
    cases h1 with
    | single h1 => cases (key _ _ h1).1
    | tail _ h1 => cases (key _ _ h1).1

/-- a container whose own encoding is asked for again while it is being encoded, without a check -/
theorem diverges_of {w : World} {cfg : PCfg} {v : Val} (hl : isLeaf v = false)
    (hc : ∀ m s, inCycle v.ident (isEnumV w v) m cfg.makeRefs s = some (.ok (m && !isEnumV w v), s))
    (hm : cfg.maxDepth = none ∨ isEnumV w v = true)
    (hb : ∀ n, (∀ s : PState, s.flattened = [] → flatten w cfg n v s = none) →
      ∀ s : PState, s.flattened = [] → flattenBy w cfg (flatten w cfg n) v s = none) : Diverges w cfg v := by
  have key : ∀ n (s : PState), s.flattened = [] → flatten w cfg n v s = none := by
    intro n
    induction n with
    | zero => intro s _; rfl
    | succ n ih =>
      intro s hs
      rw [flatten_level hl]
      have hx : ∀ s : PState, s.flattened = [] → (do
          push
          let j ← flattenObjWith cfg v v.ident (isEnumV w v) (w.repr v) (flattenBy w cfg (flatten w cfg n) v)
          pop j) s = none := by
        intro s hs
        change (Inv.objInner cfg v.ident (isEnumV w v) (w.repr v) (flattenBy w cfg (flatten w cfg n) v) >>= Pickler.pop)
          { s with depth := s.depth + 1, seen := s.seen ++ [v] } = none
        have : Inv.objInner cfg v.ident (isEnumV w v) (w.repr v) (flattenBy w cfg (flatten w cfg n) v)
            { s with depth := s.depth + 1, seen := s.seen ++ [v] } = none := by
          unfold Inv.objInner
          rw [bind_ok (show maxReached cfg _ = some (.ok (some (s.depth + 1) == cfg.maxDepth), _) from rfl)]
          unfold PyM.tryCatch
          have hf : ((some (s.depth + 1) == cfg.maxDepth) && !isEnumV w v) = false := by
            rcases hm with hm | hm
            · rw [hm]; rfl
            · rw [hm]; simp
          rw [bind_ok (hc _ _), hf]
          simp only [Bool.false_eq_true, if_false, hb n ih { s with depth := s.depth + 1, seen := s.seen ++ [v] } hs]
        rw [bind_run, this]
      unfold level cached
      split
      · exact hx s hs
      · rw [bind_ok (get_run s), hs]
        simp only [List.find?_nil]
        rw [bind_run, hx s hs]
  intro m s
  simp only [flattenTop, if_true]
  exact key m {} rfl

/-- Counterexample: `l = [l]` with `unpicklable=False`. -/
theorem list_diverges : Diverges (Sample.world [.list [.ref 0]]) { unpicklable := false } (.ref 0) := by
  refine diverges_of rfl (fun m s => by simp [inCycle]) (.inl rfl) (fun n ih s hs => ?_)
  have h : ∃ s1 : PState, mkref { unpicklable := false } (.addr 0) s = some (.ok true, s1) ∧ s1.flattened = [] := by
    by_cases hc : s.objs.contains (.addr 0) = true
    · exact ⟨s, (bind_ok (a := false) (s' := s) (by simp only [logRef, hc, if_true])).trans rfl, hs⟩
    · exact ⟨{ s with objs := s.objs ++ [.addr 0] },
        (bind_ok (a := true) (s' := { s with objs := s.objs ++ [Ident.addr 0] }) (by simp only [logRef, if_neg hc])).trans rfl, hs⟩
  obtain ⟨s1, h1, h2⟩ := h
  show (mkref { unpicklable := false } (.addr 0) >>= _) s = none
  rw [bind_ok h1]
  simp only [if_true, mapM_cons]
  rw [bind_run, bind_run, ih s1 h2]

/-- an enum member holding itself -/
def enumLoop : Heap := [.inst { cls := p!"m.E", info := { isEnum := true }, attrs := [(p!"me", .ref 0)] }]

/-- Counterexample: an enum member with an attribute that is the member itself, with `make_refs=False`; a
depth limit does not help. -/
theorem enum_diverges (limit : Option Int) :
    Diverges (Sample.world enumLoop) { makeRefs := false, maxDepth := limit } (.ref 0) := by
  refine diverges_of rfl (fun m s => by simp [inCycle, isEnumV, Sample.world, enumLoop]) (.inr rfl) (fun n ih s hs => ?_)
  have h : ∃ s1 : PState, mkref { makeRefs := false, maxDepth := limit } (.addr 0) s = some (.ok true, s1) ∧ s1.flattened = [] := by
    by_cases hc : s.objs.contains (.addr 0) = true
    · exact ⟨s, (bind_ok (a := false) (s' := s) (by simp only [logRef, hc, if_true])).trans rfl, hs⟩
    · exact ⟨{ s with objs := s.objs ++ [.addr 0] },
        (bind_ok (a := true) (s' := { s with objs := s.objs ++ [Ident.addr 0] }) (by simp only [logRef, if_neg hc])).trans rfl, hs⟩
  obtain ⟨s1, h1, h2⟩ := h
  show (mkref { makeRefs := false, maxDepth := limit } (.addr 0) >>= _) s = none
  rw [bind_ok h1]
  simp only [if_true]
  have e : flattenInst (Sample.world enumLoop) { makeRefs := false, maxDepth := limit }
      (flatten (Sample.world enumLoop) { makeRefs := false, maxDepth := limit } n) 0
      { cls := p!"m.E", info := { isEnum := true }, attrs := [(p!"me", .ref 0)] } =
    (do
      let d ← foldM (fun d (kv : Val × Val) => flattenKeyValuePair (Sample.world enumLoop)
        (flatten (Sample.world enumLoop) { makeRefs := false, maxDepth := limit } n) kv.1 kv.2 d)
        [(Tags.OBJECT, .str p!"m.E")] [(.str p!"me", .ref 0)]
      pure (.obj d)) := rfl
  rw [e, foldM_cons, bind_run, bind_run]
  have e2 : flattenKeyValuePair (Sample.world enumLoop) (flatten (Sample.world enumLoop) { makeRefs := false, maxDepth := limit } n)
      (.str p!"me") (.ref 0) [(Tags.OBJECT, .str p!"m.E")] s1 = none := by
    rw [show flattenKeyValuePair (Sample.world enumLoop) (flatten (Sample.world enumLoop) { makeRefs := false, maxDepth := limit } n)
      (.str p!"me") (.ref 0) [(Tags.OBJECT, .str p!"m.E")] = (do
        let k ← ofExcept (.ok p!"me")
        let j ← flatten (Sample.world enumLoop) { makeRefs := false, maxDepth := limit } n (.ref 0)
        pure (dset k j [(Tags.OBJECT, .str p!"m.E")])) from rfl]
    rw [bind_ok (ofExcept_run _ _), bind_run, ih s1 h2]
  rw [e2]

end JP.C04
