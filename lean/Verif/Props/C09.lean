import Verif.Proofs.PInst
import Verif.Sample
/-!
# C09 — a Pickler can be reused; C10 — an Unpickler can be reused

History independence is complete.  "Nothing is retained after a successful call" is false in two
situations, shown by witnesses: in cache mode the result for the root stays in `_flattened`, and when a
slots object swallows an `AttributeError` of a nested call the depth counter never gets back to -1.
-/
namespace JP.C09
open JP PyM Pickler

/-- The outcome of `flatten(v)` (result or exception, and the state left behind) does not depend on the
state the Pickler is in: not on earlier calls, nor on calls that raised half way. -/
theorem flatten_history (w : World) (cfg : PCfg) (n : Nat) (v : Val) (s s' : PState) :
    flattenTop w cfg n v true s = flattenTop w cfg n v true s' := rfl

/-- e.g. after a failed call: the state is dirty (depth 1, one object registered), and it matters with
`reset=False` but not with `reset=True` -/
example : Sample.st (flattenTop (Sample.world [.list [.ref 9]]) {} 5 (.ref 0) true {}) =
      some { depth := 1, objs := [.addr 0], seen := [.ref 0, .ref 9] } ∧
    Sample.res (flattenTop (Sample.world [.list []]) {} 5 (.ref 0) false { depth := 1, objs := [.addr 0] }) =
      some (.ok (.obj [(Tags.ID, .int 0)])) ∧
    Sample.res (flattenTop (Sample.world [.list []]) {} 5 (.ref 0) true { depth := 1, objs := [.addr 0] }) =
      some (.ok (.arr [])) := by decide +kernel

/-- at nesting depth -1 nothing is registered -/
def cleanInv (w : World) (cfg : PCfg) (scope : Scope w) (hc : ¬ Catches w scope.On) (hf : cfg.failSafe = none) : Inv w cfg :=
  { depthInv w cfg scope hc hf with
    ref := fun _ _ _ => ⟨trivial, trivial⟩
    I := fun d s => s.depth = d.depth ∧ (d.depth = -1 → s.objs = [] ∧ s.seen = [])
    wf := fun d => -1 ≤ d.depth ∧ (d.depth = -1 → d.stack = [])
    wfChild := fun _ h => ⟨by simp only [Idx.child]; omega, fun h' => by simp only [Idx.child] at h'; omega⟩
    log := fun hw h ho _ => ⟨h.1, fun hd => by
      obtain ⟨v, c, hs, _⟩ := ho
      rw [hw.2 hd] at hs
      cases hs⟩
    push := fun hw h => ⟨by simp [Idx.child, h.1], fun h' => by simp only [Idx.child] at h'; omega⟩
    pop := fun {d v s} _ h => by
      obtain ⟨h, _⟩ := h
      simp only [Idx.child] at h
      split
      · next hd =>
        have : s.depth - 1 = (-1 : Int) := by simpa using hd
        exact ⟨by show (-1 : Int) = d.depth; omega, fun _ => ⟨rfl, rfl⟩⟩
      · next hd =>
        have : s.depth - 1 ≠ (-1 : Int) := by simpa using hd
        exact ⟨by show s.depth - 1 = d.depth; omega, fun h' => by omega⟩
    popE := fun _ _ => trivial
    popSeen := fun _ _ => trivial
    store := fun _ _ h _ _ => h
    stored := fun _ _ _ => trivial
    IIe := fun _ => trivial
    catches := fun h => (hc h).elim
    failSafe := fun h => by rw [hf] at h; cases h
    depthEq := fun h => h.elim }

/-- After a successful `flatten(v)` no object is registered for references and none is kept alive.
Missing from the full property: graphs with objects that swallow exceptions of nested calls, `fail_safe`,
and the cached root result (which is empty when references are used, `cache_empty`). -/
theorem nothing_retained_partial (w : World) (cfg : PCfg) (v : Val) (hc : ¬ Catches w (From w v)) (hf : cfg.failSafe = none)
    (n : Nat) (s s1 : PState) (j : Json)
    (h : flattenTop w cfg n v true s = some (.ok j, s1)) :
    s1.objs = [] ∧ s1.seen = [] ∧ s1.depth = -1 := by
  simp only [flattenTop, if_true] at h
  have := ((cleanInv w cfg (.ofRoot w v) hc hf).flatten_ok (d := ⟨-1, []⟩) (s := {}) Scope.ofRoot_root ⟨by decide, fun _ => rfl⟩
    ⟨rfl, fun _ => ⟨rfl, rfl⟩⟩ h).2
  exact ⟨(this.2 rfl).1, (this.2 rfl).2, this.1⟩

/-- With references enabled the flattening cache is never used. -/
def noCacheInv (w : World) (cfg : PCfg) (hr : cfg.unpicklable = true ∧ cfg.makeRefs = true) : Inv w cfg :=
  { trivialInv w cfg (.all w) false with
    ref := fun _ _ _ => ⟨trivial, trivial⟩
    I := fun _ s => s.flattened = []
    Ie := fun _ s => s.flattened = []
    log := fun _ h _ _ => h
    push := fun _ h => h
    pop := fun _ h => by
      split
      · rfl
      · exact h
    popE := fun _ h => h
    popSeen := fun _ _ => trivial
    store := fun h => (h hr).elim
    stored := fun h => (h hr).elim
    IIe := fun h => h
    catches := fun _ _ _ h => h
    failSafe := fun _ _ _ h => h
    depthEq := fun h => h.elim }

theorem cache_empty (w : World) (cfg : PCfg) (hr : cfg.unpicklable = true ∧ cfg.makeRefs = true)
    (n : Nat) (v : Val) (s s1 : PState) (j : Json)
    (h : flattenTop w cfg n v true s = some (.ok j, s1)) : s1.flattened = [] := by
  simp only [flattenTop, if_true] at h
  exact ((noCacheInv w cfg hr).flatten_ok (d := ⟨-1, []⟩) (s := {}) trivial trivial rfl h).2

/-- a cyclic list, with references: hypotheses met, everything is released -/
example : ¬ Catches (Sample.world [.list [.ref 0, .int 1]]) (From (Sample.world [.list [.ref 0, .int 1]]) (.ref 0)) ∧
    flattenTop (Sample.world [.list [.ref 0, .int 1]]) {} 5 (.ref 0) true {} =
      some (.ok (.arr [.obj [(Tags.ID, .int 0)], .int 1]), {}) := by
  refine ⟨?_, rfl⟩
  rintro ⟨a, i, _, h, _⟩
  cases a <;> simp [Sample.world] at h

/-- Counterexample: in cache mode the root's result is still there afterwards, and a later call with
`reset=False` for another object with the same identity returns it. -/
theorem root_stays_cached :
    Sample.st (flattenTop (Sample.world [.list [.int 1]]) { makeRefs := false } 5 (.ref 0) true {}) =
      some { flattened := [(.addr 0, .arr [.int 1])] } ∧
    Sample.res (flattenTop (Sample.world [.list [.int 2]]) { makeRefs := false } 5 (.ref 0) false
      { flattened := [(.addr 0, .arr [.int 1])] }) = some (.ok (.arr [.int 1])) := by decide +kernel

/-- a slots object whose attribute `x` raises `AttributeError` when it is encoded -/
def slotsHeap : Heap :=
  [.inst { cls := p!"m.S", info := { hasDict := false, hasSlots := true, slots := [p!"x"] },
           attrs := [(p!"x", .ref 1)] },
   .inst { cls := p!"m.B", info := { ownGetstate := true }, state := .error .attributeError }]

/-- Counterexample: the swallowed exception leaves the depth counter off by one, so the objects of the
call stay registered after it has returned. -/
theorem swallowed_error_retains :
    Sample.st (flattenTop (Sample.world slotsHeap) {} 5 (.ref 0) true {}) =
      some { depth := 0, objs := [.addr 0, .addr 1], seen := [.ref 0, .ref 1] } ∧
    Sample.res (flattenTop (Sample.world slotsHeap) {} 5 (.ref 0) true {}) =
      some (.ok (.obj [(Tags.OBJECT, .str p!"m.S")])) := by decide +kernel

end JP.C09
