import Verif.Sample
import Verif.Proofs.PLimit
import Verif.Proofs.Run
import Verif.SampleCovered
import Verif.Proofs.RoundTrip
/-!
# C54 — a large `max_depth` has no effect
-/
namespace JP.C54
open JP PyM Pickler

/-- For every object graph there is a bound such that `encode` with any `max_depth` from this bound on does exactly what it does without `max_depth`: the same text
or the same exception, and the same Pickler afterwards. -/
theorem large_limit (w : World) (cfg : PCfg) (n : Nat) (v : Val) (reset : Bool) (s : PState) :
    ∃ D : Int, ∀ d, D ≤ d → Api.encode w { cfg with maxDepth := some d } n v reset s = Api.encode w { cfg with maxDepth := none } n v reset s :=
  ev_encode (cfg := { cfg with maxDepth := none }) rfl n v reset s

/-- In particular for every call that returns: with a large limit it returns the same text. -/
theorem large_limit_returns (w : World) (cfg : PCfg) (v : Val) (text : Str) (h : Encodes w { cfg with maxDepth := none } v text) :
    ∃ D : Int, ∀ d, D ≤ d → Encodes w { cfg with maxDepth := some d } v text := by
  obtain ⟨n, s, h⟩ := h
  obtain ⟨D, hD⟩ := large_limit w cfg n v true {}
  refine ⟨D, fun d hd => encodes_of_run (n := n) ?_⟩
  rw [hD d hd, h n {} (Nat.le_refl _)]
  rfl

/-- So supported graphs also come back when a limit is set that is large enough. -/
theorem round_trip_partial (w : World) (cfg : PCfg) (env : UEnv) (v : Val) (hc : Covered w { cfg with maxDepth := none } env v) :
    ∃ D : Int, ∀ d, D ≤ d → ∃ text, Encodes w { cfg with maxDepth := some d } v text ∧ ∀ u, ∃ x u', Decodes env text u x u' ∧
      SameGraph (writeOrder cfg.keys) (hasHandler w) w.heap v u'.heap x := by
  obtain ⟨text, _, _, he, _⟩ := hc.total {}
  obtain ⟨D, hD⟩ := large_limit_returns w cfg v text he
  refine ⟨D, fun d hd => ⟨text, hD d hd, fun u => ?_⟩⟩
  obtain ⟨text', x, u', he', hx⟩ := hc.total u
  cases he.unique he'
  exact ⟨x, u', hx, hc.graph he hx⟩

example : ∃ D : Int, ∀ d, D ≤ d → ∃ text, Encodes (Sample.program.world Sample.graph) { maxDepth := some d } (.ref 0) text ∧ ∀ u, ∃ x u',
    Decodes Sample.program.env text u x u' ∧ SameGraph id (hasHandler (Sample.program.world Sample.graph)) Sample.graph (.ref 0) u'.heap x :=
  round_trip_partial (Sample.program.world Sample.graph) {} _ _ (Sample.covered false)

/-! ### examples -/

/-- `[[[1]], 2]` -/
def nested : World := Sample.world [.list [.ref 1, .int 2], .list [.ref 2], .list [.int 1]]

/-- here the bound is 3 -/
example : Sample.res (Api.encode nested { maxDepth := some 3 } 9 (.ref 0) true {}) = Sample.res (Api.encode nested {} 9 (.ref 0) true {}) := by decide +kernel
example : Sample.res (Api.encode nested { maxDepth := some 2 } 9 (.ref 0) true {}) ≠ Sample.res (Api.encode nested {} 9 (.ref 0) true {}) := by decide +kernel

/-- an object with slots: `x = [broken]` (its `__getstate__` raises `AttributeError`), `y = [1]` -/
def leaky : World := Sample.world
  [.inst { cls := p!"m.S", info := { hasDict := false, hasSlots := true, slots := [p!"x", p!"y"] }, attrs := [(p!"x", .ref 1), (p!"y", .ref 2)] },
   .list [.ref 3], .list [.int 1], .inst { cls := p!"m.B", info := { ownGetstate := true }, state := .error .attributeError }]

/-- The bound is not the depth of the graph: here no container lies deeper than 2, but with `max_depth=3` the list `y` at depth 1 is cut off, because the depth
counter is not set back when the error is swallowed. -/
theorem bound_above_depth :
    Sample.res (flattenTop leaky { maxDepth := some 3 } 9 (.ref 0) true {}) = some (.ok (.obj [(p!"py/object", .str p!"m.S"), (p!"y", .str p!"R")])) ∧
    Sample.res (flattenTop leaky {} 9 (.ref 0) true {}) = some (.ok (.obj [(p!"py/object", .str p!"m.S"), (p!"y", .arr [.int 1])])) := by decide +kernel

end JP.C54
