import Verif.Proofs.PExpand
import Verif.SampleTouch
import Verif.ApiSpec
import Verif.Sample
/-!
# C58 — without references every object is written out wherever it occurs
-/
namespace JP.C58
open JP PyM Expand Pickler

/-- With `unpicklable=False` or `make_refs=False`, and without `max_depth`, the text that `encode` returns for an object graph without cycles is
the text of its expansion: neither the table of registered objects nor the cache of documents shows. -/
theorem expands {w : World} {cfg : PCfg} {v : Val} (href : cfg.unpicklable = false ∨ cfg.makeRefs = false) (hmax : cfg.maxDepth = none) (g : Graph w cfg v)
    {n : Nat} (hb : Below w.heap n v) {m : Nat} (hm : n < m) : Encodes w cfg v (w.dumps (doc w cfg m v)) := by
  have href : (cfg.unpicklable && cfg.makeRefs) = false := by rcases href with h | h <;> simp [h]
  have hE : ∀ x, Within w.heap v x ∨ Scalar x → doc w cfg m x = level w cfg (doc w cfg m) x := by
    rintro x (hx | hx)
    · exact doc_stable href g.toShape hx (hb.within hx) hm
    · obtain ⟨m, rfl⟩ : ∃ k, m = k + 1 := ⟨m - 1, by omega⟩
      exact scalar_level hx
  refine ⟨n + 1, if v.ident.isScalar = true then {} else { flattened := [(v.ident, doc w cfg m v)] }, ?_⟩
  intro k s hk
  have h := flatten_root href hmax g.toShape hE hb (m := k) (by omega)
  unfold Api.encode flattenTop
  rw [if_pos rfl]
  rw [bind_ok (a := doc w cfg m v) (s' := if v.ident.isScalar = true then {} else { flattened := [(v.ident, doc w cfg m v)] }) ?_]
  · rfl
  · rw [bind_ok (a := ()) (s' := ({} : PState)) rfl]
    exact h

/-- The number of levels does not matter once it is large enough. -/
theorem levels_irrelevant {w : World} {cfg : PCfg} {v : Val} (href : cfg.unpicklable = false ∨ cfg.makeRefs = false) (g : Graph w cfg v)
    {n : Nat} (hb : Below w.heap n v) {m : Nat} (hm : n < m) : doc w cfg m v = doc w cfg (n + 1) v := by
  have href : (cfg.unpicklable && cfg.makeRefs) = false := by rcases href with h | h <;> simp [h]
  obtain ⟨k, rfl⟩ : ∃ k, m = n + 1 + k := ⟨m - (n + 1), by omega⟩
  induction k with
  | zero => rfl
  | succ k ih => exact (doc_stable href g.toShape .self hb (by omega : n < n + 1 + k)).symm.trans (ih (by omega))

/-! ### a graph with a shared object -/

/-- `p = Point(); p.x = {"a": 1}; [p, p, (p.x, 1)]` -/
def heap : Heap := [.list [.ref 1, .ref 1, .tuple 9 [.ref 2, .int 1]], .inst { cls := p!"m.P", attrs := [(p!"x", .ref 2)] }, .dict [(.str p!"a", .int 1)]]

def reached : List Val := [.ref 0, .ref 1, .tuple 9 [.ref 2, .int 1], .ref 2, .int 1, .str p!"a", .str p!"x", .str p!"m.P", .none, .tuple 0 [], .str []]

theorem heap_graph (cfg : PCfg) : Graph (Sample.world heap) cfg (.ref 0) := by
  refine Sample.graph_of (n := 6) reached (by decide +kernel) (by decide +kernel) ?_ (by decide +kernel) (by decide +kernel) (fun _ => ⟨_, rfl⟩) (fun _ => ⟨_, rfl⟩)
  simp [reached, heap, Sample.world, Sample.calmB]

/-- `[{"py/object": "m.P", "x": {"a": 1}}, {"py/object": "m.P", "x": {"a": 1}}, {"py/tuple": [{"a": 1}, 1]}]` -/
example : Encodes (Sample.world heap) { makeRefs := false } (.ref 0) ((Sample.world heap).dumps (.arr [
    .obj [(p!"py/object", .str p!"m.P"), (p!"x", .obj [(p!"a", .int 1)])],
    .obj [(p!"py/object", .str p!"m.P"), (p!"x", .obj [(p!"a", .int 1)])],
    .obj [(p!"py/tuple", .arr [.obj [(p!"a", .int 1)], .int 1])]])) := by
  have h := expands (w := Sample.world heap) (cfg := { makeRefs := false }) (v := .ref 0) (.inr rfl) rfl (heap_graph _) (n := 6)
    (Sample.belowB_spec (by decide +kernel)) (m := 7) (by omega)
  have e : doc (Sample.world heap) { makeRefs := false } 7 (.ref 0) = .arr [
    .obj [(p!"py/object", .str p!"m.P"), (p!"x", .obj [(p!"a", .int 1)])],
    .obj [(p!"py/object", .str p!"m.P"), (p!"x", .obj [(p!"a", .int 1)])],
    .obj [(p!"py/tuple", .arr [.obj [(p!"a", .int 1)], .int 1])]] := by decide +kernel
  rw [e] at h
  exact h

example : doc (Sample.world heap) { unpicklable := false } 7 (.ref 0) = .arr [.obj [(p!"x", .obj [(p!"a", .int 1)])], .obj [(p!"x", .obj [(p!"a", .int 1)])],
    .arr [.obj [(p!"a", .int 1)], .int 1]] := by decide +kernel

/-! ### what the conditions are for -/

/-- `f = Factory(); [defaultdict(f), f]`, `f` an instance with a method `__call__` -/
def factories : Heap := [.list [.ref 1, .ref 2], .inst { cls := p!"c.defaultdict", info := { base := .dict, hasDict := false }, factory := some (.ref 2) },
  .inst { cls := p!"m.F" }]

/-- Default factories that are no classes: the factory counts as seen without having been written.  With `make_refs=False` it is then written as its `repr`, and
with `unpicklable=False` as `null`. -/
theorem factory_registered :
    Sample.res (Pickler.flatten (Sample.world factories) { makeRefs := false } 9 (.ref 0) {}) = some (.ok (.arr [
      .obj [(p!"py/object", .str p!"c.defaultdict"), (p!"default_factory", .obj [(p!"py/object", .str p!"jsonpickle.handlers.CloneFactory"), (p!"exemplar", .null)])],
      .str p!"R"])) ∧
    Sample.res (Pickler.flatten (Sample.world factories) { unpicklable := false } 9 (.ref 0) {}) = some (.ok (.arr [
      .obj [(p!"default_factory", .obj [(p!"exemplar", .null)])], .null])) := by decide +kernel

/-- `d = D(); [d, vars(d)]`, `D` a subclass of `dict` -/
def dicts : Heap := [.list [.ref 1, .ref 2], .inst { cls := p!"m.D", info := { base := .dict }, items := [(.str p!"k", .int 1)], dictCell := some 2 },
  .dict [(.str p!"a", .int 1)]]

/-- The `__dict__` of a dict subclass likewise: used elsewhere with `make_refs=False`, it is written as its `repr`. -/
theorem own_dict_registered :
    Sample.res (Pickler.flatten (Sample.world dicts) { makeRefs := false } 9 (.ref 0) {}) = some (.ok (.arr [
      .obj [(p!"py/object", .str p!"m.D"), (p!"k", .int 1), (p!"__dict__", .obj [(p!"a", .int 1)])], .str p!"R"])) := by decide +kernel

/-- The order matters: written first, the same dict is written out twice. -/
theorem own_dict_first :
    Sample.res (Pickler.flatten (Sample.world (.list [.ref 2, .ref 1] :: dicts.tail)) { makeRefs := false } 9 (.ref 0) {}) = some (.ok (.arr [
      .obj [(p!"a", .int 1)], .obj [(p!"py/object", .str p!"m.D"), (p!"k", .int 1), (p!"__dict__", .obj [(p!"a", .int 1)])]])) := by decide +kernel

end JP.C58
