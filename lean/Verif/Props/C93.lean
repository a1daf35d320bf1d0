import Verif.Proofs.PCycle
import Verif.SampleCycle
import Verif.ApiSpec
import Verif.Sample
/-!
# C93 — without references a cycle is cut where an object is met while it is being written
-/
namespace JP.C93
open JP PyM Cycle
open JP.Expand (Shape level)

/-- With `make_refs=False` or `unpicklable=False`, and without `max_depth`, the text that `encode` returns for an object graph, possibly with cycles, is the text of its
expansion, where an object met while it is being written is cut: with `make_refs=False` it is written as its `repr`, otherwise an instance is written as `null`.
Neither the table of registered objects nor the cache of documents shows, provided that whatever is written out at two places meets the same objects in progress at
both. -/
theorem cuts {w : World} {cfg : PCfg} {v : Val} (href : cfg.unpicklable = false ∨ cfg.makeRefs = false) (hmax : cfg.maxDepth = none) (g : Shape w cfg v) (hen : NoEnum w.heap (cut w cfg) v)
    (hco : Coherent w.heap (cut w cfg) v) {n : Nat} (hb : Ends w.heap (cut w cfg) n [] v) {m : Nat} (hm : n < m) : Encodes w cfg v (w.dumps (doc w cfg m [] v)) := by
  have href2 : (cfg.unpicklable && cfg.makeRefs) = false := by rcases href with h | h <;> simp [h]
  have hE : ∀ op x, Occurs w.heap (cut w cfg) [] v op x → doc w cfg m op x = if met op x then cutDoc w cfg x else level w cfg (doc w cfg m (into (cut w cfg) x op)) x :=
    fun op x ho => doc_stable href2 g ho.within (hb.occurs ho) hm
  have hE' : ∀ op x, Expand.Scalar x → doc w cfg m op x = level w cfg (doc w cfg m op) x := by
    intro op x hx
    obtain ⟨m, rfl⟩ : ∃ k, m = k + 1 := ⟨m - 1, by omega⟩
    cases x <;> first | rfl | cases hx
  have h := fun k hk => flatten_root (E := doc w cfg m) href2 hmax g hen
    (fun x op op' h1 h2 hm hm' => doc_congr href2 g m h1.within (hco x op op' h1 h2 hm hm')) hE hE' hb (m := k) hk
  refine ⟨n + 1, if v.ident.isScalar = true then {} else { flattened := [(v.ident, doc w cfg m [] v)] }, ?_⟩
  intro k s hk
  unfold Api.encode Pickler.flattenTop
  rw [if_pos rfl]
  rw [bind_ok (a := doc w cfg m [] v) (s' := if v.ident.isScalar = true then {} else { flattened := [(v.ident, doc w cfg m [] v)] }) ?_]
  · rfl
  · rw [bind_ok (a := ()) (s' := ({} : PState)) rfl]
    exact h k (by omega)

/-- With `make_refs=False` every chain of references ends: so there is such a text for every graph. -/
theorem ends {w : World} {cfg : PCfg} (href : cfg.makeRefs = false) (v : Val) : ∃ n, Ends w.heap (cut w cfg) n [] v :=
  ends_exists w.heap (fun a => by unfold cut; rw [href]; rfl) _ [] (Nat.le_refl _) v

/-- The number of levels does not matter once it is large enough. -/
theorem levels_irrelevant {w : World} {cfg : PCfg} {v : Val} (href : cfg.unpicklable = false ∨ cfg.makeRefs = false) (g : Shape w cfg v) {n : Nat} (hb : Ends w.heap (cut w cfg) n [] v) {m : Nat} (hm : n < m) :
    doc w cfg m [] v = doc w cfg (n + 1) [] v := by
  have href : (cfg.unpicklable && cfg.makeRefs) = false := by rcases href with h | h <;> simp [h]
  obtain ⟨k, rfl⟩ : ∃ k, m = n + 1 + k := ⟨m - (n + 1), by omega⟩
  induction k with
  | zero => rfl
  | succ k ih => exact (doc_stable href g .self hb (by omega : n < n + 1 + k)).symm.trans (ih (by omega))

/-- So the call always returns with `make_refs=False`. -/
theorem returns {w : World} {cfg : PCfg} {v : Val} (href : cfg.makeRefs = false) (hmax : cfg.maxDepth = none) (g : Shape w cfg v) (hen : NoEnum w.heap (cut w cfg) v)
    (hco : Coherent w.heap (cut w cfg) v) : ∃ t, Encodes w cfg v t := by
  obtain ⟨n, hn⟩ := ends href v
  exact ⟨_, cuts (.inr href) hmax g hen hco hn (Nat.lt_succ_self n)⟩

/-- Without shared objects the condition holds: if everything but strings, numbers and `None` is written out at one place only. -/
theorem unshared {h : Heap} {c : Addr → Bool} {v : Val} (hu : ∀ x op op', ¬ Expand.Scalar x → Occurs h c [] v op x → Occurs h c [] v op' x → met op x = false → met op' x = false → op = op') :
    Coherent h c v := by
  intro x op op' h1 h2 hm hm' q a hq
  by_cases hs : Expand.Scalar x
  · exfalso
    have : ∀ q y, Occurs h c op x q y → y = x := by
      intro q y hq
      induction hq with
      | self => rfl
      | step _ _ ht ih => rw [ih] at ht; cases ht <;> cases hs
    have := this q _ hq
    subst this
    cases hs
  · rw [hu x op op' hs h1 h2 hm hm']

/-! ### a tree with parent pointers -/

/-- `r = Node(); a = Node(); b = Node(); a.parent = b.parent = r; c = Node(); c.parent = r; a.c = b.c = c; r.kids = [a, b]` -/
def tree : Heap := [
  .inst { cls := p!"m.N", attrs := [(p!"kids", .ref 1)] },
  .list [.ref 2, .ref 3],
  .inst { cls := p!"m.N", attrs := [(p!"parent", .ref 0), (p!"c", .ref 4)] },
  .inst { cls := p!"m.N", attrs := [(p!"parent", .ref 0), (p!"c", .ref 4)] },
  .inst { cls := p!"m.N", attrs := [(p!"parent", .ref 0)] }]

def reached : List Val := [.ref 0, .ref 1, .ref 2, .ref 3, .ref 4, .str p!"kids", .str p!"parent", .str p!"c", .str p!"m.N", .none, .tuple 0 [], .str []]

theorem tree_shape (cfg : PCfg) : Shape (Sample.world tree) cfg (.ref 0) := by
  refine Sample.shape_of reached (by decide +kernel) ?_ (by decide +kernel) (by decide +kernel) (fun _ => ⟨_, rfl⟩) (fun _ => ⟨_, rfl⟩)
  simp [reached, tree, Sample.world, Sample.calmB]

theorem tree_coherent : Coherent tree (cut (Sample.world tree) { makeRefs := false }) (.ref 0) := Sample.coherentB_spec (n := 9) (by decide +kernel) (by decide +kernel)

theorem tree_coherent' : Coherent tree (cut (Sample.world tree) { unpicklable := false }) (.ref 0) := Sample.coherentB_spec (n := 9) (by decide +kernel) (by decide +kernel)

/-- the parents are cut; the shared object is written out twice -/
example : Encodes (Sample.world tree) { makeRefs := false } (.ref 0) ((Sample.world tree).dumps (.obj [(p!"py/object", .str p!"m.N"), (p!"kids", .arr [
    .obj [(p!"py/object", .str p!"m.N"), (p!"parent", .str p!"R"), (p!"c", .obj [(p!"py/object", .str p!"m.N"), (p!"parent", .str p!"R")])],
    .obj [(p!"py/object", .str p!"m.N"), (p!"parent", .str p!"R"), (p!"c", .obj [(p!"py/object", .str p!"m.N"), (p!"parent", .str p!"R")])]])])) := by
  have h := cuts (w := Sample.world tree) (cfg := { makeRefs := false }) (v := .ref 0) (.inr rfl) rfl (tree_shape _) (Sample.noEnum_of (by decide +kernel)) tree_coherent (n := 9)
    (Sample.endsB_spec (by decide +kernel)) (m := 10) (by omega)
  have e : doc (Sample.world tree) { makeRefs := false } 10 [] (.ref 0) = .obj [(p!"py/object", .str p!"m.N"), (p!"kids", .arr [
    .obj [(p!"py/object", .str p!"m.N"), (p!"parent", .str p!"R"), (p!"c", .obj [(p!"py/object", .str p!"m.N"), (p!"parent", .str p!"R")])],
    .obj [(p!"py/object", .str p!"m.N"), (p!"parent", .str p!"R"), (p!"c", .obj [(p!"py/object", .str p!"m.N"), (p!"parent", .str p!"R")])]])] := by decide +kernel
  rw [e] at h
  exact h

/-- with `unpicklable=False` there is `null` for the parents -/
example : Encodes (Sample.world tree) { unpicklable := false } (.ref 0) ((Sample.world tree).dumps (.obj [(p!"kids", .arr [
    .obj [(p!"parent", .null), (p!"c", .obj [(p!"parent", .null)])], .obj [(p!"parent", .null), (p!"c", .obj [(p!"parent", .null)])]])])) := by
  have h := cuts (w := Sample.world tree) (cfg := { unpicklable := false }) (v := .ref 0) (.inl rfl) rfl (tree_shape _) (Sample.noEnum_of (by decide +kernel)) tree_coherent' (n := 9)
    (Sample.endsB_spec (by decide +kernel)) (m := 10) (by omega)
  have e : doc (Sample.world tree) { unpicklable := false } 10 [] (.ref 0) = .obj [(p!"kids", .arr [
    .obj [(p!"parent", .null), (p!"c", .obj [(p!"parent", .null)])], .obj [(p!"parent", .null), (p!"c", .obj [(p!"parent", .null)])]])] := by decide +kernel
  rw [e] at h
  exact h

/-! ### what the condition is for -/

/-- `a = []; b = [a]; a.append(b); [a, b]` -/
def ring : Heap := [.list [.ref 1, .ref 2], .list [.ref 2], .list [.ref 1]]

/-- Two lists that contain each other, written one after the other: the second is found in the cache, cut as it was inside the first. -/
theorem ring_depends_on_order :
    Sample.res (Pickler.flatten (Sample.world ring) { makeRefs := false } 9 (.ref 0) {}) = some (.ok (.arr [.arr [.arr [.str p!"R"]], .arr [.str p!"R"]])) ∧
    doc (Sample.world ring) { makeRefs := false } 9 [] (.ref 0) = .arr [.arr [.arr [.str p!"R"]], .arr [.arr [.str p!"R"]]] ∧
    ¬ Coherent ring (cut (Sample.world ring) { makeRefs := false }) (.ref 0) := by
  refine ⟨by decide +kernel, by decide +kernel, fun h => ?_⟩
  have t1 : Touches ring (.ref 0) (.ref 1) := .list rfl (by simp)
  have t2 : Touches ring (.ref 0) (.ref 2) := .list rfl (by simp)
  have t12 : Touches ring (.ref 1) (.ref 2) := .list rfl (by simp)
  have t21 : Touches ring (.ref 2) (.ref 1) := .list rfl (by simp)
  have := h (.ref 2) [1, 0] [0] (.step (.step .self rfl t1) rfl t12) (.step .self rfl t2) rfl rfl [2, 1, 0] 1 (.step .self rfl t21)
  simp at this

end JP.C93
