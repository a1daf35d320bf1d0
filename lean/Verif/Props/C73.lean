import Verif.Proofs.DataIso
import Verif.SampleData
/-!
# C73 — two data graphs have the same text exactly if they are isomorphic

The text depends on the objects and how they refer to each other, not on where they are in memory or what their `id()` is; and it
tells non-isomorphic graphs apart.
-/
namespace JP.C73
open JP PIso

/-- Isomorphic graphs have the same text, with the default options. -/
theorem same_text (w w' : World) (cfg : PCfg) (v v' : Val) (text : Str)
    (hu : cfg.unpicklable = true) (hm : cfg.makeRefs = true) (hd : cfg.maxDepth = none) (hj : w'.dumps = w.dumps) (hr : w'.handler = w.handler)
    (g : DataGraph cfg.keys (hasHandler w) w.heap v) (g' : DataGraph cfg.keys (hasHandler w) w'.heap v')
    (hs : SameData (writeOrder cfg.keys) w.heap v w'.heap v') (he : Encodes w cfg v text) : Encodes w' cfg v' text :=
  encodes_same hu hm hd hj hr g g' hs he

/-- For graphs that the round-trip theorems cover, the converse holds too: the text determines the graph up to isomorphism (and, with
`keys=True`, up to the order of string and other keys of a dict). -/
theorem text_iff (w w' : World) (cfg : PCfg) (env : UEnv) (v v' : Val) (t t' : Str) (hg : env.Globals) (hj : w'.dumps = w.dumps)
    (hc : Covered w cfg env v) (hd : DataClasses w v) (hc' : Covered w' cfg env v') (hd' : DataClasses w' v')
    (he : Encodes w cfg v t) (he' : Encodes w' cfg v' t') :
    t = t' ↔ SameData (writeOrder cfg.keys) w.heap v w'.heap v' := by
  have hr : w'.handler = w.handler := funext fun c => by rw [hc.matching.handler, hc'.matching.handler]
  have eh : hasHandler w' = hasHandler w := funext fun c => by unfold hasHandler; rw [hr]
  constructor
  · rintro rfl
    obtain ⟨_, x, u', e, hx⟩ := hc.total {}
    cases he.unique e
    have key : ∀ {w : World} {v : Val}, Covered w cfg env v → DataClasses w v → Encodes w cfg v t → SameData (writeOrder cfg.keys) w.heap v u'.heap x := by
      intro w v hc hd he
      obtain ⟨R, h1, hv, hR⟩ := rebuilt hc hd hg he hx
      refine ⟨R, h1.func, h1.inj, hv, fun a b h => ?_⟩
      obtain ⟨o, o', e1, e2, e3⟩ := hR a b h
      exact ⟨o, o', e1, e2, e3.1⟩
    exact SameData.trans (key hc hd he) (SameData.symm (key hc' hd' he'))
  · intro hs
    exact (same_text w w' cfg v v' t hc.matching.unpicklable hc.matching.makeRefs hc.matching.maxDepth hj hr (covered_data hc hd)
      (by rw [← eh]; exact covered_data hc' hd') hs he).unique he'

/-! ### the sample data in two places -/

/-- which cell corresponds to which -/
def place (a b : Addr) : Prop := (a, b) ∈ [(0, 2), (1, 5), (2, 0), (3, 3), (4, 4)]

instance (a b : Addr) : Decidable (place a b) := by unfold place; infer_instance

theorem places : SameData (writeOrder false) Sample.data (.ref 0) Sample.data' (.ref 2) := by
  refine ⟨place, ?_, ?_, by simp only [VIso]; decide, ?_⟩
  · intro a b b' h h'
    simp only [place, List.mem_cons, List.not_mem_nil, or_false, Prod.mk.injEq] at h h'
    rcases h with ⟨rfl, rfl⟩ | ⟨rfl, rfl⟩ | ⟨rfl, rfl⟩ | ⟨rfl, rfl⟩ | ⟨rfl, rfl⟩ <;> simp at h' <;> exact h'.symm
  · intro a a' b h h'
    simp only [place, List.mem_cons, List.not_mem_nil, or_false, Prod.mk.injEq] at h h'
    rcases h with ⟨rfl, rfl⟩ | ⟨rfl, rfl⟩ | ⟨rfl, rfl⟩ | ⟨rfl, rfl⟩ | ⟨rfl, rfl⟩ <;> simp at h' <;> exact h'.symm
  · intro a b h
    simp only [place, List.mem_cons, List.not_mem_nil, or_false, Prod.mk.injEq] at h
    rcases h with ⟨rfl, rfl⟩ | ⟨rfl, rfl⟩ | ⟨rfl, rfl⟩ | ⟨rfl, rfl⟩ | ⟨rfl, rfl⟩
    all_goals refine ⟨_, _, rfl, rfl, ?_⟩
    all_goals simp [SameObj, FieldsIso, ItemsIso, All2, VIsos, VIso, writeOrder, place]

/-- the hypotheses of `text_iff` hold of them -/
example (t t' : Str) (he : Encodes (Sample.program.world Sample.data) {} (.ref 0) t) (he' : Encodes (Sample.program.world Sample.data') {} (.ref 2) t') : t = t' :=
  (text_iff (Sample.program.world Sample.data) (Sample.program.world Sample.data') _ _ _ _ _ _ (Sample.program_globals false) rfl (Sample.data_covered false) Sample.data_classes (Sample.data'_covered false)
    Sample.data'_classes he he').2 places

/-- their texts are the same -/
example : Sample.res (Api.encode (Sample.program.world Sample.data) {} 20 (.ref 0) true {}) =
    Sample.res (Api.encode (Sample.program.world Sample.data') {} 20 (.ref 2) true {}) := by decide +kernel

/-- Equal is not isomorphic: `[[], []]` made of two lists and made of one have different texts. -/
example : Sample.res (Api.encode (Sample.program.world [.list [.ref 1, .ref 2], .list [], .list []]) {} 20 (.ref 0) true {}) = some (.ok p!"[[], []]") ∧
    Sample.res (Api.encode (Sample.program.world [.list [.ref 1, .ref 1], .list []]) {} 20 (.ref 0) true {}) = some (.ok p!"[[], {\"py/id\": 1}]") := by
  decide +kernel

/-- Without references (`make_refs=False`) two graphs that are not isomorphic may have the same text. -/
theorem without_references : ∃ t, Sample.res (Api.encode (Sample.program.world [.list [.ref 1, .ref 2], .list [], .list []]) { makeRefs := false } 20 (.ref 0) true {}) = some (.ok t) ∧
    Sample.res (Api.encode (Sample.program.world [.list [.ref 1, .ref 1], .list []]) { makeRefs := false } 20 (.ref 0) true {}) = some (.ok t) :=
  ⟨p!"[[], []]", by decide +kernel, by decide +kernel⟩

end JP.C73
