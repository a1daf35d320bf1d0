import Verif.Proofs.RoundTrip
import Verif.SampleRound
/-!
# C01 — decode(encode(x)) rebuilds the same object graph

`round_trip_partial`: for every graph made of supported objects (`Supported`, Verif/Supported.lean) the
text that `encode` returns decodes to an isomorphic graph (`SameGraph`, Verif/GraphSpec.lean).  Cycles and
sharing are unrestricted, except that an object must not be reachable from its own constructor arguments,
reduce tuple or handler fields.

The property is false without these limits: C05, C12, C25, C30 and C39 give witnesses.  The limits that are
not forced by a defect are stated in DESIGN.md.
-/
namespace JP.C01
open JP

/-- Encoding ends with a text, and decoding that text in any state of the heap ends with an isomorphic graph
and leaves all existing objects alone. -/
theorem round_trip_partial (w : World) (cfg : PCfg) (env : UEnv) (v : Val) (hm : Matching w cfg env)
    (hk : cfg.keys = false) (hp : PlainText w) (hf : SafeOk cfg) (hs : Supported w.heap env v) (ht : TextOk w.heap v) :
    ∃ text, Encodes w cfg v text ∧ ∀ u, ∃ x u', Decodes env text u x u' ∧
      SameGraph id (fun c => (w.handler c).isSome) w.heap v u'.heap x ∧
      ∀ b < u.heap.length, u'.heap[b]? = u.heap[b]? := by
  have := round_trip hm hp hf hs ht
  simp only [Sim.orderOf, hk, Bool.false_eq_true, if_false] at this
  exact this

/-- The hypotheses hold for a cyclic graph with every supported kind of object. -/
example : ∃ text, Encodes (Sample.program.world Sample.graph) {} (.ref 0) text ∧ ∀ u, ∃ x u',
    Decodes Sample.program.env text u x u' ∧
    SameGraph id (fun c => (dget c Sample.program.handlers).isSome) Sample.graph (.ref 0) u'.heap x ∧
    ∀ b < u.heap.length, u'.heap[b]? = u.heap[b]? :=
  round_trip_partial _ _ _ _ (Sample.program.matching Sample.graph {} rfl rfl rfl) rfl (Sample.program.plain _)
    (Sample.safeOk_none rfl) (Sample.graph_supported false) Sample.graph_text

/-- Two results of decoding the same text are isomorphic to the same graph, so the text determines the
graph: encoding is injective up to isomorphism. -/
theorem text_determines_graph_partial (w w' : World) (cfg : PCfg) (env : UEnv) (v v' : Val) (hm : Matching w cfg env)
    (hm' : Matching w' cfg env) (hk : cfg.keys = false) (hp : PlainText w) (hp' : PlainText w') (hf : SafeOk cfg)
    (hs : Supported w.heap env v) (hs' : Supported w'.heap env v') (ht : TextOk w.heap v) (ht' : TextOk w'.heap v')
    (text : Str) (he : Encodes w cfg v text) (he' : Encodes w' cfg v' text) :
    ∃ x h, SameGraph id (fun c => (w.handler c).isSome) w.heap v h x ∧
      SameGraph id (fun c => (w'.handler c).isSome) w'.heap v' h x := by
  obtain ⟨t1, e1, d1⟩ := round_trip_partial w cfg env v hm hk hp hf hs ht
  obtain ⟨t2, e2, d2⟩ := round_trip_partial w' cfg env v' hm' hk hp' hf hs' ht'
  have h1 : t1 = text := by
    obtain ⟨n, s, h⟩ := e1
    obtain ⟨n', s', h'⟩ := he
    have a := h (max n n') {} (Nat.le_max_left ..)
    rw [h' (max n n') {} (Nat.le_max_right ..)] at a
    cases a; rfl
  have h2 : t2 = text := by
    obtain ⟨n, s, h⟩ := e2
    obtain ⟨n', s', h'⟩ := he'
    have a := h (max n n') {} (Nat.le_max_left ..)
    rw [h' (max n n') {} (Nat.le_max_right ..)] at a
    cases a; rfl
  subst h1; subst h2
  obtain ⟨x, u, hx, g, _⟩ := d1 {}
  obtain ⟨y, u', hy, g', _⟩ := d2 {}
  obtain ⟨n, h⟩ := hx
  obtain ⟨n', h'⟩ := hy
  have a := h (max n n') (Nat.le_max_left ..)
  rw [h' (max n n') (Nat.le_max_right ..)] at a
  cases a
  exact ⟨_, _, g, g'⟩

end JP.C01
