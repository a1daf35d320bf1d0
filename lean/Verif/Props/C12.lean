import Verif.Proofs.RoundTrip
import Verif.Proofs.Run
import Verif.SampleCovered
/-!
# C12 — aliasing

Lists, dicts and instances keep their aliasing: two access paths lead to the same object of the original
exactly if they lead to the same object of the result.  For sets and bytearrays this is false: jsonpickle never
registers them, so every occurrence is written and rebuilt on its own (witnesses).
-/
namespace JP.C12
open JP Sample

/-- Two paths lead to the same object of `x` if and only if they lead to the same object of
`decode(encode(x))`.  Missing from the full property: sets and bytearrays, which are values without
identity here (see `set_alias_lost`, `bytearray_alias_lost`). -/
theorem aliasing_partial (w : World) (cfg : PCfg) (env : UEnv) (v x : Val) (text : Str) (u u' : UState)
    (hc : Covered w cfg env v) (he : Encodes w cfg v text) (hd : Decodes env text u x u')
    (ps qs : List Access) (a a' : Addr)
    (hp : walk (writeOrder cfg.keys) (saved (hasHandler w) w.heap) w.heap v ps = some (.ref a))
    (hq : walk (writeOrder cfg.keys) (saved (hasHandler w) w.heap) w.heap v qs = some (.ref a')) :
    ∃ b b', walk id anyPart u'.heap x ps = some (.ref b) ∧ walk id anyPart u'.heap x qs = some (.ref b') ∧
      (a = a' ↔ b = b') :=
  (hc.graph he hd).sharing hp hq

/-- In the sample graph, `x[1].me` and `x[3]["a"]` are the same object, also after the round trip. -/
example (text : Str) (x : Val) (u' : UState) (he : Encodes (program.world graph) {} (.ref 0) text)
    (hd : Decodes program.env text {} x u') :
    ∃ b, walk id anyPart u'.heap x [.elem 1, .attr 1] = some (.ref b) ∧
      walk id anyPart u'.heap x [.elem 3, .entry 0] = some (.ref b) := by
  obtain ⟨b, b', h1, h2, h3⟩ := aliasing_partial _ _ _ _ _ _ _ _ (covered false) he hd [.elem 1, .attr 1] [.elem 3, .entry 0] 1 1 rfl rfl
  exact ⟨b, h1, h3.1 rfl ▸ h2⟩

/-- such a text and result exist -/
example : ∃ text x u', Encodes (program.world graph) {} (.ref 0) text ∧ Decodes program.env text {} x u' :=
  (covered false).total {}

/-- `s = {1}; decode(encode([s, s]))` gives two different sets (the numbers are their identities). -/
theorem set_alias_lost : program.TripsTo [.list [.set 7 [.int 1], .set 7 [.int 1]]] {} (.ref 0) (.ref 0)
    [.list [.set 1 [.int 1], .set 2 [.int 1]]] :=
  Program.tripsTo 10 (by decide +kernel)

/-- `b = bytearray(b"\x01"); decode(encode([b, b]))` gives two different bytearrays. -/
theorem bytearray_alias_lost : program.TripsTo [.list [.bytearray 7 [1], .bytearray 7 [1]]] {} (.ref 0) (.ref 0)
    [.list [.bytearray 1 [1], .bytearray 2 [1]]] :=
  Program.tripsTo 10 (by decide +kernel)

/-- The same holds for an instance of a set subclass with `__reduce__`-free class: it *is* registered, so its
aliasing survives. -/
theorem set_subclass_alias_kept : ({ infos := [(p!"m.T", { base := .set })] } : Program).TripsTo
    [.list [.ref 1, .ref 1], .inst { cls := p!"m.T", info := { base := .set }, elems := [.int 1] }] {} (.ref 0) (.ref 0)
    [.list [.ref 2, .ref 2], .proxy, .inst p!"m.T" [] [] [.int 1]] :=
  Program.tripsTo 10 (by decide +kernel)

end JP.C12
