import Verif.Proofs.RoundTrip
import Verif.Proofs.Run
import Verif.SampleCovered
/-!
# C39 — attributes of slots classes and container subclasses

The attributes of every supported object — in its `__dict__` or its slots, also for list, set and dict subclasses —
come back with the same names, in the same order, with isomorphic values.

Witnesses for the rest: names that start with two underscores are mangled a second time, the attributes of a tuple
subclass are lost (and later references are then wrong), and so are those of a dict subclass instance that equals its own
`__dict__`.
-/
namespace JP.C39
open JP Sample

/-- The object under the path `ps`, if it is one whose attributes jsonpickle writes itself (no handler, no reduce value, no
saved state). -/
theorem attributes_partial (w : World) (cfg : PCfg) (env : UEnv) (v x : Val) (text : Str) (u u' : UState)
    (hc : Covered w cfg env v) (he : Encodes w cfg v text) (hd : Decodes env text u x u')
    (ps : List Access) (a : Addr) (i : Inst)
    (hp : walk (writeOrder cfg.keys) (saved (hasHandler w) w.heap) w.heap v ps = some (.ref a))
    (ha : w.heap[a]? = some (.inst i)) (hh : hasHandler w i.cls = false) (hr : i.info.reduces = false)
    (hs : savedState w.heap i = none) :
    ∃ R : Addr → Addr → Prop, (∀ a b b', R a b → R a b' → b = b') ∧ (∀ a a' b, R a b → R a' b → a = a') ∧
      (∀ a b, R a b → ∃ o o', w.heap[a]? = some o ∧ u'.heap[b]? = some o' ∧
        SameCell (writeOrder cfg.keys) (hasHandler w) w.heap u'.heap R o o') ∧
      VIso R v x ∧
      ∃ b i', walk id anyPart u'.heap x ps = some (.ref b) ∧ u'.heap[b]? = some (.inst i') ∧ R a b ∧ i'.cls = i.cls ∧
        ItemsIso R (instAttrs w.heap i) (instAttrs u'.heap i') ∧ VIsos R i.elems i'.elems ∧
        ItemsIso R (writeOrder cfg.keys i.items) i'.items := by
  obtain ⟨R, f, g, hv, hR⟩ := hc.graph he hd
  refine ⟨R, f, g, hR, hv, ?_⟩
  obtain ⟨z, h1, h2⟩ := walk_iso hR ps hv hp
  cases z <;> simp only [VIso] at h2
  rename_i b
  obtain ⟨o1, o', e1, e2, e3⟩ := hR a b h2
  rw [ha] at e1
  cases e1
  cases o' <;> simp only [SameCell] at e3
  rename_i i'
  cases e3 with
  | handled q => rw [hh] at q; cases q
  | reduced _ q => rw [hr] at q; cases q
  | state _ _ _ _ q => rw [hs] at q; cases q
  | stateAttrs _ _ _ _ q => rw [hs] at q; cases q
  | fields _ _ q1 _ _ q2 q3 q4 _ _ => exact ⟨b, i', h1, e2, h2, q1, q2, q4, q3⟩

/-- In the sample graph: `x[4][1]` (with slots, of which `p` is set) and `x[13]` (of a list subclass, with an attribute). -/
example (text : Str) (x : Val) (u' : UState) (he : Encodes (program.world graph) {} (.ref 0) text)
    (hd : Decodes program.env text {} x u') :
    (∃ b i', walk id anyPart u'.heap x [.elem 4, .elem 1] = some (.ref b) ∧ u'.heap[b]? = some (.inst i') ∧
      ∃ y, instAttrs u'.heap i' = [(.str p!"p", y)]) ∧
    (∃ b i', walk id anyPart u'.heap x [.elem 13] = some (.ref b) ∧ u'.heap[b]? = some (.inst i') ∧
      ∃ y, instAttrs u'.heap i' = [(.str p!"y", y)]) := by
  have one : ∀ {R : Addr → Addr → Prop} {k : Str} {y : Val} {l : List (Val × Val)}, ItemsIso R [(.str k, y)] l → ∃ y', l = [(.str k, y')] := by
    intro R k y l h
    match l, h with
    | [(k', y')], h =>
      have := h.1.1
      cases k' <;> simp only [VIso] at this
      exact ⟨y', by rw [this]⟩
    | _ :: _ :: _, h => exact h.2.elim
    | [], h => exact h.elim
  constructor
  · obtain ⟨R, _, _, _, _, b, i', h1, h2, _, _, h3, _⟩ := attributes_partial _ _ _ _ _ _ _ _ (covered false) he hd
      [.elem 4, .elem 1] 3 _ rfl rfl rfl rfl rfl
    exact ⟨b, i', h1, h2, one h3⟩
  · obtain ⟨R, _, _, _, _, b, i', h1, h2, _, _, h3, _⟩ := attributes_partial _ _ _ _ _ _ _ _ (covered false) he hd
      [.elem 13] 6 _ rfl rfl rfl rfl rfl
    exact ⟨b, i', h1, h2, one h3⟩

def classA : ClassInfo := { shortName := p!"A" }
def classT : ClassInfo := { base := .tuple, hasNewargs := true }
/-- `class Base: __slots__ = ("__x",)`, `class Sub(Base): __slots__ = ("y",)` -/
def classSub : ClassInfo := { shortName := p!"Sub", hasDict := false, hasSlots := true, slots := [p!"y", p!"__x"] }
/-- `class _F: __slots__ = ("__x", "y")` -/
def classF : ClassInfo := { shortName := p!"_F", hasDict := false, hasSlots := true, slots := [p!"__x", p!"y"] }
def prog : Program := { infos := [(p!"m.A", classA), (p!"m.T", classT), (p!"m.D", infoD), (p!"m.Sub", classSub), (p!"m._F", classF)] }

/-- `a = A(); setattr(a, "__x", 1)`: the decoded object has the attribute `_A__x` instead. -/
theorem dunder_mangled : prog.TripsTo [.inst { cls := p!"m.A", info := classA, attrs := [(p!"__x", .int 1)] }] {} (.ref 0) (.ref 1)
    [.proxy, .inst p!"m.A" [(p!"_A__x", .int 1)] [] []] :=
  Program.tripsTo 10 (by decide +kernel)

/-- `t` of a tuple subclass with `t.a = [2]`; in `[t, p, q, p]` with `p = []` and `q = [1]`, the decoded tuple has no attribute
`a`, and the last element comes back as `q` instead of `p`. -/
theorem tuple_attribute_lost : prog.TripsTo
    [.list [.ref 1, .ref 2, .ref 3, .ref 2],
      .inst { cls := p!"m.T", info := classT, newargs := .tuple 1 [.tuple 2 [.int 5]], elems := [.int 5], attrs := [(p!"a", .ref 4)] },
      .list [], .list [.int 1], .list [.int 2]] {} (.ref 0) (.ref 0)
    [.list [.ref 2, .ref 3, .ref 4, .ref 4], .proxy, .inst p!"m.T" [] [] [.int 5], .list [], .list [.int 1]] :=
  Program.tripsTo 20 (by decide +kernel)

/-- `d = D({"a": 1}); d.a = 1` with a dict subclass `D`: `d == d.__dict__`, and the attribute is lost. -/
theorem equal_dict_lost : prog.TripsTo
    [.inst { cls := p!"m.D", info := infoD, items := [(.str p!"a", .int 1)], attrs := [(p!"a", .int 1)], eqOwnDict := true }] {} (.ref 0) (.ref 1)
    [.proxy, .inst p!"m.D" [] [(.str p!"a", .int 1)] []] :=
  Program.tripsTo 10 (by decide +kernel)

/-- A private slot of a base class is looked for under the name of the derived class, and lost. -/
theorem base_slot_lost : prog.TripsTo [.inst { cls := p!"m.Sub", info := classSub, attrs := [(p!"_Base__x", .int 1), (p!"y", .int 2)] }] {} (.ref 0) (.ref 1)
    [.proxy, .inst p!"m.Sub" [(p!"y", .int 2)] [] []] :=
  Program.tripsTo 10 (by decide +kernel)

/-- Python leaves out the leading underscores of the class in the name of a private slot (`_F__x` in a class `_F`), jsonpickle does not: lost
as well. -/
theorem underscore_class_slot_lost : prog.TripsTo [.inst { cls := p!"m._F", info := classF, attrs := [(p!"_F__x", .int 1), (p!"y", .int 2)] }] {} (.ref 0) (.ref 1)
    [.proxy, .inst p!"m._F" [(p!"y", .int 2)] [] []] :=
  Program.tripsTo 10 (by decide +kernel)

/-- An object none of whose slots is set is written with the attributes of its class (here `VERSION = 1`). -/
theorem class_attributes_written : res (Api.encode (prog.world [.inst { cls := p!"m.Sub", info := classSub, dirAttrs := [(p!"VERSION", .int 1), (p!"y", .int 2)] }]) {} 9 (.ref 0) true {}) =
    some (.ok ((prog.world []).dumps (.obj [(Tags.OBJECT, .str p!"m.Sub"), (p!"VERSION", .int 1), (p!"y", .int 2)]))) := by
  decide +kernel

end JP.C39
