import Verif.Proofs.RoundTrip
import Verif.Proofs.Run
import Verif.SampleCovered
/-!
# C30 — default factories

An instance of a dict subclass whose default factory is a class (`defaultdict(list)`) comes back with the same factory and
entries.  The property fails for other factories and for attributes called `default_factory` (witnesses).
-/
namespace JP.C30
open JP Sample

/-- The object under the path `ps`, of a dict subclass with a default factory.  Missing from the full property: factories other
than classes, and objects with an attribute called `default_factory` — both false, see below. -/
theorem factory_partial (w : World) (cfg : PCfg) (env : UEnv) (v x : Val) (text : Str) (u u' : UState)
    (hc : Covered w cfg env v) (he : Encodes w cfg v text) (hd : Decodes env text u x u')
    (ps : List Access) (a : Addr) (i : Inst) (c : Str)
    (hp : walk (writeOrder cfg.keys) (saved (hasHandler w) w.heap) w.heap v ps = some (.ref a))
    (ha : w.heap[a]? = some (.inst i)) (hh : hasHandler w i.cls = false) (hr : i.info.reduces = false)
    (hs : savedState w.heap i = none) (hf : i.factory = some (.type c)) :
    ∃ R : Addr → Addr → Prop, (∀ a b b', R a b → R a b' → b = b') ∧ (∀ a a' b, R a b → R a' b → a = a') ∧
      (∀ a b, R a b → ∃ o o', w.heap[a]? = some o ∧ u'.heap[b]? = some o' ∧
        SameCell (writeOrder cfg.keys) (hasHandler w) w.heap u'.heap R o o') ∧
      VIso R v x ∧
      ∃ b i', walk id anyPart u'.heap x ps = some (.ref b) ∧ u'.heap[b]? = some (.inst i') ∧ R a b ∧ i'.cls = i.cls ∧
        i'.factory = some (.type c) ∧ ItemsIso R (writeOrder cfg.keys i.items) i'.items ∧
        ItemsIso R (instAttrs w.heap i) (instAttrs u'.heap i') := by
  obtain ⟨R, f, g, hv, hR⟩ := hc.graph he hd
  refine ⟨R, f, g, hR, hv, ?_⟩
  obtain ⟨z, h1, h2⟩ := walk_iso hR ps hv hp
  cases z <;> simp only [VIso] at h2
  rename_i b
  obtain ⟨o1, o', e1, e2, e3⟩ := hR a b h2
  rw [ha] at e1
  cases e1
  cases o' <;> simp only [SameCell] at e3
  rename_i i'
  cases e3 with
  | handled q => rw [hh] at q; cases q
  | reduced _ q => rw [hr] at q; cases q
  | state _ _ _ _ q => rw [hs] at q; cases q
  | stateAttrs _ _ _ _ q => rw [hs] at q; cases q
  | fields _ _ q1 _ _ q2 q3 q4 q5 _ =>
    refine ⟨b, i', h1, e2, h2, q1, ?_, q3, q2⟩
    rw [hf] at q5
    cases hf' : i'.factory with
    | none => rw [hf'] at q5; exact q5.elim
    | some f' =>
      rw [hf'] at q5
      cases f' <;> simp only [VIso] at q5
      rw [q5]

/-- In the sample graph `x[14]` is such an object with the factory `C`. -/
example (text : Str) (x : Val) (u' : UState) (he : Encodes (program.world graph) {} (.ref 0) text)
    (hd : Decodes program.env text {} x u') :
    ∃ b i', walk id anyPart u'.heap x [.elem 14] = some (.ref b) ∧ u'.heap[b]? = some (.inst i') ∧
      i'.factory = some (.type p!"m.C") := by
  obtain ⟨R, _, _, _, _, b, i', h1, h2, _, _, h3, _⟩ := factory_partial _ _ _ _ _ _ _ _ (covered false) he hd
    [.elem 14] 7 _ p!"m.C" rfl rfl rfl rfl rfl rfl
  exact ⟨b, i', h1, h2, h3⟩

/-- `c.default_factory = 0` is lost: `decode(encode(c))` has no such attribute. -/
theorem falsy_attribute_lost : program.TripsTo
    [.inst { cls := p!"m.C", attrs := [(p!"default_factory", .int 0), (p!"y", .int 2)] }] {} (.ref 0) (.ref 1)
    [.proxy, .inst p!"m.C" [(p!"y", .int 2)] [] []] :=
  Program.tripsTo 10 (by decide +kernel)

/-- `c.y = p; c.default_factory = q; c.z = p` with lists `p = []` and `q = [1]`: after the round trip `c.y` and
`c.z` differ, and `c.z` is the list `[1]`. -/
theorem attribute_confuses_references : program.TripsTo
    [.inst { cls := p!"m.C", attrs := [(p!"y", .ref 1), (p!"default_factory", .ref 2), (p!"z", .ref 1)] }, .list [], .list [.int 1]]
    {} (.ref 0) (.ref 2)
    [.proxy, .list [.int 1], .inst p!"m.C" [(p!"default_factory", .ref 1), (p!"y", .ref 3), (p!"z", .ref 1)] [] [], .list []] :=
  Program.tripsTo 10 (by decide +kernel)

/-- a dict subclass without attributes, such as `collections.defaultdict` -/
def infoDD : ClassInfo := { base := .dict, hasDict := false }

/-- `d = defaultdict(lambda: [1]); d["a"] = d["b"] = p` with `p = []`: after the round trip `d["b"]` is not `d["a"]` but
the factory's `CloneFactory` object. -/
theorem lambda_factory_confuses_references : ({ infos := [(p!"m.D", infoDD), (Pickler.CLONE, {})] } : Program).TripsTo
    [.inst { cls := p!"m.D", info := infoDD, items := [(.str p!"a", .ref 1), (.str p!"b", .ref 1)], factory := some (.lambda 3), exemplar := .ref 2 }, .list [], .list [.int 1]] {} (.ref 0) (.ref 4)
    [.proxy, .proxy, .inst Pickler.CLONE [(p!"exemplar", .ref 3)] [] [], .list [.int 1],
      .inst p!"m.D" [] [(.str p!"a", .ref 5), (.str p!"b", .ref 2)] [], .list []] :=
  Program.tripsTo 20 (by decide +kernel)

end JP.C30
