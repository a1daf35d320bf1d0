import Verif.Proofs.RoundTrip
import Verif.Proofs.Run
import Verif.SampleCovered
/-!
# C27 — no placeholders are left in the result

While an object is being rebuilt, `decode` represents it by a placeholder (unpickler.py:142-190).  For
covered graphs no access path into the result leads to one.  When an object refers to itself from the values it is rebuilt from
(constructor arguments, reduce tuple), the placeholder can stay: witnesses below.
-/
namespace JP.C27
open JP Sample

/-- the value is an object, and it is an internal placeholder (or no object at all) -/
def placeholder (h : Heap) : Val → Bool
  | .ref a => match h[a]? with
    | some (.list _) | some (.dict _) | some (.inst _) => false
    | _ => true
  | _ => false

/-- Whatever is found by following elements, entries, attributes, state, reduce values and handler fields from the result of
`decode(encode(x))` is not a placeholder.  Missing from the full property: graphs outside `Covered`, in particular objects
reachable from their own constructor arguments or reduce tuple, for which it is false. -/
theorem no_placeholder_partial (w : World) (cfg : PCfg) (env : UEnv) (v x : Val) (text : Str) (u u' : UState)
    (hc : Covered w cfg env v) (he : Encodes w cfg v text) (hd : Decodes env text u x u')
    (ps : List Access) (z : Val) (hz : walk id (filled (hasHandler w)) u'.heap x ps = some z) :
    placeholder u'.heap z = false := by
  obtain ⟨R, _, _, hv, hR⟩ := hc.graph he hd
  obtain ⟨y, _, hy⟩ := walk_back hR ps hv hz
  cases z <;> try rfl
  rename_i b
  cases y <;> simp only [VIso] at hy
  obtain ⟨o, o', _, h2, h3⟩ := hR _ _ hy
  simp only [placeholder, h2]
  cases o <;> cases o' <;> simp only [SameCell] at h3 <;> rfl

/-- Nothing is lost by looking only at the parts filled in from the document: every path of the original leads somewhere. -/
theorem paths_exist_partial (w : World) (cfg : PCfg) (env : UEnv) (v x : Val) (text : Str) (u u' : UState)
    (hc : Covered w cfg env v) (he : Encodes w cfg v text) (hd : Decodes env text u x u')
    (ps : List Access) (y : Val) (hy : walk (writeOrder cfg.keys) (saved (hasHandler w) w.heap) w.heap v ps = some y) :
    ∃ z, walk id anyPart u'.heap x ps = some z ∧ placeholder u'.heap z = false := by
  obtain ⟨R, _, _, hv, hR⟩ := hc.graph he hd
  obtain ⟨z, hz, hyz⟩ := walk_iso hR ps hv hy
  refine ⟨z, hz, ?_⟩
  cases z <;> try rfl
  cases y <;> simp only [VIso] at hyz
  obtain ⟨o, o', _, h2, h3⟩ := hR _ _ hyz
  simp only [placeholder, h2]
  cases o <;> cases o' <;> simp only [SameCell] at h3 <;> rfl

/-- In the sample graph, `x[1].x[13][1]` (through two cycles) is an object. -/
example (text : Str) (x : Val) (u' : UState) (he : Encodes (program.world graph) {} (.ref 0) text)
    (hd : Decodes program.env text {} x u') :
    ∃ z, walk id anyPart u'.heap x [.elem 1, .attr 0, .elem 13, .elem 1] = some z ∧ placeholder u'.heap z = false :=
  paths_exist_partial _ _ _ _ _ _ _ _ (covered false) he hd _ _ rfl

/-- such a text and result exist -/
example : ∃ text x u', Encodes (program.world graph) {} (.ref 0) text ∧ Decodes program.env text {} x u' :=
  (covered false).total {}

/-- the path `ps` into `decode(encode(v))` ends in a placeholder -/
def Leaks (p : Program) (h : Heap) (cfg : PCfg) (v : Val) (ps : List Access) : Prop :=
  ∃ x h' z, p.Trips h cfg v x h' ∧ walk id anyPart h' x ps = some z ∧ placeholder h' z = true

theorem leaks {p : Program} {h : Heap} {cfg : PCfg} (n : Nat) {v : Val} {ps : List Access}
    (ht : (p.trip h cfg n v).any (fun r => (walk id anyPart r.2 r.1 ps).any (placeholder r.2)) = true) : Leaks p h cfg v ps := by
  rw [Option.any_eq_true] at ht
  obtain ⟨⟨x, h'⟩, h1, h2⟩ := ht
  rw [Option.any_eq_true] at h2
  obtain ⟨z, h3, h4⟩ := h2
  exact ⟨x, h', z, Program.trips h1, h3, h4⟩

def infoOD : ClassInfo := { base := .dict, hasDict := false, reduces := true }
def prog : Program where
  infos := [(p!"m.OD", infoOD), (p!"m.N", { hasNewargs := true }), (p!"m.R", infoR), (p!"m.L", infoL), (p!"m.C", {}), (p!"m.D", { base := .dict })]
  funcs := [p!"m.f"]

/-- `d = OrderedDict(); d["a"] = d`: after the round trip `d["a"]` is a placeholder.  (The entries of an `OrderedDict` are the fifth
element of its reduce tuple, a tuple of pairs.) -/
theorem ordered_dict_self : Leaks prog [.inst { cls := p!"m.OD", info := infoOD, reduce := .tup [.type p!"m.OD", .tuple 1 [], .none, .none, .tuple 2 [.tuple 3 [.str p!"a", .ref 0]]] }]
    {} (.ref 0) [.recipe 4, .elem 0, .elem 1] :=
  leaks 20 (by decide +kernel)

/-- `r.__reduce__()` is `(f, (l,))` where `l` is an instance of a list subclass and `l[0] is r`: the rebuilt `l[0]` is a
placeholder. -/
theorem list_subclass_in_reduce : Leaks prog
    [.inst { cls := p!"m.R", info := infoR, reduce := .tup [.func p!"m.f", .tuple 1 [.ref 1]] },
      .inst { cls := p!"m.L", info := infoL, elems := [.ref 0] }]
    {} (.ref 0) [.recipe 1, .elem 0, .elem 0] :=
  leaks 20 (by decide +kernel)

/-- `r.__reduce__()` is `(f, (d,))` where `d` is an instance of a dict subclass and `d["b"] is r`: the rebuilt `d["b"]` is a placeholder … -/
theorem dict_subclass_in_reduce : Leaks prog
    [.inst { cls := p!"m.R", info := infoR, reduce := .tup [.func p!"m.f", .tuple 1 [.ref 1]] },
      .inst { cls := p!"m.D", info := { base := .dict }, items := [(.str p!"b", .ref 0)] }]
    {} (.ref 0) [.recipe 1, .elem 0, .entry 0] :=
  leaks 20 (by decide +kernel)

/-- … and the repair sets an attribute `d.b` instead, which the original does not have. -/
theorem attribute_instead : ((prog.trip
    [.inst { cls := p!"m.R", info := infoR, reduce := .tup [.func p!"m.f", .tuple 1 [.ref 1]] },
      .inst { cls := p!"m.D", info := { base := .dict }, items := [(.str p!"b", .ref 0)] }] {} 20 (.ref 0)).any
    (fun r => (walk id anyPart r.2 r.1 [.recipe 1, .elem 0, .attr 0]).any (fun z => z == r.1))) = true := by
  decide +kernel

/-- `r.__reduce__()` is `(f, ({"b": r},))`: with `keys=True` the rebuilt dict holds a placeholder … -/
theorem dict_in_reduce_keys : Leaks prog
    [.inst { cls := p!"m.R", info := infoR, reduce := .tup [.func p!"m.f", .tuple 1 [.ref 1]] }, .dict [(.str p!"b", .ref 0)]]
    { keys := true } (.ref 0) [.recipe 1, .elem 0, .entry 0] :=
  leaks 20 (by decide +kernel)

/-- … with `keys=False` it does not: here the placeholder is replaced at the end. -/
theorem dict_in_reduce : (prog.trip
    [.inst { cls := p!"m.R", info := infoR, reduce := .tup [.func p!"m.f", .tuple 1 [.ref 1]] }, .dict [(.str p!"b", .ref 0)]] {} 20 (.ref 0)).any
    (fun r => (walk id anyPart r.2 r.1 [.recipe 1, .elem 0, .entry 0]).any (fun z => !placeholder r.2 z)) = true := by
  decide +kernel

/-- `c.__getnewargs__()` is `(c,)`: `__new__` of the rebuilt object was given a placeholder, and nothing replaces it. -/
theorem newargs_self : ∃ x h' i p, prog.Trips [.inst { cls := p!"m.N", info := { hasNewargs := true }, newargs := .tuple 1 [.ref 0] }] {} (.ref 0) (.ref x) h' ∧
    h'[x]? = some (.inst i) ∧ i.newargs = .tuple 1 [.ref p] ∧ placeholder h' (.ref p) = true := by
  have ht : (prog.trip [.inst { cls := p!"m.N", info := { hasNewargs := true }, newargs := .tuple 1 [.ref 0] }] {} 20 (.ref 0)).any
      (fun r => match r.1 with
        | .ref x => (match r.2[x]? with
          | some (.inst i) => (match i.newargs with
            | .tuple 1 [.ref p] => placeholder r.2 (.ref p)
            | _ => false)
          | _ => false)
        | _ => false) = true := by decide +kernel
  rw [Option.any_eq_true] at ht
  obtain ⟨⟨y, h'⟩, h1, h2⟩ := ht
  simp only at h2
  split at h2
  · split at h2
    · next hc =>
      split at h2
      · next hn => exact ⟨_, _, _, _, Program.trips h1, hc, hn, h2⟩
      · cases h2
    · cases h2
  · cases h2

end JP.C27
