import Verif.Proofs.RoundTrip
import Verif.Proofs.Run
import Verif.SampleCovered
/-!
# C46 — without `__setstate__` the saved state becomes the attributes

For an instance whose class defines `__getstate__` but not `__setstate__`, and whose `__getstate__` returned a dict with string
keys: the rebuilt instance has exactly the entries of that dict as attributes, in the same order and with corresponding values;
the attributes that `__getstate__` left out are absent.  It has the same class and was made without `__init__`.

The theorem is about state dicts that no other object shares (`Keeps` in `Supported`); the state may refer to the whole graph,
also to the object itself.  For a state dict that is reachable otherwise the statement is false (`state_in_progress_lost`).
-/
namespace JP.C46
open JP Sample

/-- The object under the path `ps`, for which `__getstate__` returned the dict `d` with the entries `kvs`. -/
theorem state_becomes_attributes_partial (w : World) (cfg : PCfg) (env : UEnv) (v x : Val) (text : Str) (u u' : UState)
    (hc : Covered w cfg env v) (he : Encodes w cfg v text) (hd : Decodes env text u x u')
    (ps : List Access) (a d : Addr) (i : Inst) (kvs : List (Str × Val))
    (hp : walk (writeOrder cfg.keys) (saved (hasHandler w) w.heap) w.heap v ps = some (.ref a))
    (ha : w.heap[a]? = some (.inst i)) (hh : hasHandler w i.cls = false) (hr : i.info.reduces = false)
    (hst : i.info.hasSetstate = false) (hs : savedState w.heap i = some (.ref d))
    (hk : w.heap[d]? = some (.dict (kvs.map (fun kv => (.str kv.1, kv.2))))) :
    ∃ R : Addr → Addr → Prop, (∀ a b b', R a b → R a b' → b = b') ∧ (∀ a a' b, R a b → R a' b → a = a') ∧
      (∀ a b, R a b → ∃ o o', w.heap[a]? = some o ∧ u'.heap[b]? = some o' ∧
        SameCell (writeOrder cfg.keys) (hasHandler w) w.heap u'.heap R o o') ∧
      VIso R v x ∧
      ∃ b i', walk id anyPart u'.heap x ps = some (.ref b) ∧ u'.heap[b]? = some (.inst i') ∧ R a b ∧
        i'.cls = i.cls ∧ i'.viaCall = false ∧ FieldsIso R kvs i'.attrs ∧ i'.dictCell = none := by
  obtain ⟨R, f, g, hv, hR⟩ := hc.graph he hd
  refine ⟨R, f, g, hR, hv, ?_⟩
  obtain ⟨z, h1, h2⟩ := walk_iso hR ps hv hp
  cases z <;> simp only [VIso] at h2
  rename_i b
  obtain ⟨o1, o', e1, e2, e3⟩ := hR a b h2
  rw [ha] at e1
  cases e1
  cases o' <;> simp only [SameCell] at e3
  rename_i i'
  cases e3 with
  | handled q => rw [hh] at q; cases q
  | reduced _ q => rw [hr] at q; cases q
  | fields _ _ _ q => rw [hs] at q; cases q
  | state _ _ _ q => rw [hst] at q; cases q
  | stateAttrs _ _ q1 _ q2 q3 _ q4 q5 _ _ _ q6 =>
    rw [hs] at q2
    cases q2
    rw [hk] at q3
    simp only [Option.some.injEq, Obj.dict.injEq] at q3
    have := (List.map_inj_right (f := fun kv : Str × Val => (Val.str kv.1, kv.2)) (fun a b e => by
      simp only [Prod.mk.injEq, Val.str.injEq] at e
      exact Prod.ext e.1 e.2)).1 q3
    subst this
    exact ⟨b, i', h1, e2, h2, q1, q6.noInit, q4, q5⟩

/-- In the sample graph `a = x[18]` has an attribute `cache`, and `__getstate__` returned `{"root": x, "me": a, "n": 1}`.  After the
round trip these three are its attributes; `cache` is gone. -/
example (text : Str) (x : Val) (u' : UState) (he : Encodes (program.world graph) {} (.ref 0) text)
    (hd : Decodes program.env text {} x u') :
    ∃ r b i', x = .ref r ∧ walk id anyPart u'.heap x [.elem 18] = some (.ref b) ∧ u'.heap[b]? = some (.inst i') ∧
      i'.attrs = [(p!"root", .ref r), (p!"me", .ref b), (p!"n", .int 1)] := by
  obtain ⟨R, f, g, hR, hv, b, i', h1, h2, h3, h4, h5, h6, h7⟩ := state_becomes_attributes_partial _ _ _ _ _ _ _ _ (covered false) he hd
    [.elem 18] 12 13 _ [(p!"root", .ref 0), (p!"me", .ref 12), (p!"n", .int 1)] rfl rfl rfl rfl rfl rfl rfl
  cases x <;> simp only [VIso] at hv
  rename_i r
  refine ⟨r, b, i', rfl, h1, h2, ?_⟩
  match i'.attrs, h6 with
  | [(k1, .ref v1), (k2, .ref v2), (k3, .int v3)], h6 =>
    obtain ⟨⟨e1, f1⟩, ⟨e2, f2⟩, ⟨e3, f3⟩, -⟩ := h6
    have e1 : _ = k1 := e1
    have e2 : _ = k2 := e2
    have e3 : _ = k3 := e3
    have f3 : 1 = v3 := f3
    rw [← e1, ← e2, ← e3, ← f3, f _ _ _ f1 hv, f _ _ _ f2 h3]

/-! ### state dicts that are shared -/

def prog : Program where
  infos := [(p!"m.A", infoA)]

/-- the attributes of the object under a path -/
def attrsAt (r : Val × Heap) (ps : List Access) : Option (List (Str × Val)) :=
  match walk id anyPart r.2 r.1 ps with
  | some (.ref b) => match r.2[b]? with
    | some (.inst i) => some i.attrs
    | _ => none
  | _ => none

theorem attrs_of {p : Program} {h : Heap} {cfg : PCfg} (n : Nat) {v : Val} {ps : List Access} {kvs : List (Str × Val)}
    (ht : (p.trip h cfg n v).any (fun r => attrsAt r ps == some kvs) = true) :
    ∃ x h', p.Trips h cfg v x h' ∧ attrsAt (x, h') ps = some kvs := by
  rw [Option.any_eq_true] at ht
  obtain ⟨⟨x, h'⟩, h1, h2⟩ := ht
  exact ⟨x, h', Program.trips h1, by simpa using h2⟩

/-- `d = {"a": a, "n": 1}` and `a.__getstate__()` is `d`: when the decoder builds `a` the dict is still empty, and
`decode(encode(d))["a"]` has no attributes. -/
theorem state_in_progress_lost : ∃ x h', prog.Trips [.dict [(.str p!"a", .ref 1), (.str p!"n", .int 1)],
      .inst { cls := p!"m.A", info := infoA, state := .ok (.ref 0) }]
    {} (.ref 0) x h' ∧ attrsAt (x, h') [.entry 0] = some [] :=
  attrs_of 20 (by decide +kernel)

/-- With the entries in the other order there is one. -/
theorem state_in_progress_half : ∃ x h', prog.Trips [.dict [(.str p!"n", .int 1), (.str p!"a", .ref 1)],
      .inst { cls := p!"m.A", info := infoA, state := .ok (.ref 0) }]
    {} (.ref 0) x h' ∧ attrsAt (x, h') [.entry 1] = some [(p!"n", .int 1)] :=
  attrs_of 20 (by decide +kernel)

/-! ### states that are not dicts -/

/-- `__getstate__` returns the list `[7]`.  The first occurrence of the object in `[a, a]` becomes the state; the second becomes an instance
without attributes. -/
theorem list_state_replaces : prog.TripsTo [.list [.ref 1, .ref 1], .inst { cls := p!"m.A", info := infoA, state := .ok (.ref 2) }, .list [.int 7]]
    {} (.ref 0) (.ref 0) [.list [.ref 3, .ref 2], .proxy, .inst p!"m.A" [] [] [], .list [.int 7]] :=
  Program.tripsTo 20 (by decide +kernel)

end JP.C46
