import Verif.Proofs.RoundTrip
import Verif.Proofs.Run
import Verif.SampleCovered
/-!
# C02 — `keys=True` round-trips dictionary keys

For keys made of scalars, bytes, classes, functions and tuples of these, every entry comes back with an equal key and an
isomorphic value, and no entry is lost or merged.  For keys with identity the property is false: the JSON
texts of two keys can coincide (`instance_keys_merge`).
-/
namespace JP.C02
open JP Sample

theorem items_get {R : Addr → Addr → Prop} {kvs kvs' : List (Val × Val)} (h : ItemsIso R kvs kvs') (n : Nat) (k y : Val)
    (hn : kvs[n]? = some (k, y)) : ∃ k' y', kvs'[n]? = some (k', y') ∧ VIso R k k' ∧ VIso R y y' := by
  obtain ⟨kv, h1, h2⟩ := All2.get h hn
  exact ⟨kv.1, kv.2, h1, h2⟩

theorem items_length {R : Addr → Addr → Prop} : ∀ {kvs kvs' : List (Val × Val)}, ItemsIso R kvs kvs' → kvs.length = kvs'.length
  | [], [], _ => rfl
  | _ :: _, _ :: _, h => by simp [items_length h.2]
  | [], _ :: _, h => h.elim
  | _ :: _, [], h => h.elim

theorem stringsFirst_perm (kvs : List (Val × Val)) : (stringsFirst kvs).Perm kvs := by
  unfold stringsFirst
  exact List.filter_append_perm _ _

/-- Every entry of the dict under a path has its counterpart in the decoded dict, which has no other entries: `stringsFirst` is
a permutation of the entries (`stringsFirst_perm`).  Missing from the full property: keys that are or contain instances. -/
theorem keys_roundtrip_partial (w : World) (cfg : PCfg) (env : UEnv) (v x : Val) (text : Str) (u u' : UState)
    (hc : Covered w cfg env v) (hk : cfg.keys = true) (he : Encodes w cfg v text) (hd : Decodes env text u x u')
    (ps : List Access) (a : Addr) (kvs : List (Val × Val))
    (hp : walk stringsFirst (saved (hasHandler w) w.heap) w.heap v ps = some (.ref a))
    (ha : w.heap[a]? = some (.dict kvs)) :
    ∃ R : Addr → Addr → Prop, (∀ a b b', R a b → R a b' → b = b') ∧ (∀ a a' b, R a b → R a' b → a = a') ∧
      (∀ a b, R a b → ∃ o o', w.heap[a]? = some o ∧ u'.heap[b]? = some o' ∧
        SameCell stringsFirst (hasHandler w) w.heap u'.heap R o o') ∧
      VIso R v x ∧
      ∃ b kvs', walk id anyPart u'.heap x ps = some (.ref b) ∧ u'.heap[b]? = some (.dict kvs') ∧ R a b ∧
        kvs'.length = kvs.length ∧
        ∀ (n : Nat) k y, (stringsFirst kvs)[n]? = some (k, y) → ∃ k' y', kvs'[n]? = some (k', y') ∧ VIso R k k' ∧ VIso R y y' := by
  have hg := hc.graph he hd
  have hw : writeOrder cfg.keys = stringsFirst := by simp [writeOrder, hk]
  rw [hw] at hg
  obtain ⟨R, f, g, hv, hR⟩ := hg
  refine ⟨R, f, g, hR, hv, ?_⟩
  obtain ⟨z, h1, h2⟩ := walk_iso hR ps hv hp
  cases z <;> simp only [VIso] at h2
  rename_i b
  obtain ⟨o1, o', e1, e2, e3⟩ := hR a b h2
  rw [ha] at e1
  cases e1
  cases o' <;> simp only [SameCell] at e3
  rename_i kvs'
  refine ⟨b, kvs', h1, e2, h2, ?_, items_get e3⟩
  rw [← items_length e3, (stringsFirst_perm kvs).length_eq]

/-- a dict with keys of all these kinds, one of whose values is the dict itself: nine entries come back, the second of them with
the key `None` -/
example (text : Str) (x : Val) (u' : UState) (he : Encodes (program.world keyed) { keys := true } (.ref 0) text)
    (hd : Decodes (program.env true) text {} x u') :
    ∃ b kvs', x = .ref b ∧ u'.heap[b]? = some (.dict kvs') ∧ kvs'.length = 9 ∧ kvs'[1]? = some (.none, .ref b) := by
  obtain ⟨R, f, g, hR, hv, b, kvs', h1, h2, h3, h4, h5⟩ := keys_roundtrip_partial _ _ _ _ _ _ _ _ keyed_covered rfl he hd
    [] 0 _ rfl rfl
  cases h1
  obtain ⟨k', y', e1, e2, e3⟩ := h5 1 .none (.ref 0) rfl
  refine ⟨b, kvs', rfl, h2, h4, ?_⟩
  cases k' <;> simp only [VIso] at e2
  cases y' <;> simp only [VIso] at e3
  rw [e1, f _ _ _ e3 h3]

/-- such a text and result exist -/
example : ∃ text x u', Encodes (program.world keyed) { keys := true } (.ref 0) text ∧ Decodes (program.env true) text {} x u' :=
  keyed_covered.total {}

/-- `{C(): 1, C(): 2}` comes back with a single entry: both keys have the text `json://{"py/object": "m.C"}`. -/
theorem instance_keys_merge : program.TripsTo
    [.dict [(.ref 1, .int 1), (.ref 2, .int 2)], .inst { cls := p!"m.C" }, .inst { cls := p!"m.C" }] { keys := true } (.ref 0) (.ref 0)
    [.dict [(.ref 2, .int 2)], .proxy, .inst p!"m.C" [] [] []] :=
  Program.tripsTo 20 (by decide +kernel)

/-- A single instance key that is also used as a value, and inside another key, is fine: `{c: c, (c,): 2}`. -/
theorem shared_instance_key : program.TripsTo
    [.dict [(.ref 1, .ref 1), (.tuple 1 [.ref 1], .int 2)], .inst { cls := p!"m.C" }] { keys := true } (.ref 0) (.ref 0)
    [.dict [(.ref 2, .ref 2), (.tuple 1 [.ref 2], .int 2)], .proxy, .inst p!"m.C" [] [] []] :=
  Program.tripsTo 20 (by decide +kernel)

end JP.C02
