import Verif.Props.C02
import Verif.Proofs.SimDict
/-!
# C03 — string keys that collide with the notation, `keys=True`

A string key that equals a reserved tag or starts with `json://` is written as `json://` followed by its own
JSON text, and is read back as the same string.  When such keys come after the other string keys of their dict, the dict
comes back with the same keys and the right values, whatever is shared.  Otherwise the property is false: the encoder writes
the entries with string keys in one pass, the decoder reads the escaped ones in a second pass, so the two
sides number the objects differently (`alias_damaged`, `placeholder_left`).
-/
namespace JP.C03
open JP Sample

/-- Reading the escaped form of any string gives the string, and nothing else happens. -/
theorem escaped_key_read_back (w : World) (cfg : PCfg) (env : UEnv) (s : Str) (u : UState) (n : Nat)
    (hm : Matching w cfg env) (hs : StrOk s) :
    Unpickler.restorePickledKey env (Unpickler.restore env (n + 1)) (p!"json://" ++ w.dumps (.str s)) u = some (.ok (.str s), u) := by
  unfold Unpickler.restorePickledKey
  rw [if_pos (by simp [Unpickler.isJsonKey, startsWith, Tags.JSON_KEY])]
  have : (p!"json://" ++ w.dumps (.str s)).drop Tags.JSON_KEY.length = w.dumps (.str s) := rfl
  rw [this, hm.loads (.str s) hs]
  rfl

/-- The escaped forms of different strings are different, and none of them is a tag. -/
theorem escaped_key_injective (w : World) (cfg : PCfg) (env : UEnv) (s t : Str) (hm : Matching w cfg env) (hs : StrOk s)
    (ht : StrOk t) (h : p!"json://" ++ w.dumps (.str s) = p!"json://" ++ w.dumps (.str t)) : s = t := by
  have := Sim.dumps_inj hm (j := .str s) (j' := .str t) hs ht (List.append_cancel_left h)
  injection this

theorem escaped_key_not_tag (w : World) (s : Str) : p!"json://" ++ w.dumps (.str s) ∉ Tags.all :=
  Sim.jsonKey_not_tag (Sim.encKey_isJsonKey (w := w) (cfg := {}) (.str s))

/-- the encoder's escaped form of `"json://x"` in a sample environment -/
example : Unpickler.restorePickledKey (program.env true) (Unpickler.restore (program.env true) 1)
    (p!"json://" ++ (program.world []).dumps (.str p!"json://x")) {} = some (.ok (.str p!"json://x"), {}) :=
  escaped_key_read_back _ { keys := true } _ _ _ _ (program.matching [] { keys := true } rfl rfl rfl) (strOk_of_ascii (by decide))

/-- The dict found under a path comes back with the same string keys, colliding or not, each with the value it had; `R`
is the correspondence of the objects of the two graphs, one-to-one, so whatever was the same object is the same object.
Missing from the full property: dicts where an escaped key comes before another string key (part of `Covered`, see
`EscapedLast`), for which it is false. -/
theorem colliding_keys_partial (w : World) (cfg : PCfg) (env : UEnv) (v x : Val) (text : Str) (u u' : UState)
    (hc : Covered w cfg env v) (hk : cfg.keys = true) (he : Encodes w cfg v text) (hd : Decodes env text u x u')
    (ps : List Access) (a : Addr) (kvs : List (Val × Val))
    (hp : walk stringsFirst (saved (hasHandler w) w.heap) w.heap v ps = some (.ref a))
    (ha : w.heap[a]? = some (.dict kvs)) :
    ∃ R : Addr → Addr → Prop, (∀ a b b', R a b → R a b' → b = b') ∧ (∀ a a' b, R a b → R a' b → a = a') ∧
      (∀ a b, R a b → ∃ o o', w.heap[a]? = some o ∧ u'.heap[b]? = some o' ∧
        SameCell stringsFirst (hasHandler w) w.heap u'.heap R o o') ∧
      VIso R v x ∧
      ∃ b kvs', walk id anyPart u'.heap x ps = some (.ref b) ∧ u'.heap[b]? = some (.dict kvs') ∧ R a b ∧
        kvs'.length = kvs.length ∧
        (∀ s y, (Val.str s, y) ∈ kvs → ∃ y', (Val.str s, y') ∈ kvs' ∧ VIso R y y') ∧
        (∀ s y', (Val.str s, y') ∈ kvs' → ∃ y, (Val.str s, y) ∈ kvs ∧ VIso R y y') := by
  obtain ⟨R, f, g, hR, hv, b, kvs', h1, h2, h3, h4, h5⟩ := C02.keys_roundtrip_partial w cfg env v x text u u' hc hk he hd ps a kvs hp ha
  have hperm := C02.stringsFirst_perm kvs
  refine ⟨R, f, g, hR, hv, b, kvs', h1, h2, h3, h4, fun s y hy => ?_, fun s y' hy' => ?_⟩
  · obtain ⟨n, hn⟩ := List.getElem?_of_mem (hperm.mem_iff.2 hy)
    obtain ⟨k', y', e1, e2, e3⟩ := h5 n _ _ hn
    cases k' <;> simp only [VIso] at e2
    subst e2
    exact ⟨y', List.mem_of_getElem? e1, e3⟩
  · obtain ⟨n, hn⟩ := List.getElem?_of_mem hy'
    have hlt : n < (stringsFirst kvs).length := by
      rw [hperm.length_eq, ← h4]
      exact (List.getElem?_eq_some_iff.1 hn).1
    obtain ⟨⟨k, y⟩, hget⟩ : ∃ kv, (stringsFirst kvs)[n]? = some kv := ⟨_, List.getElem?_eq_getElem hlt⟩
    obtain ⟨k', y2, e1, e2, e3⟩ := h5 n _ _ hget
    rw [hn] at e1
    cases e1
    cases k <;> simp only [VIso] at e2
    subst e2
    exact ⟨_, hperm.mem_iff.1 (List.mem_of_getElem? hget), e3⟩

/-- `{"a": l, 5: d, "py/object": l, "json://x": [], "py/id": d}`: the key `"py/id"` comes back with the dict itself, and the
keys `"a"` and `"py/object"` with one and the same list -/
example (text : Str) (x : Val) (u' : UState) (he : Encodes (program.world colliding) { keys := true } (.ref 0) text)
    (hd : Decodes (program.env true) text {} x u') :
    ∃ b kvs' c, x = .ref b ∧ u'.heap[b]? = some (.dict kvs') ∧ (Val.str p!"py/id", Val.ref b) ∈ kvs' ∧
      (Val.str p!"a", Val.ref c) ∈ kvs' ∧ (Val.str p!"py/object", Val.ref c) ∈ kvs' := by
  obtain ⟨R, f, g, hR, hv, b, kvs', h1, h2, h3, h4, h5, _⟩ := colliding_keys_partial _ _ _ _ _ _ _ _ colliding_covered rfl he hd
    [] 0 _ rfl rfl
  cases h1
  obtain ⟨y1, e1, i1⟩ := h5 p!"py/id" (.ref 0) (by simp)
  obtain ⟨y2, e2, i2⟩ := h5 p!"a" (.ref 1) (by simp)
  obtain ⟨y3, e3, i3⟩ := h5 p!"py/object" (.ref 1) (by simp)
  cases y1 <;> simp only [VIso] at i1
  cases y2 <;> simp only [VIso] at i2
  cases y3 <;> simp only [VIso] at i3
  rw [f _ _ _ i1 h3] at e1
  rw [f _ _ _ i3 i2] at e3
  exact ⟨b, kvs', _, rfl, h2, e1, e2, e3⟩

/-- such a text and result exist -/
example : ∃ text x u', Encodes (program.world colliding) { keys := true } (.ref 0) text ∧ Decodes (program.env true) text {} x u' :=
  colliding_covered.total {}

/-- `{"json://x": A, "b": B, "c": A}` with `A = []` and `B = [1]`: afterwards `"c"` has the value of `"b"`. -/
theorem alias_damaged : program.TripsTo
    [.dict [(.str p!"json://x", .ref 1), (.str p!"b", .ref 2), (.str p!"c", .ref 1)], .list [], .list [.int 1]] { keys := true } (.ref 0) (.ref 0)
    [.dict [(.str p!"b", .ref 1), (.str p!"c", .ref 1), (.str p!"json://x", .ref 2)], .list [.int 1], .list []] :=
  Program.tripsTo 20 (by decide +kernel)

/-- `{"json://x": A, "c": A}`: the value of `"c"` is a reference to an object that the decoder has not read yet, and
the placeholder stays in the result. -/
theorem placeholder_left : program.TripsTo
    [.dict [(.str p!"json://x", .ref 1), (.str p!"c", .ref 1)], .list []] { keys := true } (.ref 0) (.ref 0)
    [.dict [(.str p!"c", .ref 1), (.str p!"json://x", .ref 2)], .proxy, .list []] :=
  Program.tripsTo 20 (by decide +kernel)

end JP.C03
