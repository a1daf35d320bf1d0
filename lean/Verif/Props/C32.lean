import Verif.Proofs.RoundTrip
import Verif.Proofs.Run
import Verif.SampleCovered
/-!
# C32 — the order of dict entries

With `keys=False` the entries of every dict come back in their order.  With `keys=True` they do not: the
entries with string keys come first (witness, and the theorem says that this is all that happens).
-/
namespace JP.C32
open JP Sample

theorem VIsos_keys {R : Addr → Addr → Prop} : ∀ {kvs kvs' : List (Val × Val)}, ItemsIso R kvs kvs' →
    kvs.length = kvs'.length ∧ ∀ (n : Nat) (s : Str), (kvs[n]?.map (·.1) = some (.str s) ↔ kvs'[n]?.map (·.1) = some (.str s))
  | [], [], _ => ⟨rfl, fun n s => by simp⟩
  | (k, v) :: xs, (k', v') :: ys, h => by
    obtain ⟨h1, h2⟩ := VIsos_keys (R := R) h.2
    refine ⟨by simp [h1], fun n s => ?_⟩
    cases n with
    | succ n => simpa using h2 n s
    | zero =>
      have := h.1.1
      simp only [List.getElem?_cons_zero, Option.map_some, Option.some.injEq]
      cases k <;> cases k' <;> simp_all [VIso]
  | [], _ :: _, h => h.elim
  | _ :: _, [], h => h.elim

/-- The dict found under a path has as many entries as the original, and each of its string keys is at the
position where the original has it, counted in the order of writing: the original order with `keys=False`, string
keys first with `keys=True`. -/
theorem order_partial (w : World) (cfg : PCfg) (env : UEnv) (v x : Val) (text : Str) (u u' : UState)
    (hc : Covered w cfg env v) (he : Encodes w cfg v text) (hd : Decodes env text u x u')
    (ps : List Access) (a : Addr) (kvs : List (Val × Val))
    (hp : walk (writeOrder cfg.keys) (saved (hasHandler w) w.heap) w.heap v ps = some (.ref a))
    (ha : w.heap[a]? = some (.dict kvs)) :
    ∃ b kvs', walk id anyPart u'.heap x ps = some (.ref b) ∧ u'.heap[b]? = some (.dict kvs') ∧
      kvs'.length = kvs.length ∧
      ∀ (n : Nat) (s : Str), (writeOrder cfg.keys kvs)[n]?.map (·.1) = some (.str s) ↔ kvs'[n]?.map (·.1) = some (.str s) := by
  obtain ⟨R, b, o', _, _, _, h1, h2, h3⟩ := (hc.graph he hd).cell hp ha
  cases o' <;> simp only [SameCell] at h3
  rename_i kvs'
  obtain ⟨h4, h5⟩ := VIsos_keys h3
  refine ⟨b, kvs', h1, h2, ?_, h5⟩
  rw [← h4]
  unfold writeOrder
  split
  · unfold stringsFirst
    have : ∀ (p : Val × Val → Bool) (l : List (Val × Val)), (l.filter p).length + (l.filter (fun x => !p x)).length = l.length := by
      intro p l
      induction l with
      | nil => rfl
      | cons x l ih => cases hx : p x <;> simp [List.filter_cons, hx] <;> omega
    rw [List.length_append]
    exact this _ _
  · rfl

/-- With `keys=False` the keys of every dict come back in the same order. -/
theorem order_kept_partial (w : World) (cfg : PCfg) (env : UEnv) (v x : Val) (text : Str) (u u' : UState)
    (hc : Covered w cfg env v) (hk : cfg.keys = false) (he : Encodes w cfg v text) (hd : Decodes env text u x u')
    (ps : List Access) (a : Addr) (kvs : List (Val × Val))
    (hp : walk id (saved (hasHandler w) w.heap) w.heap v ps = some (.ref a)) (ha : w.heap[a]? = some (.dict kvs))
    (hs : ∀ kv ∈ kvs, ∃ s, kv.1 = .str s) :
    ∃ b kvs', walk id anyPart u'.heap x ps = some (.ref b) ∧ u'.heap[b]? = some (.dict kvs') ∧
      kvs'.map (·.1) = kvs.map (·.1) := by
  have hw : writeOrder cfg.keys = id := by simp [writeOrder, hk]
  obtain ⟨b, kvs', h1, h2, h3, h4⟩ := order_partial w cfg env v x text u u' hc he hd ps a kvs (by rw [hw]; exact hp) ha
  refine ⟨b, kvs', h1, h2, List.ext_getElem? fun n => ?_⟩
  rw [hw] at h4
  by_cases hn : n < kvs.length
  · obtain ⟨s, hs⟩ := hs kvs[n] (List.getElem_mem hn)
    have : kvs[n]?.map (·.1) = some (.str s) := by rw [List.getElem?_eq_getElem hn]; simp [hs]
    rw [List.getElem?_map, List.getElem?_map, (h4 n s).1 this, this]
  · rw [List.getElem?_eq_none (by simp; omega), List.getElem?_eq_none (by simp; omega)]

/-- the dict `x[3]` of the sample graph -/
example (text : Str) (x : Val) (u' : UState) (he : Encodes (program.world graph) {} (.ref 0) text)
    (hd : Decodes program.env text {} x u') :
    ∃ b kvs', walk id anyPart u'.heap x [.elem 3] = some (.ref b) ∧ u'.heap[b]? = some (.dict kvs') ∧
      kvs'.map (·.1) = [.str p!"a", .str p!"b", .str p!"c"] :=
  order_kept_partial _ _ _ _ _ _ _ _ (covered false) rfl he hd [.elem 3] 2 _ rfl rfl (by simp)

/-- `decode(encode({1: 10, "a": 20}, keys=True), keys=True)` is `{"a": 20, 1: 10}`. -/
theorem keys_reorder : program.TripsTo [.dict [(.int 1, .int 10), (.str p!"a", .int 20)]] { keys := true } (.ref 0) (.ref 0)
    [.dict [(.str p!"a", .int 20), (.int 1, .int 10)]] :=
  Program.tripsTo 10 (by decide +kernel)

/-- With `keys=True` also string keys are reordered when one of them has to be escaped:
`{"py/b": 1, "json://x": 2, "a": 3}` comes back as `{"py/b": 1, "a": 3, "json://x": 2}`. -/
theorem escaped_reorder : program.TripsTo [.dict [(.str p!"py/b", .int 1), (.str p!"json://x", .int 2), (.str p!"a", .int 3)]] { keys := true }
    (.ref 0) (.ref 0) [.dict [(.str p!"py/b", .int 1), (.str p!"a", .int 3), (.str p!"json://x", .int 2)]] :=
  Program.tripsTo 10 (by decide +kernel)

end JP.C32
