import Verif.Api
import Verif.ApiSpec
import Verif.TreeSpec
import Verif.Proofs.PPlain
import Verif.Proofs.UPlain
import Verif.Proofs.UMono
import Verif.Props.C10
import Verif.Proofs.Run
/-!
# C06 — plain JSON data

Data made of `None`, bools, ints, floats, strings, lists and string-keyed dicts is written as itself, and JSON
without jsonpickle's tags is read as itself.
-/
namespace JP.C06
open JP PyM

/-- Data in which no list or dict occurs twice, and none of whose keys is a reserved name, is written as exactly the
JSON value that it looks like, with every combination of options.  With `keys=True` no key may start with `json://` (such keys are escaped), and a
`max_depth` must not be below the number of levels of the data (what happens then is `C13.cut_exactly`). -/
theorem encodes_itself (w : World) (cfg : PCfg) (v : Val) (j : Json) (ht : IsTree w.heap v j) (hd : j.Distinct)
    (hmax : ∀ d, cfg.maxDepth = some d → (j.depth : Int) ≤ d)
    (hk : ∀ k ∈ j.keys, k ∉ Tags.all) (hesc : cfg.keys = true → ∀ k ∈ j.keys, startsWith k p!"json://" = false) : Encodes w cfg v (w.dumps j) := by
  obtain ⟨as, hs, hn⟩ := ht
  have hkey : ∀ k ∈ j.keys, Pickler.KeyOk cfg k := by
    refine fun k hm => ⟨?_, fun h => hesc h k hm⟩
    rw [Bool.eq_false_iff]
    intro h
    exact hk k hm (List.mem_append_left _ (List.contains_iff_mem.1 h))
  obtain ⟨d, hl, hdep⟩ : ∃ d : Option Nat, Pickler.Levels cfg (-1) d ∧ ∀ m, d = some m → j.depth ≤ m := by
    cases hc : cfg.maxDepth with
    | none => exact ⟨none, hc, (fun _ h => by cases h)⟩
    | some M =>
      have := hmax M hc
      refine ⟨some M.toNat, ?_, fun m h => ?_⟩
      · unfold Pickler.Levels
        rw [hc]
        simp
        omega
      · injection h with h
        omega
  obtain ⟨s', h1, _⟩ := Pickler.writes_tree hl (j.depth + 1) (Pickler.spells_to w.repr hdep hs) hn hkey hd (Nat.le_refl _) {} rfl
    ⟨(fun _ _ h => by cases h), (fun _ h => by cases h)⟩
  refine ⟨j.depth + 1, s', fun m s hm => ?_⟩
  refine (bind_ok (a := j) (s' := s') ?_).trans rfl
  exact Pickler.flatten_mono hm h1

/-- A document without tags is read as exactly the data that it looks like, made of new lists and dicts, none of which occurs twice, with every
combination of options.  (With `keys=True` the document must have no key that starts with `json://`, see `json_key_not_itself`.) -/
theorem decodes_itself (env : UEnv) (text : Str) (j : Json) (hl : env.loads text = some j) (hd : j.Distinct) (hfree : ∀ k ∈ j.keys, k ∉ wireTags)
    (hesc : env.keys = true → ∀ k ∈ j.keys, startsWith k p!"json://" = false) (u : UState) :
    ∃ x u', Decodes env text u x u' ∧ IsTree u'.heap x j ∧ ∀ a < u.heap.length, u'.heap[a]? = u.heap[a]? := by
  obtain ⟨v, s, as, h1, k1, p1, n1⟩ := Unpickler.plainly_restore (env := env) j.depth j (Nat.le_refl _) hd hfree hesc { u with objs := [], idx := [], proxies := [] }
  have hp : s.proxies = [] := k1.proxies
  have hs : Unpickler.swapProxies s = some (.ok (), { s with proxies := [] }) := by
    unfold Unpickler.swapProxies
    rw [bind_ok (a := s) (s' := s) rfl, hp]
    rfl
  have ht : Unpickler.restoreTop env (j.depth + 1) j true u = some (.ok v, { s with proxies := [] }) := by
    simp only [Unpickler.restoreTop, if_true]
    rw [bind_ok (a := ()) (s' := { u with objs := [], idx := [], proxies := [] }) rfl, bind_ok h1, bind_ok hs]
    rfl
  refine ⟨v, { s with objs := [], idx := [], proxies := [] }, ⟨j.depth + 1, fun m hm => ?_⟩, ⟨as, p1, n1.1⟩, fun a ha => k1.old a ha⟩
  unfold Api.decode
  rw [hl]
  exact (bind_ok (Unpickler.restoreTop_mono hm ht)).trans rfl

/-- Both together, for the standard backend (`loads` inverts `dumps`, C41): plain data survives the round trip, whatever the options on either
side are. -/
theorem plain_round_trip (w : World) (cfg : PCfg) (env : UEnv) (v : Val) (j : Json) (hmax : ∀ d, cfg.maxDepth = some d → (j.depth : Int) ≤ d)
    (hl : env.loads (w.dumps j) = some j) (ht : IsTree w.heap v j) (hd : j.Distinct) (hfree : ∀ k ∈ j.keys, k ∉ Tags.all ∧ k ∉ wireTags)
    (hesc : cfg.keys = true ∨ env.keys = true → ∀ k ∈ j.keys, startsWith k p!"json://" = false) (u : UState) :
    ∃ text x u', Encodes w cfg v text ∧ Decodes env text u x u' ∧ IsTree u'.heap x j := by
  obtain ⟨x, u', h1, h2, _⟩ := decodes_itself env _ j hl hd (fun k h => (hfree k h).2) (fun h => hesc (.inr h)) u
  exact ⟨_, x, u', encodes_itself w cfg v j ht hd hmax (fun k h => (hfree k h).1) (fun h => hesc (.inl h)), h1, h2⟩

/-! ### examples -/

/-- `{"a": [1, {"b": None}], "c": "py/id"}` -/
def doc : Json := .obj [(p!"a", .arr [.int 1, .obj [(p!"b", .null)]]), (p!"c", .str p!"py/id")]

def heap : Heap := [.dict [(.str p!"a", .ref 1), (.str p!"c", .str p!"py/id")], .list [.int 1, .ref 2], .dict [(.str p!"b", .none)]]

example : IsTree heap (.ref 0) doc ∧ doc.Distinct ∧ (∀ k ∈ doc.keys, k ∉ Tags.all ∧ k ∉ wireTags ∧ startsWith k p!"json://" = false) := by
  refine ⟨⟨[0, 1, 2], ?_, by decide⟩, ?_, by decide⟩
  · refine ⟨0, _, [1, 2], rfl, rfl, ⟨_, _, [1, 2], [], rfl, ⟨1, _, [2], rfl, rfl, ⟨_, _, [], [2], rfl, ⟨rfl, rfl⟩, ⟨_, _, [2], [], rfl, ⟨2, _, [], rfl, rfl,
      ⟨_, _, [], [], rfl, ⟨rfl, rfl⟩, ⟨rfl, rfl⟩, rfl⟩, rfl⟩, ⟨rfl, rfl⟩, rfl⟩, rfl⟩, rfl⟩, ⟨_, _, [], [], rfl, ⟨rfl, rfl⟩, ⟨rfl, rfl⟩, rfl⟩, rfl⟩, rfl⟩
  · simp [doc, Json.Distinct, Json.DistinctKv, Json.DistinctL]

/-- The condition on sharing is needed: `x = []; [x, x]` is written with a reference. -/
theorem shared_not_itself : Sample.res (Pickler.flattenTop (Sample.world [.list [.ref 1, .ref 1], .list []]) {} 9 (.ref 0) true {}) = some (.ok (.arr [.arr [], .obj [(p!"py/id", .int 1)]])) := by
  decide +kernel

/-- With `keys=True` a key that starts with `json://` is not read as itself: `{"json://7": 2}` becomes `{7: 2}`. -/
theorem json_key_not_itself : (Sample.st (Unpickler.restoreTop { C10.env with keys := true, loads := fun _ => some (.int 7) } 9 (.obj [(p!"json://7", .int 2)]) true {})).map (fun s => s.heap.map Sample.view) =
    some [.dict [(.int 7, .int 2)]] := by
  decide +kernel

end JP.C06
