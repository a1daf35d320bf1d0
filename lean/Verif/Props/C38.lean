import Verif.Api
import Verif.ApiSpec
import Verif.Sample
import Verif.Proofs.UDenote
import Verif.Proofs.UResolve
import Verif.Proofs.UFresh
import Verif.Proofs.UHeldSwap
import Verif.Proofs.UMono
import Verif.Proofs.Run
import Verif.Props.C10
/-!
# C38 — references to objects that come later, or never
-/
namespace JP.C38
open JP PyM Unpickler

/-- Documents made of scalars, lists, dicts and references (with any number ≥ 0, or a payload that is no number) are
decoded to what they denote: a reference becomes the list or dict with that number — also when that begins later in the
document — and `None` if there is none.  The table that resolves the references consists of the objects that the lists
and dicts of the document became, in document order. -/
theorem resolved_partial (env : UEnv) (hk : env.keys = false) (j : Json) (hr : j.RefDoc)
    (hroot : ∀ kvs t, j = .obj kvs → tagOf kvs ≠ some t) (u : UState) : ∃ x u' table,
    (∀ m, j.depth + 1 ≤ m → restoreTop env m j true u = some (.ok x, u')) ∧
    Denotes table u'.heap x j ∧ All2 (Denotes table u'.heap) table (j.containers env.v1) := by
  obtain ⟨x, u', table, h1, h2, h3⟩ := restoreTop_denotes hk j hr hroot u
  exact ⟨x, u', table, fun m hm => restoreTop_mono hm h1, h2, h3⟩

/-- The same for texts. -/
theorem decode_resolved_partial (env : UEnv) (hk : env.keys = false) (text : Str) (j : Json) (hl : env.loads text = some j) (hr : j.RefDoc)
    (hroot : ∀ kvs t, j = .obj kvs → tagOf kvs ≠ some t) (u : UState) : ∃ x u' table, Decodes env text u x u' ∧
    Denotes table u'.heap x j ∧ All2 (Denotes table u'.heap) table (j.containers env.v1) := by
  obtain ⟨x, u', table, h1, h2, h3⟩ := resolved_partial env hk j hr hroot u
  refine ⟨x, { u' with objs := [], idx := [], proxies := [] }, table, ⟨j.depth + 1, fun m hm => ?_⟩, h2, h3⟩
  unfold Api.decode
  rw [hl]
  exact (bind_ok (h1 m hm)).trans rfl

/-- `v` is a placeholder object of the decoder -/
def Placeholder (h : Heap) (v : Val) : Prop := ∃ a : Addr, v = .ref a ∧ ((∃ t, h[a]? = some (.proxy t)) ∨ ∃ i, h[a]? = some (.idproxy i))

theorem placeholder_iff {h : Heap} {v : Val} : Placeholder h v ↔ ∃ p, proxyAddr h v = some p := by
  constructor
  · rintro ⟨a, rfl, ⟨t, h⟩ | ⟨t, h⟩⟩ <;> exact ⟨a, by simp only [proxyAddr, h]⟩
  · rintro ⟨p, hp⟩
    cases v with
    | ref a =>
      simp only [proxyAddr] at hp
      cases hc : h[a]? with
      | none => rw [hc] at hp; cases hp
      | some o =>
        rw [hc] at hp
        cases o with
        | proxy t => exact ⟨a, rfl, .inl ⟨t, hc⟩⟩
        | idproxy i => exact ⟨a, rfl, .inr ⟨i, hc⟩⟩
        | _ => cases hp
    | _ => cases hp

/-- In documents with tuples, sets, iterators and byte strings as well, whatever their payloads: when decoding is finished, no
list and no dict that was made holds a placeholder. -/
theorem no_placeholder_partial (env : UEnv) (g : env.Globals) (hk : env.keys = false) (n : Nat) (j : Json) (ht : j.Tolerated) (hn : j.depth ≤ n) (u u' : UState) (r : Except Exc Val)
    (h : restoreTop env (n + 1) j true u = some (r, u')) (a : Addr) (ha : u.heap.length ≤ a) :
    (∀ vs, u'.heap[a]? = some (.list vs) → ∀ v ∈ vs, ¬ Placeholder u'.heap v) ∧
    (∀ es, u'.heap[a]? = some (.dict es) → ∀ k v, (k, v) ∈ es → ¬ Placeholder u'.heap v) := by
  rw [restoreTop_lift g] at h
  obtain ⟨⟨r0, s⟩, h0, h1⟩ := Option.map_eq_some_iff.1 h
  cases h1
  have hl := restoreTop_listed hk n j ⟨ht, (fun h => by rw [hk] at h; cases h), hn⟩ h0
  obtain ⟨b, rfl⟩ : ∃ b : Nat, a = (before u).addr b := ⟨a - u.heap.length, (Nat.sub_add_cancel ha).symm⟩
  have hno : ∀ v, proxyAddr s.heap v = none → ¬ Placeholder ((before u).lift s).heap ((before u).v v) := by
    intro v hv hp
    obtain ⟨p, hp⟩ := placeholder_iff.1 hp
    have : proxyAddr ((before u).h s.heap) ((before u).v v) = some p := hp
    rw [Old.proxyAddr_lift, hv] at this
    cases this
  constructor
  · intro vs hvs v hv
    have hvs : ((before u).h s.heap)[(before u).addr b]? = some (.list vs) := hvs
    rw [Old.h_get] at hvs
    cases hc : s.heap[b]? with
    | none => rw [hc] at hvs; cases hvs
    | some o =>
      rw [hc] at hvs
      cases o <;> cases hvs
      rw [shifts_eq_map] at hv
      obtain ⟨w, hw, rfl⟩ := List.mem_map.1 hv
      refine hno w ?_
      obtain ⟨i, hi⟩ := List.mem_iff_getElem?.1 hw
      cases hp : proxyAddr s.heap w with
      | none => rfl
      | some p => cases (hl.list b _ hc i w hi).2 p hp
  · intro vs hvs k v hv
    have hvs : ((before u).h s.heap)[(before u).addr b]? = some (.dict vs) := hvs
    rw [Old.h_get] at hvs
    cases hc : s.heap[b]? with
    | none => rw [hc] at hvs; cases hvs
    | some o =>
      rw [hc] at hvs
      cases o <;> cases hvs
      obtain ⟨⟨l, w⟩, hw, he⟩ := List.mem_map.1 hv
      cases he
      refine hno w ?_
      cases hp : proxyAddr s.heap w with
      | none => rfl
      | some p => cases (hl.dict b _ hc l w hw).2.2 p hp

/-- the placeholder of an object that was not made in the end: nothing was put in its place -/
def GivenUp (h : Heap) (v : Val) : Prop := ∃ a : Addr, v = .ref a ∧ h[a]? = some (.proxy none)

/-- Whatever the document contains - objects of any class, reduce values, states, references that go round in circles: when decoding has succeeded, no list that was
made holds a placeholder, no dict does, and no attribute of an object does, unless it is the placeholder of an object that was given up (`forward_given_up`).
Attributes are those of objects that are not dicts themselves; not the default factory, and not names of the form `_C__x`, which the class `C` uses for
attributes called `__x`. -/
theorem held_partial (env : UEnv) (g : env.Globals) (hk : env.keys = false) (n : Nat) (j : Json) (u u' : UState) (x : Val)
    (h : restoreTop env n j true u = some (.ok x, u')) (a : Addr) (ha : u.heap.length ≤ a) :
    (∀ vs, u'.heap[a]? = some (.list vs) → ∀ v ∈ vs, Placeholder u'.heap v → GivenUp u'.heap v) ∧
    (∀ es, u'.heap[a]? = some (.dict es) → ∀ k v, (k, v) ∈ es → Placeholder u'.heap v → GivenUp u'.heap v) ∧
    (∀ i, u'.heap[a]? = some (.inst i) → i.info.base ≠ .dict → ∀ k v, dget k i.attrs = some v → k ≠ p!"default_factory" →
      (∀ t, k ≠ p!"_" ++ i.info.shortName ++ (p!"__" ++ t)) → Placeholder u'.heap v → GivenUp u'.heap v) := by
  rw [restoreTop_lift g] at h
  obtain ⟨⟨r0, s⟩, h0, h1⟩ := Option.map_eq_some_iff.1 h
  cases r0 with
  | error e => cases h1
  | ok y =>
  cases h1
  have hl := Held.restoreTop_held g hk n j h0
  obtain ⟨b, rfl⟩ : ∃ b : Nat, a = (before u).addr b := ⟨a - u.heap.length, (Nat.sub_add_cancel ha).symm⟩
  have hset : ∀ v, Held.Settled s.heap v → Placeholder ((before u).lift s).heap ((before u).v v) → GivenUp ((before u).lift s).heap ((before u).v v) := by
    intro v hv hp
    obtain ⟨p, hp⟩ := placeholder_iff.1 hp
    have hp : proxyAddr ((before u).h s.heap) ((before u).v v) = some p := hp
    rw [Old.proxyAddr_lift] at hp
    cases hq : proxyAddr s.heap v with
    | none => rw [hq] at hp; cases hp
    | some q =>
      have e : v = .ref q := by
        cases v with
        | ref c =>
          simp only [proxyAddr] at hq
          split at hq <;> cases hq <;> rfl
        | _ => cases hq
      subst e
      refine ⟨(before u).addr q, rfl, ?_⟩
      show ((before u).h s.heap)[(before u).addr q]? = some (.proxy none)
      rw [Old.h_get, hv q hq]
      rfl
  have hent : ∀ {c : Addr} {sl : Slot} {v : Val}, Held.Entry Held.Settled s.heap [] c sl v → Held.Settled s.heap v := fun e =>
    e.2.elim id (fun f p hp => by cases f p hp)
  refine ⟨fun vs hvs v hv => ?_, fun vs hvs k v hv => ?_, fun i hi hb k v hv hdf hmg => ?_⟩
  · have hvs : ((before u).h s.heap)[(before u).addr b]? = some (.list vs) := hvs
    rw [Old.h_get] at hvs
    cases hc : s.heap[b]? with
    | none => rw [hc] at hvs; cases hvs
    | some o =>
      rw [hc] at hvs
      cases o <;> cases hvs
      rw [shifts_eq_map] at hv
      obtain ⟨w, hw, rfl⟩ := List.mem_map.1 hv
      obtain ⟨m, hm⟩ := List.mem_iff_getElem?.1 hw
      exact hset w (hent (hl b _ hc m w hm))
  · have hvs : ((before u).h s.heap)[(before u).addr b]? = some (.dict vs) := hvs
    rw [Old.h_get] at hvs
    cases hc : s.heap[b]? with
    | none => rw [hc] at hvs; cases hvs
    | some o =>
      rw [hc] at hvs
      cases o <;> cases hvs
      obtain ⟨⟨l, w⟩, hw, he⟩ := List.mem_map.1 hv
      cases he
      exact hset w (hent ((hl b _ hc).1 l w hw).2)
  · have hi : ((before u).h s.heap)[(before u).addr b]? = some (.inst i) := hi
    rw [Old.h_get] at hi
    cases hc : s.heap[b]? with
    | none => rw [hc] at hi; cases hi
    | some o =>
      rw [hc] at hi
      cases o with
      | inst i0 =>
        cases hi
        have hv : dget k (i0.attrs.map (shiftField _ _)) = some v := hv
        rw [dget_shift] at hv
        obtain ⟨w, hw, rfl⟩ := Option.map_eq_some_iff.1 hv
        rcases ((hl b _ hc).2.2.2 hb).2 k w hw with (e | ⟨t, e⟩) | e
        · exact absurd e hdf
        · exact absurd e (hmg t)
        · exact hset w (hent e)
      | _ => cases hi

/-! ### examples -/

def ref (n : Int) : Json := .obj [(p!"py/id", .int n)]

/-- `[{"py/id": 2}, {"a": [], "b": {"py/id": 9}}, {"py/id": "x"}, {"py/id": true}]` -/
def doc : Json := .arr [ref 2, .obj [(p!"a", .arr []), (p!"b", ref 9)], .obj [(p!"py/id", .str p!"x")], .obj [(p!"py/id", .bool true)]]

theorem refDoc_ref (n : Nat) : (ref n).RefDoc := by
  have : tagOf [(p!"py/id", Json.int n)] = some (p!"py/id", .int n) := rfl
  simp [ref, Json.RefDoc, this]

theorem doc_refDoc : doc.RefDoc := by
  simp [doc, ref, Json.RefDoc, Json.RefDocL, Json.RefDocKv, tagOf, wireTags, dget, List.findSome?]

/-- the forward reference becomes the empty list that begins later, the dangling one and the malformed one `None`,
and `true` counts as 1: the dict -/
example : (Sample.st (restoreTop C10.env 9 doc true {})).map (fun s => s.heap.map Sample.view) =
    some [.list [.ref 3, .ref 2, .none, .ref 2], .proxy, .dict [(.str p!"a", .ref 3), (.str p!"b", .none)], .list [], .proxy] := by decide +kernel

/-- What is missing: inside a tuple (or a set) a forward reference is not resolved; the placeholder stays. -/
theorem tuple_leaks : (Sample.st (restoreTop C10.env 9 (.arr [.obj [(p!"py/tuple", .arr [ref 1])], .arr []]) true {})).map (fun s => s.heap.map Sample.view) =
    some [.list [.tuple 1 [.ref 1], .ref 2], .proxy, .list []] := by decide +kernel

/-- With `keys=True` the values of plain keys are not resolved. -/
theorem keys_leaks : (Sample.st (restoreTop { C10.env with keys := true } 9 (.arr [.obj [(p!"a", ref 2)], .arr []]) true {})).map (fun s => s.heap.map Sample.view) =
    some [.list [.ref 1, .ref 3], .dict [(.str p!"a", .ref 2)], .proxy, .list []] := by decide +kernel

/-- A document that is only a reference gives the placeholder itself. -/
theorem root_leaks : Sample.res (restoreTop C10.env 9 (ref 0) true {}) = some (.ok (.ref 0)) ∧
    (Sample.st (restoreTop C10.env 9 (ref 0) true {})).map (fun s => s.heap.map Sample.view) = some [.proxy] := by decide +kernel

/-- A negative number counts from the end of the objects known at that moment: twice `{"py/id": -1}` gives two different objects. -/
theorem negative_counts_back : (Sample.st (restoreTop C10.env 9 (.arr [ref (-1), .arr [], ref (-1)]) true {})).map (fun s => s.heap.map Sample.view) =
    some [.list [.ref 0, .ref 1, .ref 1], .list []] := by decide +kernel

/-- `{"py/object": "m.C", …}` -/
def obj (kvs : List (Str × Json)) : Json := .obj ((p!"py/object", .str p!"m.C") :: kvs)

/-- two objects that refer to each other, the first one also to an object that comes later and to the list it is in:
`[{"py/object": "m.C", "a": {"py/id": 3}, "b": [{"py/id": 1}]}, {"py/object": "m.C", "a": {"py/id": 1}, "c": {"py/id": 0}}]` -/
def circle : Json := .arr [obj [(p!"a", ref 3), (p!"b", .arr [ref 1])], obj [(p!"a", ref 1), (p!"c", ref 0)]]

/-- every placeholder is replaced (the object with number 1 is in cell 2, the one with number 3 in cell 6) -/
example : (Sample.st (restoreTop C10.env 9 circle true {})).map (fun s => s.heap.map Sample.view) =
    some [.list [.ref 2, .ref 6], .proxy, .inst p!"m.C" [(p!"a", .ref 6), (p!"b", .ref 4)] [] [], .proxy, .list [.ref 2], .proxy, .inst p!"m.C" [(p!"a", .ref 2), (p!"c", .ref 0)] [] []] := by decide +kernel

example : ∃ x u', restoreTop C10.env 9 circle true {} = some (.ok x, u') := by
  have h : (Sample.res (restoreTop C10.env 9 circle true {})) = some (.ok (.ref 0)) := by decide +kernel
  obtain ⟨⟨r, s⟩, h1, h2⟩ := Option.map_eq_some_iff.1 h
  cases h2
  exact ⟨_, s, h1⟩

/-- a class whose objects cannot be made -/
def envX : UEnv := { C10.env with classInfo := fun _ => { newAccepts := fun _ => false, callAccepts := fun _ => false, blankOk := false } }

/-- The exception in `held_partial` is needed: `[{"py/id": 1}, {"py/object": "m.C"}]`, where no `m.C` can be made.  The document stands in for the object (cell 3),
the reference that came first becomes the placeholder that was made for it (cell 2) - while a reference that comes later becomes `None`. -/
theorem forward_given_up : (Sample.st (restoreTop envX 9 (.arr [ref 1, obj [], ref 1]) true {})).map (fun s => s.heap.map Sample.view) =
    some [.list [.ref 2, .ref 3, .none], .proxy, .proxy, .dict [(.str p!"py/object", .str p!"m.C")]] := by decide +kernel

/-- An attribute called `__x` keeps its placeholder: `{"py/object": "m.C", "__x": {"py/id": 1}, "y": []}`.  It is stored as `_C__x`, what takes the place of the placeholder as `__x`. -/
theorem hidden_leaks : (Sample.st (restoreTop { C10.env with classInfo := fun _ => { shortName := p!"C" } } 9 (obj [(p!"__x", ref 1), (p!"y", .arr [])]) true {})).map (fun s => s.heap.map Sample.view) =
    some [.proxy, .inst p!"m.C" [(p!"_C__x", .ref 2), (p!"y", .ref 3), (p!"__x", .ref 3)] [] [], .proxy, .list []] := by decide +kernel

end JP.C38
