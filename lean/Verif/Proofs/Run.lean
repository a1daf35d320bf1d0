import Verif.ApiSpec
import Verif.Proofs.PInst
import Verif.Proofs.UMono
import Verif.SampleRound
import Verif.Sample
/-! # Evaluating concrete round trips -/
namespace JP
open PyM

theorem encodes_of_run {w : World} {cfg : PCfg} {v : Val} {n : Nat} {text : Str}
    (h : Sample.res (Api.encode w cfg n v true {}) = some (.ok text)) : Encodes w cfg v text := by
  unfold Sample.res at h
  cases hr : Api.encode w cfg n v true {} with
  | none => rw [hr] at h; cases h
  | some p =>
    obtain ⟨r, s'⟩ := p
    rw [hr] at h
    cases h
    obtain ⟨j, s1, h1, h2⟩ := bind_eq_ok.1 hr
    cases h2
    refine ⟨n, s', fun m s hm => ?_⟩
    have h3 : Pickler.flatten w cfg n v {} = some (.ok j, s') := by
      simp only [Pickler.flattenTop, if_true] at h1
      exact h1
    refine bind_ok (a := j) (s' := s') ?_
    simp only [Pickler.flattenTop, if_true]
    exact Pickler.flatten_mono hm h3

theorem decode_mono {env : UEnv} {n m : Nat} (hnm : n ≤ m) {text : Str} {b own : Bool} {u : UState} {r}
    (h : Api.decode env n text b own u = some r) : Api.decode env m text b own u = some r := by
  unfold Api.decode at h ⊢
  cases hl : env.loads text with
  | none => simpa [hl] using h
  | some j =>
    simp only [hl] at h ⊢
    exact Unpickler.Le.bind (fun s r hr => Unpickler.restoreTop_mono hnm hr) (fun _ => Unpickler.Le.refl _) _ _ h

theorem decodes_of_run {env : UEnv} {n : Nat} {text : Str} {u u' : UState} {x : Val}
    (h : Api.decode env n text true true u = some (.ok x, u')) : Decodes env text u x u' :=
  ⟨n, fun _ hm => decode_mono hm h⟩

namespace Sample

/-- `decode(encode(v))` is `x`, in the heap `h'` -/
def Program.Trips (p : Program) (h : Heap) (cfg : PCfg) (v x : Val) (h' : Heap) : Prop :=
  ∃ text u, Encodes (p.world h) cfg v text ∧ Decodes (p.env cfg.keys) text {} x u ∧ u.heap = h'

theorem Program.trips {p : Program} {h : Heap} {cfg : PCfg} {n : Nat} {v x : Val} {h' : Heap}
    (ht : p.trip h cfg n v = some (x, h')) : p.Trips h cfg v x h' := by
  unfold Program.trip at ht
  split at ht
  · next text s1 he =>
    split at ht
    · next u hd =>
      cases ht
      exact ⟨text, _, encodes_of_run (n := n) (by rw [he]; rfl), decodes_of_run hd, rfl⟩
    · cases ht
  · cases ht

/-- what can be seen of an object, in a form that can be compared -/
inductive View
  | list (xs : List Val)
  | dict (kvs : List (Val × Val))
  | inst (cls : Str) (attrs : List (Str × Val)) (items : List (Val × Val)) (elems : List Val)
  | proxy
  deriving DecidableEq, Repr

def view : Obj → View
  | .list xs => .list xs
  | .dict kvs => .dict kvs
  | .inst i => .inst i.cls i.attrs i.items i.elems
  | _ => .proxy

/-- `decode(encode(v))` is `x`, and the objects made while decoding look like `vs` -/
def Program.TripsTo (p : Program) (h : Heap) (cfg : PCfg) (v x : Val) (vs : List View) : Prop :=
  ∃ h', p.Trips h cfg v x h' ∧ h'.map view = vs

theorem Program.tripsTo {p : Program} {h : Heap} {cfg : PCfg} (n : Nat) {v x : Val} {vs : List View}
    (ht : (p.trip h cfg n v).map (fun r => (r.1, r.2.map view)) = some (x, vs)) : p.TripsTo h cfg v x vs := by
  cases hr : p.trip h cfg n v with
  | none => rw [hr] at ht; cases ht
  | some q =>
    obtain ⟨y, h'⟩ := q
    rw [hr] at ht
    cases ht
    exact ⟨h', trips hr, rfl⟩

end Sample
end JP
