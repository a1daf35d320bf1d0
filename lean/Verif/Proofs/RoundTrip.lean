import Verif.ApiSpec
import Verif.Covered
import Verif.Proofs.Paths
import Verif.Proofs.SimTop
import Verif.Proofs.PWritable
import Verif.Proofs.UMono
import Verif.Props.C04
/-! # The round trip of texts -/
namespace JP
open PyM Sim

theorem round_trip' {w : World} {cfg : PCfg} {env : UEnv} {v : Val} (hm : Matching w cfg env) (hp : PlainText w)
    (hf : SafeOk cfg) (hs : Supported w.heap env v) (ht : TextOk w.heap v) :
    ∃ text, Encodes w cfg v text ∧ ∀ u, ∃ x u', Decodes env text u x u' ∧
      SameGraph (orderOf cfg) (handledOf w) w.heap v u'.heap x ∧
      (∀ b < u.heap.length, u'.heap[b]? = u.heap[b]?) ∧
      ∀ (b : Nat) n, u'.heap[b]? = some (.idproxy n) → u.heap[b]? = some (.idproxy n) := by
  obtain ⟨n, r, s', hrun⟩ := C04.terminates_with_references w cfg ⟨hm.unpicklable, hm.makeRefs⟩ v
  obtain ⟨j, rfl, hdec⟩ := root hm hs (hrun n {} (Nat.le_refl _))
  refine ⟨w.dumps j, ⟨n, s', fun m s hnm => bind_ok (hrun m s hnm)⟩, fun u => ?_⟩
  have hw : j.Writable := by
    have := hrun n {} (Nat.le_refl _)
    simp only [Pickler.flattenTop, if_true] at this
    exact Pickler.flatten_writable ht hp hf (s := {}) (by intro p hp; cases hp) this
  obtain ⟨x, u', hx, _, hg, hold⟩ := hdec u (2 * n) (Nat.le_refl _)
  refine ⟨x, { u' with objs := [], idx := [], proxies := [] }, ⟨2 * n, fun m hmn => ?_⟩, hg, hold⟩
  unfold Api.decode
  rw [hm.loads j hw]
  simp only []
  rw [bind_ok (Unpickler.restoreTop_mono hmn hx)]
  rfl

theorem round_trip {w : World} {cfg : PCfg} {env : UEnv} {v : Val} (hm : Matching w cfg env) (hp : PlainText w)
    (hf : SafeOk cfg) (hs : Supported w.heap env v) (ht : TextOk w.heap v) :
    ∃ text, Encodes w cfg v text ∧ ∀ u, ∃ x u', Decodes env text u x u' ∧
      SameGraph (orderOf cfg) (handledOf w) w.heap v u'.heap x ∧
      ∀ b < u.heap.length, u'.heap[b]? = u.heap[b]? := by
  obtain ⟨t, h1, h2⟩ := round_trip' hm hp hf hs ht
  refine ⟨t, h1, fun u => ?_⟩
  obtain ⟨x, u', g1, g2, g3, _⟩ := h2 u
  exact ⟨x, u', g1, g2, g3⟩

theorem Encodes.unique {w : World} {cfg : PCfg} {v : Val} {t t' : Str} (h : Encodes w cfg v t) (h' : Encodes w cfg v t') : t = t' := by
  obtain ⟨n, s, h⟩ := h
  obtain ⟨n', s', h'⟩ := h'
  have a := h (max n n') {} (Nat.le_max_left ..)
  rw [h' (max n n') {} (Nat.le_max_right ..)] at a
  cases a; rfl

theorem Decodes.unique {env : UEnv} {t : Str} {u : UState} {x x' : Val} {u1 u2 : UState} (h : Decodes env t u x u1)
    (h' : Decodes env t u x' u2) : x = x' ∧ u1 = u2 := by
  obtain ⟨n, h⟩ := h
  obtain ⟨n', h'⟩ := h'
  have a := h (max n n') (Nat.le_max_left ..)
  rw [h' (max n n') (Nat.le_max_right ..)] at a
  cases a; exact ⟨rfl, rfl⟩

namespace Covered
variable {w : World} {cfg : PCfg} {env : UEnv} {v x : Val} {text : Str} {u u' : UState}

theorem same (hc : Covered w cfg env v) (he : Encodes w cfg v text) (hd : Decodes env text u x u') :
    SameGraph (orderOf cfg) (handledOf w) w.heap v u'.heap x := by
  obtain ⟨t, e, d⟩ := round_trip hc.matching hc.plain hc.safe hc.supported hc.text
  cases he.unique e
  obtain ⟨y, u2, h1, h2, _⟩ := d u
  obtain ⟨rfl, rfl⟩ := hd.unique h1
  exact h2

theorem graph (hc : Covered w cfg env v) (he : Encodes w cfg v text) (hd : Decodes env text u x u') :
    SameGraph (writeOrder cfg.keys) (hasHandler w) w.heap v u'.heap x := hc.same he hd

/-- what was there is left alone, and no placeholder for a reference is made -/
theorem heap (hc : Covered w cfg env v) (he : Encodes w cfg v text) (hd : Decodes env text u x u') :
    (∀ b < u.heap.length, u'.heap[b]? = u.heap[b]?) ∧
    ∀ (b : Nat) n, u'.heap[b]? = some (.idproxy n) → u.heap[b]? = some (.idproxy n) := by
  obtain ⟨t, e, d⟩ := round_trip' hc.matching hc.plain hc.safe hc.supported hc.text
  cases he.unique e
  obtain ⟨y, u2, h1, _, h3⟩ := d u
  obtain ⟨rfl, rfl⟩ := hd.unique h1
  exact h3

/-- encoding and decoding both succeed -/
theorem total (hc : Covered w cfg env v) (u : UState) : ∃ text x u', Encodes w cfg v text ∧ Decodes env text u x u' := by
  obtain ⟨t, e, d⟩ := round_trip hc.matching hc.plain hc.safe hc.supported hc.text
  obtain ⟨y, u2, h1, _⟩ := d u
  exact ⟨t, y, u2, e, h1⟩

theorem same_id (hc : Covered w cfg env v) (hk : cfg.keys = false) (he : Encodes w cfg v text) (hd : Decodes env text u x u') :
    SameGraph id (fun c => (w.handler c).isSome) w.heap v u'.heap x := by
  have := hc.same he hd
  simp only [orderOf, hk, Bool.false_eq_true, if_false] at this
  exact this

theorem same_keys (hc : Covered w cfg env v) (hk : cfg.keys = true) (he : Encodes w cfg v text) (hd : Decodes env text u x u') :
    SameGraph stringsFirst (fun c => (w.handler c).isSome) w.heap v u'.heap x := by
  have := hc.same he hd
  simp only [orderOf, hk, if_true] at this
  exact this

end Covered

end JP
