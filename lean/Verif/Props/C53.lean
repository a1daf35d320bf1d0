import Verif.Iso
import Verif.Sample
import Verif.Proofs.PRen
/-!
# C53 — the document depends on the object graph, not on addresses
-/
namespace JP.C53
open JP PyM Pickler

/-- If the same objects lie at other addresses (and `repr` and `str` do not show addresses), `encode` gives the same text or raises the same exception: whatever
the options, whatever the Picklers were used for before. -/
theorem same_document {f g : Nat → Nat} {w w' : World} (hm : Moved f g w w') (cfg : PCfg) (n : Nat) (v : Val) (s s' : PState) :
    (Api.encode w' cfg n (v.ren f g) true s').map (·.1) = (Api.encode w cfg n v true s).map (·.1) := by
  have h0 : ∀ (w : World) (v : Val) (s : PState), Api.encode w cfg n v true s = Api.encode w cfg n v true {} := fun _ _ _ => rfl
  rw [h0 w', h0 w]
  have h := sim_encode hm cfg n v true {}
  have e : renState f g {} = {} := rfl
  rw [e] at h
  rw [h]
  cases Api.encode w cfg n v true {} <;> rfl

/-- The same for several documents that one Pickler writes with `reset=False`, so that later ones refer to objects in earlier ones. -/
theorem same_documents {f g : Nat → Nat} {w w' : World} (hm : Moved f g w w') (cfg : PCfg) (n : Nat) (vs : List Val) :
    (PyM.mapM (fun v => Api.encode w' cfg n v false) (vs.map (Val.ren f g)) {}).map (·.1) = (PyM.mapM (fun v => Api.encode w cfg n v false) vs {}).map (·.1) := by
  have h := Sim.mapM (f := f) (g := g) (r := Val.ren f g) (x := fun v => Api.encode w cfg n v false) (y := fun v => Api.encode w' cfg n v false) vs
    (fun v _ => sim_encode hm cfg n v false) {}
  have e : renState f g {} = {} := rfl
  rw [e] at h
  rw [h]
  cases PyM.mapM (fun v => Api.encode w cfg n v false) vs {} <;> rfl

/-! ### example -/

/-- a list that contains itself, a dict and a tuple with the dict -/
def h1 : Heap := [.list [.ref 0, .ref 1, .tuple 5 [.ref 1]], .dict [(.str p!"a", .ref 0)]]

/-- the same with other objects in between -/
def h2 : Heap := [.list [.int 9], .list [.ref 1, .ref 3, .tuple 12 [.ref 3]], .list [], .dict [(.str p!"a", .ref 1)]]

theorem moved : Moved (fun a => 2 * a + 1) (· + 7) (Sample.world h1) (Sample.world h2) where
  inj a b h := by simp at h; omega
  injLabel a b h := by simp at h; exact h
  heap a := match a with
    | 0 => rfl
    | 1 => rfl
    | a + 2 => by
      have e1 : (Sample.world h1).heap[a + 2]? = none := by simp [Sample.world, h1]
      have e2 : (Sample.world h2).heap[2 * (a + 2) + 1]? = none := by
        apply List.getElem?_eq_none
        simp [Sample.world, h2]
        omega
      rw [e1, e2]; rfl
  repr _ := rfl
  pystr _ := rfl
  dumps _ := rfl
  handler _ := rfl

example : Sample.res (Api.encode (Sample.world h1) {} 9 (.ref 0) true {}) =
    some (.ok (Sample.dumps (.arr [.obj [(p!"py/id", .int 0)], .obj [(p!"a", .obj [(p!"py/id", .int 0)])], .obj [(p!"py/tuple", .arr [.obj [(p!"py/id", .int 1)]])]]))) := by decide +kernel

/-- The assumption that different objects stay different is needed: two equal lists and one list that occurs twice have different documents. -/
theorem sharing_matters :
    Sample.res (Api.encode (Sample.world [.list [.ref 1, .ref 2], .list [], .list []]) {} 9 (.ref 0) true {}) ≠
    Sample.res (Api.encode (Sample.world [.list [.ref 1, .ref 1], .list []]) {} 9 (.ref 0) true {}) := by decide +kernel

end JP.C53
