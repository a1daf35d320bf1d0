import Verif.Proofs.PInst
import Verif.Sample
/-!
# C36 — identity-keyed caches never confuse two objects

Python reuses the `id()` of a freed object.  The encoder is safe as long as every identity it has on
record belongs to an object that is still referenced; it keeps such references in `_seen`.
-/
namespace JP.C36
open JP PyM Pickler

/-- Every identity on record for references or in the flattening cache belongs to an object that the
Pickler keeps alive (or to part of one: its `__dict__`, its default factory, its filtered state);
exception: cached `bytes`, `bytearray`, `tuple`, `set` labels. -/
def AllPinned (w : World) (s : PState) : Prop :=
  (∀ i ∈ s.objs, ∃ v ∈ s.seen, Own w v i) ∧
  (∀ p ∈ s.flattened, (∃ v ∈ s.seen, Own w v p.1) ∨ ∃ n, p.1 = .inl n)

/-- While a call is in progress (depth ≥ 0) every nested call, whether it returns or raises, keeps all
identities pinned and releases none of the objects pinned before.
Missing from the full property: the cache entries of inline objects (`bytes_not_pinned`). -/
theorem pinned_partial (w : World) (cfg : PCfg) (n : Nat) (v : Val) (s s1 : PState)
    (r : Except Exc Json) (hd : 0 ≤ s.depth) (hs : AllPinned w s)
    (h : flatten w cfg n v s = some (r, s1)) : AllPinned w s1 ∧ s.seen <+: s1.seen := by
  have := flatten_pinned (seen0 := s.seen) hd ⟨hs.1, hs.2, List.prefix_rfl⟩ h
  exact ⟨⟨this.objs, this.cache⟩, this.grows⟩

/-- The state in which the root object's body starts: nothing on record yet. -/
theorem pinned_initially (w : World) (v : Val) : AllPinned w { depth := 0, seen := [v] } :=
  ⟨(fun _ hi => by cases hi), (fun _ hp => by cases hp)⟩

/-- two objects are registered and pinned while a list is encoded -/
example : Sample.st (flatten (Sample.world [.list [.ref 1], .list [], .list [.ref 0]]) {} 5 (.ref 0)
      { depth := 0, seen := [.ref 2] }) =
    some { depth := 0, objs := [.addr 0, .addr 1], seen := [.ref 2, .ref 0, .ref 1] } := by decide +kernel

/-- Counterexample: in cache mode a `bytes` object is recorded but not kept alive. -/
theorem bytes_not_pinned :
    Sample.st (flatten (Sample.world []) { makeRefs := false } 1 (.bytes 7 [97]) { depth := 0 }) =
      some { depth := 0, flattened := [(.inl 7, .obj [(Tags.B64, .str p!"YQ==")])] } := by decide +kernel

/-- Consequence: when a temporary `bytes` object is freed and another one gets its `id`, the second is
encoded as the first (here both have the label 7). -/
theorem bytes_confused :
    Sample.res (flattenTop (Sample.world [.list [.bytes 7 [97], .bytes 7 [98]]]) { makeRefs := false } 5
      (.ref 0) true {}) =
    some (.ok (.arr [.obj [(Tags.B64, .str p!"YQ==")], .obj [(Tags.B64, .str p!"YQ==")]])) := by
  decide +kernel

end JP.C36
