import Verif.Proofs.PInst
import Verif.Sample
/-! # C08 — `make_refs=False` produces no references -/
namespace JP.C08
open JP Pickler

/-- User code writes the key `py/id` itself: as the `repr` (or `str`) of a dictionary key, as the name of a handler's field, or
in a result of `fail_safe`. -/
def UserWrites (w : World) (cfg : PCfg) : Prop :=
  (∃ v, w.repr v = .ok Tags.ID ∨ w.pystr v = .ok Tags.ID) ∨
  (∃ (a : Addr) (i : Inst) (kv : Str × Val), w.heap[a]? = some (.inst i) ∧ kv ∈ i.hfields ∧ kv.1 = Tags.ID) ∨
  (∃ f e j, cfg.failSafe = some f ∧ f e = .ok j ∧ Tags.ID ∈ j.keys)

/-- without such user code there is no `py/id` entry -/
theorem no_references (w : World) (cfg : PCfg) (hm : cfg.makeRefs = false)
    (hrepr : ∀ v, w.repr v ≠ .ok Tags.ID ∧ w.pystr v ≠ .ok Tags.ID)
    (hfield : ∀ (a : Addr) (i : Inst) (kv : Str × Val),
      w.heap[a]? = some (.inst i) → kv ∈ i.hfields → kv.1 ≠ Tags.ID)
    (hsafe : ∀ f e j, cfg.failSafe = some f → f e = .ok j → Tags.ID ∉ j.keys)
    (n : Nat) (v : Val) (s s1 : PState) (j : Json)
    (h : flattenTop w cfg n v true s = some (.ok j, s1)) : Tags.ID ∉ j.keys := by
  have rules : KeyRules w cfg (fun k => k ≠ Tags.ID) := by
    refine ⟨?_, ?_, ?_, ?_, ?_, ?_, ?_, ?_, ?_⟩
    · intro _ h; rw [hm] at h; cases h
    · decide +kernel
    · rintro k hk rfl
      revert hk
      decide +kernel
    · intro v s hv hr hid
      subst hid
      unfold reprKey at hr
      split at hr
      · revert hr; decide +kernel
      · exact hv _ rfl
      · split at hr
        · next h => injection hr with hr; subst hr; exact (hrepr _).1 h
        · split at hr
          · exact (hrepr _).2 hr
          · cases hr
    · intro j hall
      have h1 : startsWith Tags.ID Tags.JSON_KEY = true := by rw [← hall]; simp [startsWith]
      revert h1
      decide +kernel
    · exact hfield
    · intro _; decide +kernel
    · decide +kernel
    · intro f e j hf he k hk hid; exact hsafe f e j hf he (hid ▸ hk)
  simp only [flattenTop, if_true] at h
  intro hk
  exact flatten_keys rules (s := {}) (by intro p hp; cases hp) h _ hk rfl

/-- With `make_refs=False` the produced document has no `py/id` entry, at any depth, that jsonpickle generated: if there is
one, user code wrote it. -/
theorem only_user_code (w : World) (cfg : PCfg) (hm : cfg.makeRefs = false) (n : Nat) (v : Val) (s s1 : PState) (j : Json)
    (h : flattenTop w cfg n v true s = some (.ok j, s1)) (hk : Tags.ID ∈ j.keys) : UserWrites w cfg := by
  apply Classical.byContradiction
  intro hn
  refine no_references w cfg hm (fun v => ⟨fun h => hn (.inl ⟨v, .inl h⟩), fun h => hn (.inl ⟨v, .inr h⟩)⟩)
    (fun a i kv ha hkv he => hn (.inr (.inl ⟨a, i, kv, ha, hkv, he⟩))) (fun f e j hf he hj => hn (.inr (.inr ⟨f, e, j, hf, he, hj⟩))) n v s s1 j h hk

/-- All three can happen: a key that prints as `py/id`, a handler with such a field, a `fail_safe` that returns such a document. -/
theorem user_code_can :
    Sample.res (flattenTop { Sample.world [.dict [(.ref 1, .int 7)], .inst { cls := p!"m.K" }] with repr := fun _ => .ok Tags.ID } { makeRefs := false } 5 (.ref 0) true {}) =
      some (.ok (.obj [(Tags.ID, .int 7)])) ∧
    Sample.res (flattenTop { Sample.world [.inst { cls := p!"m.H", hfields := [(Tags.ID, .int 7)] }] with handler := fun _ => some .record } { makeRefs := false } 5 (.ref 0) true {}) =
      some (.ok (.obj [(Tags.OBJECT, .str p!"m.H"), (Tags.ID, .int 7)])) ∧
    Sample.res (flattenTop (Sample.world [.inst { cls := p!"m.B", info := { ownGetstate := true }, state := .error .attributeError }])
      { makeRefs := false, failSafe := some (fun _ => .ok (.obj [(Tags.ID, .int 7)])) } 5 (.ref 0) true {}) = some (.ok (.obj [(Tags.ID, .int 7)])) := by decide +kernel

/-- A `str` key of that name is dropped, so data alone cannot do it. -/
example : Sample.res (flattenTop (Sample.world [.dict [(.str Tags.ID, .int 7)]]) { makeRefs := false } 5 (.ref 0) true {}) = some (.ok (.obj [])) := by decide +kernel

/-- A shared list is written twice instead of by reference. -/
example : (∀ v, (Sample.world [.list [.ref 1, .ref 1], .list [.int 7]]).repr v ≠ .ok Tags.ID ∧
      (Sample.world [.list [.ref 1, .ref 1], .list [.int 7]]).pystr v ≠ .ok Tags.ID) ∧
    Sample.res (flattenTop (Sample.world [.list [.ref 1, .ref 1], .list [.int 7]]) { makeRefs := false } 5
      (.ref 0) true {}) = some (.ok (.arr [.arr [.int 7], .arr [.int 7]])) :=
  ⟨fun _ => ⟨by simp [Sample.world, Tags.ID], by simp [Sample.world, Tags.ID]⟩, by decide +kernel⟩

/-- With references the same graph does contain one, so the option matters. -/
example : Sample.res (flattenTop (Sample.world [.list [.ref 1, .ref 1], .list [.int 7]]) {} 5 (.ref 0) true {})
    = some (.ok (.arr [.arr [.int 7], .obj [(Tags.ID, .int 1)]])) := by decide +kernel

end JP.C08
