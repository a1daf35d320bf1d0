import Verif.Api
import Verif.ApiSpec
import Verif.Sample
import Verif.Proofs.UTolerant
import Verif.Proofs.UMono
import Verif.Proofs.Run
import Verif.Props.C10
/-!
# C28 — `decode` tolerates malformed tag payloads
-/
namespace JP.C28
open JP PyM Unpickler

/-- A document whose only tags are tolerated ones is decoded: the decoder terminates and returns a value, for
arbitrary payloads, nesting, options and history.  With `keys=True` the keys must not start with `json://`
(see `malformed_key_raises`). -/
theorem tolerant (env : UEnv) (j : Json) (ht : j.Tolerated) (hk : env.keys = true → ∀ k ∈ j.keys, ¬ p!"json://" <+: k) (u : UState) :
    ∃ x u', ∀ m, j.depth + 1 ≤ m → restoreTop env m j true u = some (.ok x, u') := by
  have hk : env.keys = true → ∀ k ∈ j.keys, isJsonKey k = false := fun he k hm => by
    refine Bool.eq_false_iff.2 (fun h => hk he k hm ?_)
    unfold isJsonKey startsWith at h
    exact List.isPrefixOf_iff_prefix.1 h
  obtain ⟨v, u', h⟩ := fine_restoreTop (env := env) j.depth j ⟨ht, hk, Nat.le_refl _⟩ u
  exact ⟨v, u', fun m hm => restoreTop_mono hm h⟩

/-- The same for texts. -/
theorem decode_tolerant (env : UEnv) (text : Str) (j : Json) (hl : env.loads text = some j) (ht : j.Tolerated)
    (hk : env.keys = true → ∀ k ∈ j.keys, ¬ p!"json://" <+: k) (u : UState) : ∃ x u', Decodes env text u x u' := by
  obtain ⟨v, u', h⟩ := tolerant env j ht hk u
  refine ⟨v, { u' with objs := [], idx := [], proxies := [] }, j.depth + 1, fun m hm => ?_⟩
  unfold Api.decode
  rw [hl]
  exact (bind_ok (h m hm)).trans rfl

/-! ### examples -/

/-- `[{"py/tuple": 5}, {"py/set": [[]]}, {"py/id": "x"}, {"py/iterator": null}, {"py/b64": "?"}, {"py/b85": {}}, {"py/id": 99}, {"py/tuple": "ab"}]` -/
def doc : Json := .arr [.obj [(p!"py/tuple", .int 5)], .obj [(p!"py/set", .arr [.arr []])], .obj [(p!"py/id", .str p!"x")],
  .obj [(p!"py/iterator", .null)], .obj [(p!"py/b64", .str p!"?")], .obj [(p!"py/b85", .obj [])], .obj [(p!"py/id", .int 99)],
  .obj [(p!"py/tuple", .str p!"ab")]]

example : doc.Tolerated := by unfold Json.Tolerated; decide +kernel

/-- the malformed payloads become an empty tuple, an empty set, `None`, an empty iterator, empty byte strings; the dangling id becomes `None` -/
example : (Sample.st (restoreTop C10.env 9 doc true {})).bind (fun s => s.heap[0]?.map Sample.view) =
    some (.list [.tuple 1 [], .set 2 [], .none, .ref 4, .bytes 3 [], .bytes 4 [], .none, .tuple 5 [.str p!"a", .str p!"b"]]) := by decide +kernel

/-- The other tags do raise. -/
theorem other_tags_raise :
    Sample.res (restoreTop C10.env 9 (.obj [(p!"py/bytea", .int 5)]) true {}) = some (.error .typeError) ∧
    Sample.res (restoreTop C10.env 9 (.obj [(p!"py/type", .int 5)]) true {}) = some (.error .attributeError) ∧
    Sample.res (restoreTop C10.env 9 (.obj [(p!"py/mod", .int 5)]) true {}) = some (.error .attributeError) := by decide +kernel

/-- With `keys=True` a key is decoded as a document, which may fail. -/
theorem malformed_key_raises :
    Sample.res (restoreTop { C10.env with keys := true } 9 (.obj [(p!"json://[", .int 5)]) true {}) = some (.error .valueError) := by
  decide +kernel

/-! ### elements that are listed more than once -/

/-- null, numbers, bools and strings, and the Python values that they are -/
inductive Simple : Json → Val → Prop
  | none : Simple .null .none
  | bool (b : Bool) : Simple (.bool b) (.bool b)
  | int (n : Int) : Simple (.int n) (.int n)
  | float (f : UInt64) : Simple (.float f) (.float f)
  | str (s : Str) : Simple (.str s) (.str s)

/-- what equality of such values compares: `True` is 1 and `False` is 0, a float without a fraction is the integer, NaN is always the same object -/
def compared : Val → Option (Sum Int (Sum Str (Option UInt64)))
  | .bool true => some (.inl 1)
  | .bool false => some (.inl 0)
  | .int n => some (.inl n)
  | .float f => if floatIsNan f then some (.inr (.inr none)) else match floatInt f with
    | some n => some (.inl n)
    | none => some (.inr (.inr (some f)))
  | .str s => some (.inr (.inl s))
  | _ => none

theorem nan_no_int {f : UInt64} (h : floatIsNan f = true) : floatInt f = none := by
  unfold floatIsNan at h
  unfold floatInt
  simp only [Bool.and_eq_true] at h
  simp only [h.1, if_true]

/-- a float is compared by its integer, or is none -/
theorem compared_float (f : UInt64) : (∃ n, floatInt f = some n ∧ floatIsNan f = false ∧ compared (.float f) = some (.inl n)) ∨
    (floatInt f = none ∧ floatIsNan f = true ∧ compared (.float f) = some (.inr (.inr none))) ∨
    (floatInt f = none ∧ floatIsNan f = false ∧ compared (.float f) = some (.inr (.inr (some f)))) := by
  cases hn : floatIsNan f with
  | true => exact .inr (.inl ⟨nan_no_int hn, rfl, by simp [compared, hn]⟩)
  | false =>
    cases hf : floatInt f with
    | none => exact .inr (.inr ⟨rfl, rfl, by simp [compared, hn, hf]⟩)
    | some n => exact .inl ⟨n, rfl, rfl, by simp [compared, hn, hf]⟩

theorem pyEq_compared {j j' : Json} {v v' : Val} (h : Simple j v) (h' : Simple j' v') : pyEq v v' = true ↔ compared v = compared v' := by
  have fl : ∀ f, compared (.float f) ≠ none := fun f => by
    rcases compared_float f with ⟨n, _, _, e⟩ | ⟨_, _, e⟩ | ⟨_, _, e⟩ <;> simp [e]
  cases h with
  | none => cases h' with
    | bool b => cases b <;> simp [pyEq, compared]
    | float f => simp only [pyEq, Bool.false_eq_true, false_iff]; exact fun e => fl f e.symm
    | _ => simp [pyEq, compared]
  | bool b => cases h' with
    | bool b' => cases b <;> cases b' <;> simp [pyEq, compared]
    | float f => rcases compared_float f with ⟨n, e1, _, e⟩ | ⟨e1, _, e⟩ | ⟨e1, _, e⟩ <;> cases b <;> simp [pyEq, e, e1] <;> simp [compared]
    | _ => cases b <;> simp [pyEq, compared]
  | int n => cases h' with
    | bool b' => cases b' <;> simp [pyEq, compared]
    | float f => rcases compared_float f with ⟨n, e1, _, e⟩ | ⟨e1, _, e⟩ | ⟨e1, _, e⟩ <;> simp [pyEq, e, e1] <;> simp [compared]
    | _ => simp [pyEq, compared]
  | float f =>
    rcases compared_float f with ⟨n, e1, e2, e⟩ | ⟨e1, e2, e⟩ | ⟨e1, e2, e⟩ <;> cases h' with
    | bool b' => cases b' <;> simp [pyEq, e, e1] <;> simp [compared]
    | float f' => rcases compared_float f' with ⟨n', g1, g2, g⟩ | ⟨g1, g2, g⟩ | ⟨g1, g2, g⟩ <;>
        simp only [pyEq, Val.numKey, e, e1, e2, g, g1, g2] <;> first
          | exact ⟨fun h => by have h : (n == n') = true := h; rw [beq_iff_eq.1 h], fun h => by cases h; exact beq_self_eq_true n⟩
          | exact ⟨fun _ => trivial, fun _ => rfl⟩
          | exact ⟨fun h => by have h : (f == f') = true := h; rw [beq_iff_eq.1 h], fun h => by cases h; exact beq_self_eq_true f⟩
          | exact ⟨fun h => (by have h : (f == f') = true := h; rw [beq_iff_eq.1 h, g2] at e2; cases e2), fun h => by cases h⟩
          | exact ⟨fun h => (by cases h), fun h => by cases h⟩
    | _ => simp [pyEq, e, e1] <;> simp [compared]
  | str s => cases h' with
    | bool b' => cases b' <;> simp [pyEq, compared]
    | float f => rcases compared_float f with ⟨n, e1, _, e⟩ | ⟨e1, _, e⟩ | ⟨e1, _, e⟩ <;> simp [pyEq, e] <;> simp [compared]
    | _ => simp [pyEq, compared]

/-- A set of simple values of which some are equal (`[true, 1, 1.0, "a", "a"]`) is read as the set with one of them, the first. -/
theorem repeated_elements (env : UEnv) (xs : List Json) (hx : ∀ x ∈ xs, ∃ v, Simple x v) (text : Str)
    (hl : env.loads text = some (.obj [(p!"py/set", .arr xs)])) (u : UState) :
    ∃ i vs u', Decodes env text u (.set i vs) u' ∧
      vs.Pairwise (fun v v' => compared v ≠ compared v') ∧
      (∀ v ∈ vs, ∃ x ∈ xs, Simple x v) ∧
      (∀ (pre post : List Json) (x : Json) (v : Val), xs = pre ++ x :: post → Simple x v →
        (v ∈ vs ∨ ∃ y ∈ pre, ∃ v', Simple y v' ∧ v' ∈ vs ∧ compared v' = compared v)) := by
  have det : ∀ {x : Json} {v v' : Val}, Simple x v → Simple x v' → v = v' := by
    intro x v v' h h'; cases h <;> cases h' <;> rfl
  have key : ∀ (rs : Json → U Val), (∀ x v, Simple x v → ∀ s, rs x s = some (.ok v, s)) → ∀ (ys pre : List Json) (acc : List Val),
      (∀ x ∈ ys, ∃ v, Simple x v) →
      acc.Pairwise (fun v v' => compared v ≠ compared v') → (∀ v ∈ acc, ∃ x ∈ pre, Simple x v) →
      (∀ (a b : List Json) (x : Json) (v : Val), pre = a ++ x :: b → Simple x v →
        (v ∈ acc ∨ ∃ y ∈ a, ∃ v', Simple y v' ∧ v' ∈ acc ∧ compared v' = compared v)) →
      ∃ vs, (∀ s, PyM.foldM (fun acc x => do
          let v ← rs x
          let s ← PyM.get
          if hashable s.heap v then Pure.pure (sadd v acc) else PyM.throw .typeError) acc ys s = some (.ok vs, s)) ∧
        vs.Pairwise (fun v v' => compared v ≠ compared v') ∧ (∀ v ∈ vs, ∃ x ∈ pre ++ ys, Simple x v) ∧
        (∀ (a b : List Json) (x : Json) (v : Val), pre ++ ys = a ++ x :: b → Simple x v →
          (v ∈ vs ∨ ∃ y ∈ a, ∃ v', Simple y v' ∧ v' ∈ vs ∧ compared v' = compared v)) := by
    intro rs hrs ys
    induction ys with
    | nil =>
      intro pre acc _ h1 h2 h3
      exact ⟨acc, fun s => rfl, h1, by simpa using h2, by simpa using h3⟩
    | cons y ys ih =>
      intro pre acc hy h1 h2 h3
      obtain ⟨v, hv⟩ := hy y (List.mem_cons_self ..)
      have hh : ∀ h : Heap, hashable h v = true := by intro h; cases hv <;> rfl
      have hs : ∀ w ∈ acc, ∃ x, Simple x w := fun w hw => by obtain ⟨x, _, hx⟩ := h2 w hw; exact ⟨x, hx⟩
      have hsub : ∀ w ∈ acc, w ∈ sadd v acc := by
        intro w hw
        unfold sadd
        split
        · exact hw
        · exact List.mem_append_left _ hw
      have hin : ∀ w ∈ sadd v acc, w ∈ acc ∨ w = v := by
        intro w hw
        unfold sadd at hw
        split at hw
        · exact .inl hw
        · rcases List.mem_append.1 hw with h | h
          · exact .inl h
          · exact .inr (List.mem_singleton.1 h)
      have hcov : v ∈ sadd v acc ∨ ∃ v' ∈ acc, compared v' = compared v := by
        unfold sadd
        split
        · next h =>
          obtain ⟨w, hw, he⟩ := List.any_eq_true.1 h
          obtain ⟨x, hx⟩ := hs w hw
          exact .inr ⟨w, hw, (pyEq_compared hx hv).1 he⟩
        · exact .inl (by simp)
      have hpair : (sadd v acc).Pairwise (fun v v' => compared v ≠ compared v') := by
        unfold sadd
        split
        · exact h1
        · next h =>
          refine List.pairwise_append.2 ⟨h1, by simp, ?_⟩
          intro a ha b hb
          rw [List.mem_singleton] at hb
          subst hb
          intro e
          obtain ⟨x, hx⟩ := hs a ha
          exact h (List.any_eq_true.2 ⟨a, ha, (pyEq_compared hx hv).2 e⟩)
      obtain ⟨vs, g1, g2, g3, g4⟩ := ih (pre ++ [y]) (sadd v acc) (fun x hx => hy x (List.mem_cons_of_mem _ hx)) hpair
        (by
          intro w hw
          rcases hin w hw with h | rfl
          · obtain ⟨x, hx, h⟩ := h2 w h
            exact ⟨x, by simp [hx], h⟩
          · exact ⟨y, by simp, hv⟩)
        (by
          intro a b x w hab hw
          rcases List.eq_nil_or_concat b with rfl | ⟨b', z, rfl⟩
          · obtain ⟨rfl, e⟩ := List.append_inj' hab rfl
            cases e
            cases det hw hv
            rcases hcov with h | ⟨v', h, e⟩
            · exact .inl h
            · obtain ⟨x', hx', hs'⟩ := h2 v' h
              exact .inr ⟨x', hx', v', hs', hsub _ h, e⟩
          · have : pre = a ++ x :: b' := by
              have h' : pre ++ [y] = (a ++ x :: b') ++ [z] := by simpa using hab
              exact (List.append_inj' h' rfl).1
            rcases h3 a b' x w this hw with h | ⟨x', hx', v', hs', h, e⟩
            · exact .inl (hsub _ h)
            · exact .inr ⟨x', hx', v', hs', hsub _ h, e⟩)
      refine ⟨vs, fun s => ?_, g2, by simpa using g3, by simpa using g4⟩
      rw [foldM_cons]
      refine (bind_ok (a := sadd v acc) (s' := s) ?_).trans (g1 s)
      refine (bind_ok (hrs y v hv s)).trans ?_
      rw [bind_run, get_run]
      simp only [hh, if_true]
      rfl
  obtain ⟨vs, h1, h2, h3, h4⟩ := key (restore env 1) (fun x v h s => by cases h <;> rfl) xs [] [] hx .nil
    (fun v h => by cases h) (fun a b x v h => by cases a <;> cases h)
  have hr : ∀ s, restore env 2 (.obj [(p!"py/set", .arr xs)]) s = some (.ok (.set (s.nextId + 1) vs), { s with nextId := s.nextId + 1 }) := by
    intro s
    show restoreSet (restore env 1) [(p!"py/set", .arr xs)] s = _
    unfold restoreSet
    refine (bind_ok (a := vs) (s' := s) ?_).trans rfl
    have : (do
      let j ← PyM.ofExcept (Unpickler.item Tags.SET [(p!"py/set", .arr xs)])
      let xs ← PyM.ofExcept (jsonIter j)
      PyM.foldM (fun acc x => do
        let v ← restore env 1 x
        let s ← PyM.get
        if hashable s.heap v then Pure.pure (sadd v acc) else PyM.throw .typeError) [] xs : U (List Val)) s = some (.ok vs, s) := h1 s
    unfold PyM.tryCatch
    rw [this]
  have ht := hr { u with objs := [], idx := [], proxies := [] }
  have hm : ∀ m, 2 ≤ m → restoreTop env m (.obj [(p!"py/set", .arr xs)]) true u =
      some (.ok (.set (u.nextId + 1) vs), { u with objs := [], idx := [], proxies := [], nextId := u.nextId + 1 }) := by
    intro m h
    refine restoreTop_mono h ?_
    exact (bind_ok (x := Unpickler.reset) rfl).trans ((bind_ok ht).trans rfl)
  refine ⟨u.nextId + 1, vs, { u with objs := [], idx := [], proxies := [], nextId := u.nextId + 1 }, ⟨2, fun m h => ?_⟩, h2, by simpa using h3, by simpa using h4⟩
  unfold Api.decode
  rw [hl]
  exact (bind_ok (hm m h)).trans rfl

example : ∃ i u', Decodes { C10.env with loads := fun _ => some (.obj [(p!"py/set", .arr [.bool true, .int 1, .str p!"a", .int 0, .bool false, .str p!"a"])]) }
    p!"…" {} (.set i [.bool true, .str p!"a", .int 0]) u' :=
  ⟨1, _, decodes_of_run (n := 5) rfl⟩

/-- `[1.0, true, NaN, NaN, 1.5]`: the first of the ones and the first NaN -/
example : ∃ i u', Decodes { C10.env with loads := fun _ => some (.obj [(p!"py/set", .arr [.float 0x3ff0000000000000, .bool true, .float 0x7ff8000000000000, .float 0x7ff8000000000000,
    .float 0x3ff8000000000000])]) } p!"…" {} (.set i [.float 0x3ff0000000000000, .float 0x7ff8000000000000, .float 0x3ff8000000000000]) u' :=
  ⟨1, _, decodes_of_run (n := 5) rfl⟩

end JP.C28
