import Verif.Proofs.PInst
import Verif.Proofs.PInterrupt
import Verif.Api
import Verif.Sample
/-! # C14 — `fail_safe` absorbs every error while encoding -/
namespace JP.C14
open JP PyM Pickler

/-- No call of `_flatten` lets an `Exception` through when `fail_safe` is given and does not raise. -/
theorem absorbs (w : World) (cfg : PCfg) (f : Exc → Except Exc Json) (hf : cfg.failSafe = some f)
    (hok : ∀ e, ∃ j, f e = .ok j) (n : Nat) (v : Val) (s s1 : PState) (e : Exc)
    (h : flatten w cfg n v s = some (.error e, s1)) : e.isException = false := by
  cases n with
  | zero => cases h
  | succ n =>
    have body : ∀ (v : Val) (s s1 : PState) (e : Exc),
        (do push; let j ← flattenObj w cfg (flatten w cfg n) v; pop j) s = some (.error e, s1) →
        e.isException = false := by
      intro v s s1 e h
      simp only [flattenObj, flattenObjWith, push, bind_run, modify_run, maxReached, gets_run,
        PyM.tryCatch, hf] at h
      split at h
      · cases h
      · next e' s' h' =>
        cases h
        split at h'
        · next e'' s'' _ =>
          split at h'
          · obtain ⟨j, hj⟩ := hok e''
            rw [hj] at h'
            cases h'
          · next hp =>
            injection h' with h'
            injection h' with h1 h2
            injection h1 with h1
            subst h1
            simpa using hp
        · next hne =>
          exact (hne _ _ h').elim
      · simp [pop] at h
    have impl : ∀ (v : Val) (s s1 : PState) (e : Exc),
        flattenImpl w cfg (flatten w cfg n) v s = some (.error e, s1) → e.isException = false := by
      intro v s s1 e h
      unfold flattenImpl at h
      split at h <;> first | exact body _ _ _ _ h | cases h
    have cach : ∀ (v : Val) (s s1 : PState) (e : Exc) (i : Ident),
        cached cfg i (flattenImpl w cfg (flatten w cfg n) v) s = some (.error e, s1) →
        e.isException = false := by
      intro v s s1 e i h
      unfold cached at h
      split at h
      · exact impl _ _ _ _ h
      · rw [bind_ok (get_run s)] at h
        cases hfind : s.flattened.find? (fun p => p.1 == i) with
        | some p => rw [hfind] at h; cases h
        | none =>
          rw [hfind] at h
          rcases bind_eq_error.mp h with h | ⟨a, s2, _, h⟩
          · exact impl _ _ _ _ h
          · cases h
    simp only [flatten, flattenStep] at h
    split at h
    all_goals first | exact cach _ _ _ _ _ h | exact impl _ _ _ _ h

/-- The same for `encode` (the backend of the model accepts every document). -/
theorem encode_absorbs (w : World) (cfg : PCfg) (f : Exc → Except Exc Json) (hf : cfg.failSafe = some f) (hok : ∀ e, ∃ j, f e = .ok j)
    (n : Nat) (v : Val) (reset : Bool) (s s1 : PState) (e : Exc) (h : Api.encode w cfg n v reset s = some (.error e, s1)) : e.isException = false := by
  unfold Api.encode at h
  rcases bind_eq_error.mp h with h | ⟨a, s2, _, h⟩
  · unfold flattenTop at h
    split at h
    · rcases bind_eq_error.mp h with h | ⟨_, s2, _, h⟩
      · cases h
      · exact absorbs w cfg f hf hok _ _ _ _ _ h
    · exact absorbs w cfg f hf hok _ _ _ _ _ h
  · cases h

/-- a value that is a container, an object, a class, a function or a module -/
def Compound : Val → Prop
  | .none | .bool _ | .int _ | .float _ | .str _ | .bytes _ _ | .bytearray _ _ => False
  | _ => True

/-- the value is a member of an enum -/
def Member (w : World) (v : Val) : Prop := ∃ a i, v = .ref a ∧ w.heap[(a : Nat)]? = some (.inst i) ∧ i.info.isEnum = true

theorem member_iff {w : World} {v : Val} : isEnumV w v = false ↔ ¬ Member w v := by
  rw [Bool.eq_false_iff]
  refine not_congr ⟨fun h => ?_, ?_⟩
  · unfold isEnumV at h
    split at h
    · split at h
      · exact ⟨_, _, rfl, by assumption, h⟩
      · cases h
    · cases h
  · rintro ⟨a, i, rfl, hi, he⟩
    unfold isEnumV
    simp only [hi, he]

/-- at this point the value is cut off and replaced by its `repr`: `max_depth` is reached, or it was met before and `make_refs=False` -/
def CutOff (w : World) (cfg : PCfg) (v : Val) (s : PState) : Prop :=
  (cfg.maxDepth = some (s.depth + 1) ∨ cfg.makeRefs = false ∧ v.ident ∈ s.objs) ∧ ¬ Member w v

/-- no result for the value is remembered from before (nothing ever is when references are on) -/
def Fresh (cfg : PCfg) (v : Val) (s : PState) : Prop :=
  (cfg.unpicklable = true ∧ cfg.makeRefs = true) ∨ ∀ p ∈ s.flattened, p.1 ≠ v.ident

/-- the value is encoded, and while that is done user code raises `e`: in its `repr` if the value is cut off, otherwise anywhere in its encoding -/
def Raises (w : World) (cfg : PCfg) (n : Nat) (v : Val) (s : PState) (e : Exc) (s1 : PState) : Prop :=
  Fresh cfg v s ∧
  ((CutOff w cfg v s ∧ w.repr v = .error e ∧ s1 = { s with depth := s.depth + 1, seen := s.seen ++ [v] }) ∨
  ¬ CutOff w cfg v s ∧ flattenBy w cfg (flatten w cfg n) v { s with depth := s.depth + 1, seen := s.seen ++ [v] } = some (.error e, s1))

theorem cutOff_iff {w : World} {cfg : PCfg} {v : Val} {s : PState} :
    ((((some (s.depth + 1) == cfg.maxDepth) || (!cfg.makeRefs && s.objs.contains v.ident)) && !isEnumV w v) = true) ↔ CutOff w cfg v s := by
  unfold CutOff
  simp only [Bool.and_eq_true, Bool.or_eq_true, Bool.not_eq_true', beq_iff_eq, List.contains_iff_mem, member_iff]
  constructor
  · rintro ⟨h | h, h'⟩
    · exact ⟨.inl h.symm, h'⟩
    · exact ⟨.inr h, h'⟩
  · rintro ⟨h | h, h'⟩
    · exact ⟨.inl h.symm, h'⟩
    · exact ⟨.inr h, h'⟩

/-- what `_flatten_obj` does when user code raises -/
theorem obj_raises {w : World} {cfg : PCfg} {n : Nat} {v : Val} {s s1 : PState} {e : Exc} (h : Raises w cfg n v s e s1) :
    flattenObj w cfg (flatten w cfg n) v { s with depth := s.depth + 1 } =
      if e.isException && cfg.failSafe.isSome then (match cfg.failSafe with
        | some f => (ofExcept (f e) : P Json)
        | none => throw e) s1 else some (.error e, s1) := by
  simp only [flattenObj, flattenObjWith, bind_run, modify_run, maxReached, gets_run, PyM.tryCatch, inCycle]
  rcases h with ⟨_, ⟨hc, hr, rfl⟩ | ⟨hc, hb⟩⟩
  · rw [if_pos (cutOff_iff.2 hc)]
    simp only [bind_run, hr]
    rfl
  · rw [if_neg (fun h => hc (cutOff_iff.1 h)), hb]
    rfl

theorem flatten_compound {w : World} {cfg : PCfg} {n : Nat} {v : Val} (hv : Compound v) :
    flatten w cfg (n + 1) v = cached cfg v.ident (do push; let j ← flattenObj w cfg (flatten w cfg n) v; pop j) := by
  cases v <;> first | exact hv.elim | rfl

theorem cached_fresh {cfg : PCfg} {v : Val} {s : PState} (hs : Fresh cfg v s) (x : P Json) :
    cached cfg v.ident x s = if cfg.unpicklable && cfg.makeRefs then x s else
      (x >>= fun j => modify (fun s => { s with flattened := (v.ident, j) :: s.flattened }) >>= fun _ => pure j) s := by
  unfold cached
  split
  · rfl
  · next hc =>
    rcases hs with hs | hs
    · exact absurd (by simp [hs]) hc
    · have : s.flattened.find? (fun p => p.1 == v.ident) = none := by
        rw [List.find?_eq_none]
        intro p hp h
        exact hs p hp (by simpa using h)
      rw [bind_ok (get_run s), this]

/-- Wherever user code raises while a container or object is being encoded, in any mode: the value is replaced by what the callback returned
for that exception. -/
theorem replaced (w : World) (cfg : PCfg) (f : Exc → Except Exc Json) (hf : cfg.failSafe = some f) (n : Nat) (v : Val) (hv : Compound v)
    (s s1 : PState) (e : Exc) (j : Json) (hfe : f e = .ok j) (hx : e.isException = true) (h : Raises w cfg n v s e s1) :
    ∃ s2, flatten w cfg (n + 1) v s = some (.ok j, s2) := by
  have ho : flattenObj w cfg (flatten w cfg n) v { s with depth := s.depth + 1 } = some (.ok j, s1) := by
    rw [obj_raises h]
    simp [hx, hf, hfe]
  rw [flatten_compound hv, cached_fresh h.1]
  split <;> (simp only [push, bind_run, modify_run, ho, pop, pure_run]; exact ⟨_, rfl⟩)

/-- Exceptions that are not `Exception`s (`KeyboardInterrupt`, `SystemExit`) still propagate, in any mode, wherever in the object graph user code
raises one: if two programs (their `fail_safe` callbacks included) differ only in calls of user code that raise `e` in the first, then
`encode` raises `e` in the first, or none of these calls was reached and it does the same in both. -/
theorem propagates (e : Exc) (he : e.isException = false) (w w' : World) (cfg : PCfg) (fs : Option (Exc → Except Exc Json)) (hw : WorldUntil e w w')
    (hs : SafeUntil e cfg.failSafe fs) (n : Nat) (v : Val) (reset : Bool) (s : PState) :
    (∃ s1, Api.encode w cfg n v reset s = some (.error e, s1)) ∨ Api.encode w cfg n v reset s = Api.encode w' { cfg with failSafe := fs } n v reset s := by
  have hx : Passes e cfg w w' := ⟨(fun h => by rw [h] at he; cases he), (fun h => by rw [h] at he; cases he), (fun h => by rw [h] at he; cases he), .inl he⟩
  exact (UntilRun.u_encode hw hx hs n v reset s).symm

/-- an object whose `__getstate__` raises `ValueError` (resp. `KeyboardInterrupt`) -/
def heap (e : Exc) : Heap :=
  [.list [.int 1, .ref 1, .int 2],
   .inst { cls := p!"m.B", info := { ownGetstate := true }, state := .error e }]

def cfg : PCfg := { failSafe := some (fun _ => .ok (.str p!"failed")) }

/-- the failing element is replaced, its neighbours are encoded -/
example : (∀ e, ∃ j, (fun _ : Exc => (Except.ok (.str p!"failed") : Except Exc Json)) e = .ok j) ∧
    Sample.res (flattenTop (Sample.world (heap .valueError)) cfg 5 (.ref 0) true {}) =
      some (.ok (.arr [.int 1, .str p!"failed", .int 2])) ∧
    Sample.res (flattenTop (Sample.world (heap .valueError)) {} 5 (.ref 0) true {}) =
      some (.error .valueError) ∧
    Sample.res (flattenTop (Sample.world (heap .keyboardInterrupt)) cfg 5 (.ref 0) true {}) =
      some (.error .keyboardInterrupt) := by
  exact ⟨fun _ => ⟨_, rfl⟩, by decide +kernel⟩

/-- the hypotheses are met by that object: at the second level, without references and with a depth limit -/
example : Compound (.ref 1) ∧
    ∃ s1, Raises (Sample.world (heap .valueError)) { cfg with makeRefs := false, maxDepth := some 7 } 5 (.ref 1) { depth := 0, objs := [.addr 0] } .valueError s1 := by
  refine ⟨trivial, { depth := 1, objs := [.addr 0, .addr 1], seen := [.ref 1] }, .inr (fun p hp => by cases hp), .inr ⟨?_, rfl⟩⟩
  rintro ⟨h | h, _⟩
  · exact absurd h (by decide)
  · exact absurd h.2 (by decide)

/-- an object whose handler writes the field `x` and is interrupted before it writes `y`, in a list -/
def interrupted : Heap :=
  [.list [.int 1, .ref 1], .inst { cls := p!"m.H", hfields := [(p!"x", .int 1)], errs := { handler := some .keyboardInterrupt } }]
/-- the same without the interrupt -/
def completed : Heap := [.list [.int 1, .ref 1], .inst { cls := p!"m.H", hfields := [(p!"x", .int 1), (p!"y", .int 2)] }]

def program (h : Heap) : World := { Sample.world h with handler := fun _ => some .record }

example : WorldUntil .keyboardInterrupt (program interrupted) (program completed) ∧ SafeUntil .keyboardInterrupt cfg.failSafe cfg.failSafe ∧
    Sample.res (flattenTop (program interrupted) cfg 5 (.ref 0) true {}) = some (.error .keyboardInterrupt) ∧
    Sample.res (flattenTop (program completed) cfg 5 (.ref 0) true {}) =
      some (.ok (.arr [.int 1, .obj [(p!"py/object", .str p!"m.H"), (p!"x", .int 1), (p!"y", .int 2)]])) := by
  refine ⟨⟨⟨.same _, .inst _ _ ⟨rfl, .inl rfl, .inl rfl, .inl rfl, .inl rfl, .inl rfl, .inl rfl, .inr ⟨rfl, [(p!"y", .int 2)], rfl⟩, .inl ⟨rfl, rfl⟩⟩, trivial⟩, fun _ => .inl rfl, fun _ => .inl rfl, rfl, rfl⟩, fun _ => .inl rfl, ?_⟩
  decide +kernel

end JP.C14
