import Verif.Proofs.Names
import Verif.Proofs.UFresh
import Verif.Session
import Verif.Sample
/-!
# C10 — an `Unpickler` can be reused: results do not depend on its history
-/
namespace JP.C10
open JP PyM Unpickler

theorem withClasses_globals {env : UEnv} {obj : Nat → Val} (g : env.Globals) (go : ∀ c, (obj c).Global) (classes : List (Str × Nat)) :
    (env.withClasses obj classes).Globals where
  cls n v h := by
    unfold UEnv.withClasses at h
    simp only at h
    split at h
    · injection h with h
      subst h
      exact go _
    · exact g.cls n v h
  mod n v h := g.mod n v h
  repr n v h := g.repr n v h

/-- Calling `restore(j)` (with `reset=True`) on an `Unpickler` in any state whatsoever - whatever it restored
before, including calls that raised and left object tables, indices and pending proxies behind, and whatever
else exists in memory - ends like the same call on a new `Unpickler` in an empty memory: with the same
exception, or with the same value made of the same objects, only at other addresses; the same events happen in
the same order.  Old objects are left alone.
Hypothesis: what can be found by name are classes, functions and modules. -/
theorem history_irrelevant (env : UEnv) (g : env.Globals) (n : Nat) (j : Json) (u : UState) (r : Except Exc Val) (s : UState)
    (h : restoreTop env n j true {} = some (r, s)) :
    ∃ u', restoreTop env n j true u = some (r.map (Val.shift u.heap.length u.nextId), u') ∧
      u'.heap = u.heap ++ s.heap.map (Obj.shift u.heap.length u.nextId) ∧ u'.log = u.log ++ s.log := by
  refine ⟨(before u).lift s, ?_, rfl, rfl⟩
  rw [restoreTop_lift g, h]
  rfl

/-- The calls that do not come to an end are also the same. -/
theorem history_irrelevant_diverges (env : UEnv) (g : env.Globals) (j : Json) (u : UState) (n : Nat) :
    restoreTop env n j true u = none ↔ restoreTop env n j true {} = none := by
  rw [restoreTop_lift g]
  cases restoreTop env n j true {} with
  | none => simp
  | some p => simp

/-- Two different histories: the outcomes are renamings of the same outcome. -/
theorem two_histories (env : UEnv) (g : env.Globals) (n : Nat) (j : Json) (u1 u2 u1' : UState) (r1 : Except Exc Val)
    (h : restoreTop env n j true u1 = some (r1, u1')) :
    ∃ (r : Except Exc Val) (new : Heap) (u2' : UState) (r2 : Except Exc Val), restoreTop env n j true u2 = some (r2, u2') ∧
      r1 = r.map (Val.shift u1.heap.length u1.nextId) ∧ r2 = r.map (Val.shift u2.heap.length u2.nextId) ∧
      u1'.heap = u1.heap ++ new.map (Obj.shift u1.heap.length u1.nextId) ∧
      u2'.heap = u2.heap ++ new.map (Obj.shift u2.heap.length u2.nextId) := by
  rw [restoreTop_lift g] at h
  obtain ⟨⟨r, s⟩, h0, h1⟩ := Option.map_eq_some_iff.1 h
  obtain ⟨u2', h2, h3, _⟩ := history_irrelevant env g n j u2 r s h0
  cases h1
  exact ⟨r, s.heap, u2', _, h2, rfl, rfl, rfl, h3⟩

/-- The whole `Unpickler`, with the classes registered with it: `restore(j, classes=…)` on an `Unpickler` in any state, with any classes registered by
earlier calls, ends like the same call on a new one; the classes registered afterwards are the same as well. -/
theorem session_history_irrelevant (env : UEnv) (obj : Nat → Val) (iname : Nat → Str) (g : env.Globals) (go : ∀ c, (obj c).Global) (n : Nat) (j : Json)
    (classes : Option LoadClass.ClassesArg) (u : USession) (r : Except Exc Val) (s : USession)
    (h : USession.restore env obj iname n j true classes {} = some (r, s)) :
    ∃ u', USession.restore env obj iname n j true classes u = some (r.map (Val.shift u.state.heap.length u.state.nextId), u') ∧
      u'.state.heap = u.state.heap ++ s.state.heap.map (Obj.shift u.state.heap.length u.state.nextId) ∧ u'.state.log = u.state.log ++ s.state.log ∧
      u'.classes = s.classes := by
  unfold USession.restore at h ⊢
  simp only [if_true] at h ⊢
  obtain ⟨⟨r0, s0⟩, h0, h1⟩ := Option.map_eq_some_iff.1 h
  injection h1 with h1 h2
  subst h1 h2
  obtain ⟨u', h3, h4, h5⟩ := history_irrelevant (env.withClasses obj _) (withClasses_globals g go _) n j u.state r0 s0 h0
  refine ⟨{ state := u', classes := _ }, ?_, h4, h5, rfl⟩
  rw [h3]
  rfl

/-- In particular the bookkeeping of earlier calls is not looked at, even when names can denote any object. -/
theorem bookkeeping_irrelevant (env : UEnv) (n : Nat) (j : Json) (s : UState) (objs : List Val) (idx : List (Ident × Nat))
    (proxies : List (Addr × Slot × Addr)) :
    restoreTop env n j true s = restoreTop env n j true { s with objs := objs, idx := idx, proxies := proxies } := rfl

/-! ### examples -/

/-- a program with one class -/
def env : UEnv where
  loadclass n := if n = p!"m.C" then some (.type n) else none
  classInfo _ := {}
  handler _ := none
  loadmodule _ := .error .importError
  loadrepr _ := .error .importError
  loads _ := none

theorem env_globals : env.Globals where
  cls n v h := by
    unfold env at h
    simp only at h
    split at h
    · cases h; trivial
    · cases h
  mod n v h := by cases h
  repr n v h := by cases h

/-- `[{"py/object": "m.C", "me": {"py/id": 2}}, {"py/id": 7}, {"py/tuple": [{"py/id": 2}]}]` -/
def doc : Json := .arr [.obj [(p!"py/object", .str p!"m.C"), (p!"me", .obj [(p!"py/id", .int 2)])],
  .obj [(p!"py/id", .int 7)], .obj [(p!"py/tuple", .arr [.obj [(p!"py/id", .int 1)]])]]

/-- a document on which decoding raises, leaving an object table behind -/
def bad : Json := .arr [.arr [], .arr [], .arr [], .obj [(p!"py/bytea", .int 5)]]

/-- what the bad call leaves -/
def used : UState := match restoreTop env 9 bad true {} with
  | some (_, s) => s
  | none => {}

example : (used.objs.length, used.heap.length) = (4, 4) := by decide +kernel
example : Sample.res (restoreTop env 9 bad true {}) = some (.error .typeError) := by decide +kernel

/-- The next call: the list is in cell 4 instead of cell 0. -/
example : Sample.res (restoreTop env 9 doc true {}) = some (.ok (.ref 0)) ∧ Sample.res (restoreTop env 9 doc true used) = some (.ok (.ref 4)) := by
  decide +kernel

/-- With `reset=False` the history matters (as documented): `{"py/id": 1}` then is the list that the bad call
was building. -/
theorem without_reset : Sample.res (restoreTop env 9 (.obj [(p!"py/id", .int 1)]) false {}) = some (.ok (.ref 0)) ∧
    Sample.res (restoreTop env 9 (.obj [(p!"py/id", .int 1)]) false used) = some (.ok (.ref 1)) := by decide +kernel

/-- a local class, registered by `restore(…, classes=[C])`, which only this call sees -/
def obj : Nat → Val := fun _ => .type p!"f.<locals>.L"

def local_ : Json := .obj [(p!"py/type", .str p!"L")]

theorem classes_forgotten :
    ((USession.restore env obj (fun _ => p!"L") 9 local_ true (some (.seq [.cls 0])) {}).map (fun p => (p.1, p.2.classes))) = some (.ok (.type p!"f.<locals>.L"), [(p!"L", 0)]) ∧
    ((USession.restore env obj (fun _ => p!"L") 9 local_ true none { classes := [(p!"L", 0)] }).map (fun p => (p.1, p.2.classes))) =
      ((USession.restore env obj (fun _ => p!"L") 9 local_ true none {}).map (fun p => (p.1, p.2.classes))) := by decide +kernel

/-- With `reset=False` the registered classes stay. -/
theorem classes_stay : ((USession.restore env obj (fun _ => p!"L") 9 local_ false none { classes := [(p!"L", 0)] }).map (fun p => p.1)) = some (.ok (.type p!"f.<locals>.L")) ∧
    ((USession.restore env obj (fun _ => p!"L") 9 local_ false none {}).map (fun p => p.1)) ≠ some (.ok (.type p!"f.<locals>.L")) := by decide +kernel

theorem last_part {m k : Str} (hk : 46 ∉ k) : (LoadClass.splitDot (m ++ 46 :: k)).getLast? = some k := by
  induction m with
  | nil =>
    rw [List.nil_append, LoadClass.splitDot, if_pos rfl, LoadClass.splitDot_nodot k hk]
    rfl
  | cons c m ih =>
    rw [List.cons_append, LoadClass.splitDot]
    split
    · rw [List.getLast?_cons, ih]; rfl
    · cases hs : LoadClass.splitDot (m ++ 46 :: k) with
      | nil => exact absurd hs (LoadClass.splitDot_ne_nil _)
      | cons x xs =>
        rw [hs] at ih
        cases xs with
        | nil =>
          exfalso
          have h1 : x = k := by simpa using ih
          have h2 := LoadClass.joinDot_splitDot (m ++ 46 :: k)
          rw [hs, h1] at h2
          have := congrArg List.length h2
          simp [LoadClass.joinDot] at this
          omega
        | cons y ys => simpa [List.getLast?_cons_cons] using ih

/-- A registered class is found under its full name; if none is registered under the full name, under the last part of the name. -/
theorem registered (env : UEnv) (obj : Nat → Val) (iname : Nat → Str) (s : USession) (m k : Str) (hk : 46 ∉ k) (c n : Nat)
    (hc : dget (m ++ 46 :: k) s.classes = some c ∨ dget (m ++ 46 :: k) s.classes = none ∧ dget k s.classes = some c) :
    (USession.restore env obj iname (n + 1) (.obj [(p!"py/type", .str (m ++ 46 :: k))]) false none s).map (fun p => p.1) = some (.ok (obj c)) := by
  have hne : s.classes ≠ [] := by
    intro e
    rw [e] at hc
    rcases hc with h | ⟨_, h⟩ <;> cases h
  have hp : providedClass s.classes (m ++ 46 :: k) = some c := by
    unfold providedClass
    rw [if_neg hne]
    rcases hc with h | ⟨h1, h2⟩
    · rw [h]
    · rw [h1, last_part hk]
      exact h2
  have hl : (env.withClasses obj s.classes).loadclass (m ++ 46 :: k) = some (obj c) := by
    unfold UEnv.withClasses
    simp only [hp]
  have hr : Unpickler.restoreTop (env.withClasses obj s.classes) (n + 1) (.obj [(p!"py/type", .str (m ++ 46 :: k))]) false s.state =
      some (.ok (obj c), { s.state with log := s.state.log ++ [Event.imp (m ++ 46 :: k)] }) := by
    change restoreType (env.withClasses obj s.classes) [(Tags.TYPE, .str (m ++ 46 :: k))] s.state = _
    refine (bind_ok (a := Json.str (m ++ 46 :: k)) (s' := s.state) rfl).trans
      ((bind_ok (a := some (obj c)) (s' := { s.state with log := s.state.log ++ [Event.imp (m ++ 46 :: k)] }) ?_).trans rfl)
    show some (Except.ok ((env.withClasses obj s.classes).loadclass (m ++ 46 :: k)), _) = _
    rw [hl]
  unfold USession.restore
  simp only [Bool.false_eq_true, if_false]
  rw [hr]
  rfl

example : (USession.restore env obj (fun _ => p!"L") 1 (.obj [(p!"py/type", .str p!"pkg.mod.L")]) false none { classes := [(p!"L", 0)] }).map (fun p => p.1) = some (.ok (.type p!"f.<locals>.L")) :=
  registered env obj _ _ p!"pkg.mod" p!"L" (by decide) 0 0 (.inr ⟨by decide, by decide⟩)

end JP.C10
