import Verif.Api
import Verif.Proofs.UTrace
import Verif.Proofs.UDispatch
import Verif.Proofs.URaw
/-!
# C17 — `on_missing='error'` reports every missing class
-/
namespace JP.C17
open JP PyM Unpickler

/-- if a missing class was met, or a `py/object` entry whose class cannot be found and has no handler was processed, the call raises `ClassNotFoundError` -/
def Surfaces (env : UEnv) (evs : List Event) (e : Option Exc) : Prop :=
  ∀ n, .missing n ∈ evs ∨ .obj n ∈ evs ∧ env.loadclass n = none ∧ env.handler n = none → e = some .classNotFound

theorem Surfaces.append {env : UEnv} {a b : List Event} {e e' : Option Exc} (he : e ≠ some .classNotFound) (ha : Surfaces env a e) (hb : Surfaces env b e') : Surfaces env (a ++ b) e' := by
  intro n h
  simp only [List.mem_append] at h
  rcases h with (h | h) | ⟨h | h, h1⟩
  · exact absurd (ha n (.inl h)) he
  · exact hb n (.inl h)
  · exact absurd (ha n (.inr ⟨h, h1⟩)) he
  · exact hb n (.inr ⟨h, h1⟩)

theorem rule {env : UEnv} (hs : env.onMissing = .error) : TraceRule env (Surfaces env) where
  nil e n h := by simp at h
  app ha hb := ha.append (by simp) hb
  caught ha hb := ha.append (by simp) hb
  imp n m h := by simp at h
  call n m h := by simp at h
  miss n h := by rcases h with h | h <;> (rw [hs] at h; cases h)
  missErr n _ m _ := rfl
  eval t _ m h := by simp at h
  obj n h m hm := by
    simp only [List.mem_singleton, reduceCtorEq, false_or, Event.obj.injEq] at hm
    obtain ⟨rfl, h1, h2⟩ := hm
    rcases h with h | h | h
    · exact absurd h1 h
    · exact absurd h2 h
    · exact absurd hs h
  objErr n _ m _ := rfl

theorem surfaces (env : UEnv) (hs : env.onMissing = .error) (n : Nat) (text : Str) (reset own : Bool) (u u' : UState)
    (r : Except Exc Val) (h : Api.decode env n text reset own u = some (r, u')) : ∃ evs, u'.log = u.log ++ evs ∧ Surfaces env evs (errOf r) := by
  unfold Api.decode at h
  cases hl : env.loads text with
  | none =>
    simp only [hl] at h
    cases h
    exact ⟨[], (List.append_nil _).symm, fun _ h => by simp at h⟩
  | some j =>
    simp only [hl] at h
    refine (Traced.bind (rule hs) (tr_restoreTop (rule hs) n j reset) (fun x => ?_)) u r u' h
    split
    · exact Traced.bind (rule hs) (Traced.reset (rule hs)) (fun _ => Traced.pure (rule hs) _)
    · exact Traced.pure (rule hs) _

/-- A missing class met anywhere in the document always surfaces as `ClassNotFoundError`: the decoder's own
error handling never swallows it.  (A class counts as missing also when it is found but cannot be
instantiated, see `uninstantiable`.) -/
theorem missing_surfaces (env : UEnv) (hs : env.onMissing = .error) (n : Nat) (text : Str) (reset own : Bool) (u u' : UState)
    (r : Except Exc Val) (h : Api.decode env n text reset own u = some (r, u')) :
    ∃ happened, u'.log = u.log ++ happened ∧ ((∃ c, .missing c ∈ happened) → r = .error .classNotFound) := by
  obtain ⟨evs, h1, h2⟩ := surfaces env hs n text reset own u u' r h
  refine ⟨evs, h1, fun ⟨c, hc⟩ => ?_⟩
  have := h2 c (.inl hc)
  cases r with
  | ok v => cases this
  | error e => cases this; rfl

/-- If `decode` returns a value, then the class of every `py/object` entry that was processed on the way was found, or has a registered handler. -/
theorem returned_all_found (env : UEnv) (hs : env.onMissing = .error) (n : Nat) (text : Str) (reset own : Bool) (u u' : UState)
    (v : Val) (h : Api.decode env n text reset own u = some (.ok v, u')) :
    ∃ happened, u'.log = u.log ++ happened ∧ ∀ c, .obj c ∈ happened → env.loadclass c ≠ none ∨ env.handler c ≠ none := by
  obtain ⟨evs, h1, h2⟩ := surfaces env hs n text reset own u u' _ h
  refine ⟨evs, h1, fun c hc => ?_⟩
  refine Classical.byContradiction fun hno => ?_
  have h3 : env.loadclass c = none := Classical.byContradiction fun h => hno (.inl h)
  have h4 : env.handler c = none := Classical.byContradiction fun h => hno (.inr h)
  cases h2 c (.inr ⟨hc, h3, h4⟩)

theorem anyRule {env : UEnv} : TraceRule env (fun _ _ => True) := by constructor <;> intros <;> trivial

/-- Every run that comes to a `py/object` entry records it (`Event.obj`), whatever becomes of it. -/
theorem entry_recorded (env : UEnv) (n : Nat) (kvs : List (Str × Json)) (c : Str) (hk : tagOf kvs = some (p!"py/object", .str c)) (u u' : UState) (r : Except Exc Val)
    (h : restore env (n + 1) (.obj kvs) u = some (r, u')) : ∃ more, u'.log = u.log ++ [.imp c, .obj c] ++ more := by
  have hi : item Tags.OBJECT kvs = .ok (.str c) := by
    unfold item; rw [show Tags.OBJECT = p!"py/object" from rfl, (tagOf_before hk).1]
  change restoreTags env (restore env n) kvs u = _ at h
  rw [restoreTags_object hk] at h
  unfold restoreObject at h
  rw [hi] at h
  rw [bind_ok (a := .str c) (s' := u) rfl, bind_ok (a := env.loadclass c) (s' := { u with log := u.log ++ [.imp c] }) rfl] at h
  simp only [] at h
  rw [bind_ok (a := ()) (s' := { u with log := u.log ++ [.imp c] ++ [.obj c] }) rfl] at h
  have hrs : ∀ j, Traced (fun _ _ => True) (restore env n j) := tr_restore anyRule n
  have key : ∀ (x : U Val), Traced (fun _ _ => True) x → x { u with log := u.log ++ [.imp c] ++ [.obj c] } = some (r, u') → ∃ more, u'.log = u.log ++ [.imp c, .obj c] ++ more := by
    intro x hx hr
    obtain ⟨evs, h1, _⟩ := hx _ _ _ hr
    exact ⟨evs, by rw [h1]; simp⟩
  cases hh : env.handler c with
  | some k =>
    rw [hh] at h
    exact key _ (tr_restoreHandled anyRule hrs _ _ _) h
  | none =>
    rw [hh] at h
    cases hc : env.loadclass c with
    | some v =>
      rw [hc] at h
      exact key _ (tr_restoreInstance anyRule hrs _ _) h
    | none =>
      rw [hc] at h
      exact key _ (tr_missingRaw anyRule _ _) h

/-- A `py/object` entry whose class is not found (and has no handler) raises, at any depth. -/
theorem entry_raises (env : UEnv) (hs : env.onMissing = .error) (n : Nat) (kvs : List (Str × Json)) (c : Str)
    (hk : tagOf kvs = some (p!"py/object", .str c)) (hc : env.loadclass c = none) (hh : env.handler c = none) (u : UState) :
    restore env (n + 1) (.obj kvs) u =
      some (.error .classNotFound, { u with log := u.log ++ [.imp c] ++ [.obj c] ++ [.missing c] }) := by
  have hi : item Tags.OBJECT kvs = .ok (.str c) := by
    unfold item; rw [show Tags.OBJECT = p!"py/object" from rfl, (tagOf_before hk).1]
  show restoreTags env (restore env n) kvs u = _
  rw [restoreTags_object hk]
  unfold restoreObject
  rw [hi]
  refine (bind_ok (a := .str c) (s' := u) rfl).trans ?_
  refine (bind_ok (a := env.loadclass c) (s' := { u with log := u.log ++ [.imp c] }) rfl).trans ?_
  refine (bind_ok (a := ()) (s' := { u with log := u.log ++ [.imp c] ++ [.obj c] }) rfl).trans ?_
  simp only [hh, hc, processMissing, hs]
  rfl

/-- If decoding returns a value, then the class of every `py/object` entry that it surely looked at (through
lists and plain dicts) was found or has a handler. -/
theorem surely_found (env : UEnv) (hs : env.onMissing = .error) (n : Nat) (j : Json) (reset : Bool) (u u' : UState) (x : Val)
    (h : restoreTop env n j reset u = some (.ok x, u')) (kvs : List (Str × Json)) (c : Str) (hj : Surely j (.obj kvs))
    (hk : tagOf kvs = some (p!"py/object", .str c)) : env.loadclass c ≠ none ∨ env.handler c ≠ none := by
  have key : ∃ n' t t' v, restore env n' (.obj kvs) t = some (.ok v, t') := by
    unfold restoreTop at h
    split at h
    · obtain ⟨_, s1, _, h⟩ := bind_eq_ok.1 h
      obtain ⟨_, s2, h, _⟩ := bind_eq_ok.1 h
      exact surely_restored hj h
    · exact surely_restored hj h
  obtain ⟨n', t, t', v, hr⟩ := key
  refine Classical.byContradiction fun hno => ?_
  have h1 : env.loadclass c = none := by cases hl : env.loadclass c with
    | none => rfl
    | some v => exact absurd (Or.inl (by rw [hl]; intro h; cases h)) hno
  have h2 : env.handler c = none := by cases hl : env.handler c with
    | none => rfl
    | some v => exact absurd (Or.inr (by rw [hl]; intro h; cases h)) hno
  cases n' with
  | zero => cases hr
  | succ n' =>
    rw [entry_raises env hs n' kvs c hk h1 h2] at hr
    cases hr

/-- With `on_missing='ignore'` such an entry decodes to the raw dict, all of it newly created. -/
theorem ignored_is_raw (env : UEnv) (hs : env.onMissing = .ignore) (n : Nat) (kvs : List (Str × Json)) (c : Str)
    (hk : tagOf kvs = some (p!"py/object", .str c)) (hc : env.loadclass c = none) (hh : env.handler c = none) (u : UState) :
    ∃ v u' new, restore env (n + 1) (.obj kvs) u = some (.ok v, u') ∧ u'.heap = u.heap ++ new ∧
      Reads u'.heap v (.obj kvs) := by
  have hi : item Tags.OBJECT kvs = .ok (.str c) := by
    unfold item; rw [show Tags.OBJECT = p!"py/object" from rfl, (tagOf_before hk).1]
  obtain ⟨v, new, h1, h2⟩ := raw_reads (.obj kvs) { u with log := u.log ++ [.imp c] ++ [.obj c] }
  have hr : restore env (n + 1) (.obj kvs) u = (raw (.obj kvs) >>= fun r => mkref r) { u with log := u.log ++ [.imp c] ++ [.obj c] } := by
    show restoreTags env (restore env n) kvs u = _
    rw [restoreTags_object hk]
    unfold restoreObject
    rw [hi]
    refine (bind_ok (a := .str c) (s' := u) rfl).trans ?_
    refine (bind_ok (a := env.loadclass c) (s' := { u with log := u.log ++ [.imp c] }) rfl).trans ?_
    refine (bind_ok (a := ()) (s' := { u with log := u.log ++ [.imp c] ++ [.obj c] }) rfl).trans ?_
    simp only [hh, hc, processMissing, hs]
    rfl
  rw [hr, bind_ok h1]
  unfold mkref
  split
  · exact ⟨_, _, new, rfl, rfl, h2⟩
  · exact ⟨_, _, new, rfl, rfl, h2⟩

/-! ### examples -/

/-- only `m.C` can be found; instances of `m.Bad` cannot be made -/
def env (om : OnMissing) (j : Json) : UEnv where
  onMissing := om
  loadclass n := if n = p!"m.C" ∨ n = p!"m.Bad" then some (.type n) else none
  classInfo n := if n = p!"m.Bad" then { newAccepts := fun _ => false, callAccepts := fun _ => false, blankOk := false } else {}
  handler _ := none
  loadmodule s := .ok (some (.module s))
  loadrepr s := .ok (.module s)
  loads _ := some j

def res (x : Option (Except Exc Val × UState)) : Option (Option Exc) := x.map (fun p => errOf p.1)

/-- `[{"py/object": "m.C", "x": {"py/tuple": [{"py/set": [{"py/object": "m.Gone"}]}]}}]`: the missing class is
inside a set inside a tuple, both of which swallow exceptions of other kinds. -/
def deep : Json := .arr [.obj [(p!"py/object", .str p!"m.C"),
  (p!"x", .obj [(p!"py/tuple", .arr [.obj [(p!"py/set", .arr [.obj [(p!"py/object", .str p!"m.Gone")]])]])])]]

example : res (Api.decode (env .error deep) 9 p!"…" true true {}) = some (some .classNotFound) := by decide +kernel
/-- decoded with the class found: the run records the entries inside the tuple and the set -/
def deepOk : Json := .arr [.obj [(p!"py/object", .str p!"m.C"),
  (p!"x", .obj [(p!"py/tuple", .arr [.obj [(p!"py/set", .arr [.obj [(p!"py/object", .str p!"m.C")]])]])])]]

example : res (Api.decode (env .error deepOk) 9 p!"…" true true {}) = some none ∧
    (Api.decode (env .error deepOk) 9 p!"…" true true {}).map (fun p => p.2.log.filter (fun e => e == .obj p!"m.C")) = some [.obj p!"m.C", .obj p!"m.C"] := by decide +kernel
example : res (Api.decode (env .ignore deep) 9 p!"…" true true {}) = some none := by decide +kernel

/-- a document that decodes although it names a class in a list in a dict: the class was found -/
example : Surely (.obj [(p!"a", .arr [.obj [(p!"py/object", .str p!"m.C")]])]) (.obj [(p!"py/object", .str p!"m.C")]) ∧
    res (Api.decode (env .error (.obj [(p!"a", .arr [.obj [(p!"py/object", .str p!"m.C")]])])) 9 p!"…" true true {}) = some none :=
  ⟨.value (by rfl) (.head _) (.elem (.head _) (.here _)), by decide +kernel⟩

/-- A class that exists but whose construction fails is reported as missing too. -/
theorem uninstantiable : ((env .error .null).loadclass p!"m.Bad").isSome ∧
    res (Api.decode (env .error (.obj [(p!"py/object", .str p!"m.Bad")])) 9 p!"…" true true {}) = some (some .classNotFound) := by
  decide +kernel

/-- A missing class named by a `py/type` entry is *not* reported, even with `on_missing='error'`: the entry
decodes to the raw dict. -/
theorem type_not_reported :
    res (Api.decode (env .error (.obj [(p!"py/type", .str p!"m.Gone")])) 9 p!"…" true true {}) = some none := by
  decide +kernel

end JP.C17
