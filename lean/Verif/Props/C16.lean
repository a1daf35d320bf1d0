import Verif.Api
import Verif.Proofs.UTrace
import Verif.Proofs.UDispatch
/-!
# C16 — with `safe=True` decoding never evaluates code strings
-/
namespace JP.C16
open JP PyM Unpickler

/-- the event is an evaluation of text -/
def IsEval : Event → Prop
  | .eval _ => True
  | _ => False

theorem rule {env : UEnv} (hs : env.safe = true) : TraceRule env (fun evs _ => ∀ e ∈ evs, ¬ IsEval e) where
  nil _ _ h := by cases h
  app ha hb e he := (List.mem_append.1 he).elim (ha e) (hb e)
  caught ha hb e he := (List.mem_append.1 he).elim (ha e) (hb e)
  imp n e he := by cases List.mem_singleton.1 he; exact id
  call n e he := by cases List.mem_singleton.1 he; exact id
  miss n _ e he := by cases List.mem_singleton.1 he; exact id
  missErr n _ e he := by cases List.mem_singleton.1 he; exact id
  eval t h := by rw [hs] at h; cases h
  obj n _ e he := by cases List.mem_singleton.1 he; exact id
  objErr n _ e he := by
    rcases List.mem_cons.1 he with he | he
    · cases he; exact id
    · cases List.mem_singleton.1 he; exact id

/-- `Unpickler.restore(j)` with `safe=True`: whatever the document, the options, the classes that can be
found, the registered handlers and the earlier history are, and however the call ends, none of the things
that happened is an evaluation of text. -/
theorem restore_never_evaluates (env : UEnv) (hs : env.safe = true) (n : Nat) (j : Json) (reset : Bool) (u u' : UState)
    (r : Except Exc Val) (h : restoreTop env n j reset u = some (r, u')) :
    ∃ happened, u'.log = u.log ++ happened ∧ ∀ e ∈ happened, ¬ IsEval e :=
  tr_restoreTop (rule hs) n j reset u r u' h

/-- The same for `decode(text, safe=True)`. -/
theorem decode_never_evaluates (env : UEnv) (hs : env.safe = true) (n : Nat) (text : Str) (reset own : Bool)
    (u u' : UState) (r : Except Exc Val) (h : Api.decode env n text reset own u = some (r, u')) :
    ∃ happened, u'.log = u.log ++ happened ∧ ∀ e ∈ happened, ¬ IsEval e := by
  unfold Api.decode at h
  cases hl : env.loads text with
  | none =>
    simp only [hl] at h
    cases h
    exact ⟨[], (List.append_nil _).symm, fun _ h => by cases h⟩
  | some j =>
    simp only [hl] at h
    refine (Traced.bind (rule hs) (tr_restoreTop (rule hs) n j reset) (fun x => ?_)) u r u' h
    split
    · exact Traced.bind (rule hs) (Traced.reset (rule hs)) (fun _ => Traced.pure (rule hs) _)
    · exact Traced.pure (rule hs) _

/-- With `safe=False` every `py/repr` entry that the decoder gets to is evaluated, whatever its text. -/
theorem unsafe_evaluates (env : UEnv) (hs : env.safe = false) (n : Nat) (kvs : List (Str × Json)) (code : Str)
    (hk : tagOf kvs = some (p!"py/repr", .str code)) (u : UState) :
    ∃ r u', restore env (n + 1) (.obj kvs) u = some (r, u') ∧ u'.log = u.log ++ [.eval code] := by
  have hr : restore env (n + 1) (.obj kvs) u = restoreRepr env (.str code) u := by
    show restoreTags env (restore env n) kvs u = _
    rw [restoreTags_repr hk, hs]
    rfl
  have hr' : restore env (n + 1) (.obj kvs) u =
      (PyM.ofExcept (env.loadrepr code) >>= fun v => mkref v) { u with log := u.log ++ [.eval code] } := by
    rw [hr]; rfl
  rw [hr', bind_run]
  cases hl : env.loadrepr code with
  | error e => exact ⟨_, _, rfl, rfl⟩
  | ok v =>
    simp only [ofExcept_run]
    unfold mkref
    split
    · exact ⟨_, _, rfl, rfl⟩
    · exact ⟨_, _, rfl, rfl⟩

/-! ### examples -/

/-- everything can be found, and `eval` always works -/
def env (safe : Bool) : UEnv where
  safe := safe
  loadclass n := some (.type n)
  classInfo _ := {}
  handler _ := none
  loadmodule s := .ok (some (.module s))
  loadrepr s := .ok (.module s)
  loads _ := some (.arr [.obj [(p!"py/tuple", .arr [.obj [(p!"py/repr", .str p!"os/evil")]])],
    .obj [(p!"py/object", .str p!"m.C"), (p!"x", .obj [(p!"py/repr", .str p!"os/evil")])]])

/-- what happened -/
def happened (x : Option (Except Exc Val × UState)) : Option (List Event) := x.map (·.2.log)

/-- With `safe=True` the hidden code is looked up as a module and not evaluated … -/
example : happened (Api.decode (env true) 9 p!"…" true true {}) =
    some [.imp p!"os/evil", .imp p!"m.C", .obj p!"m.C", .call p!"m.C", .imp p!"os/evil"] := by decide +kernel

/-- … with `safe=False` it is evaluated (twice). -/
example : happened (Api.decode (env false) 9 p!"…" true true {}) =
    some [.eval p!"os/evil", .imp p!"m.C", .obj p!"m.C", .call p!"m.C", .eval p!"os/evil"] := by decide +kernel

example : tagOf [(p!"a", .null), (p!"py/repr", .str p!"os/evil")] = some (p!"py/repr", .str p!"os/evil") := by rfl

end JP.C16
