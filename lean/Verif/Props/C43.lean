import Verif.Api
import Verif.ApiSpec
import Verif.SampleRound
import Verif.Proofs.UMono
import Verif.Proofs.Run
import Verif.Props.C18
/-!
# C43 — module references, through `encode` and `decode`

What the look-up `_loadmodule` does with a text is in `Props/C18.lean` (`loadmodule_iff`, `loadmodule_fails`).
-/
namespace JP.C43
open JP PyM Unpickler

/-- the document for a module -/
def docOf (n : Str) : Json := .obj [(p!"py/mod", .str (n ++ p!"/" ++ n))]

/-- With `unpicklable=True` a module is written as `{"py/mod": "name/name"}`, with references on or off.  With `max_depth=0` it is written
as its `repr` (`depth_zero`). -/
theorem module_written_partial (w : World) (cfg : PCfg) (hu : cfg.unpicklable = true) (hmax : cfg.maxDepth ≠ some 0) (n : Str) : Encodes w cfg (.module n) (w.dumps (docOf n)) := by
  have hm : (some (0 : Int) == cfg.maxDepth) = false := by
    cases hd : cfg.maxDepth with
    | none => rfl
    | some d =>
      have : d ≠ 0 := fun e => hmax (by rw [hd, e])
      simpa using fun e => this e.symm
  have key : ∃ s', ∀ fl, Pickler.flattenStep w cfg fl (.module n) {} = some (.ok (docOf n), s') := by
    have e : docOf n = .obj [(Tags.MODULE, .str (n ++ 47 :: n))] := by simp [docOf]; rfl
    rw [e]
    cases hr : cfg.makeRefs <;>
      simp [Pickler.flattenStep, Pickler.cached, hu, hr, hm, Pickler.flattenImpl, Pickler.flattenObj, Pickler.flattenObjWith, Pickler.flattenBy,
        Pickler.refObjInstance, Pickler.flattenModule, Pickler.mkref, Pickler.logRef, Pickler.push, Pickler.pop, Pickler.maxReached, Pickler.inCycle, bind_run, PyM.tryCatch]
  obtain ⟨s', hs⟩ := key
  refine ⟨1, s', fun m s hm => ?_⟩
  obtain ⟨m, rfl⟩ : ∃ k, m = k + 1 := ⟨m - 1, by omega⟩
  refine (bind_ok (a := docOf n) (s' := s') ?_).trans rfl
  unfold Pickler.flattenTop
  rw [if_pos rfl]
  exact (bind_ok (modify_run _ _)).trans (hs _)

/-- What `decode` makes of `{"py/mod": s}` is what the look-up of `s` gives: the object found, `None`, or its exception.  No object is changed. -/
theorem module_read (env : UEnv) (text s : Str) (hl : env.loads text = some (.obj [(p!"py/mod", .str s)])) (u : UState) :
    ∃ u', u'.heap = u.heap ∧ ∀ m, 1 ≤ m → Api.decode env m text true true u = some ((env.loadmodule s).map (·.getD .none), u') := by
  have h : ∀ rs v, restoreStep env rs (.obj [(p!"py/mod", .str s)]) v = (emit (.imp s) >>= fun _ => (ofExcept (env.loadmodule s) : U _) >>= fun r => mkref (r.getD .none)) v := fun _ _ => rfl
  cases hm : env.loadmodule s with
  | error e =>
    refine ⟨{ u with objs := [], idx := [], proxies := [], log := u.log ++ [.imp s] }, rfl, fun m hm1 => ?_⟩
    obtain ⟨m, rfl⟩ : ∃ k, m = k + 1 := ⟨m - 1, by omega⟩
    simp only [Api.decode, hl, restoreTop, if_true, bind_run, restore, h, hm]
    rfl
  | ok r =>
    refine ⟨{ u with objs := [], idx := [], proxies := [], log := u.log ++ [.imp s] }, rfl, fun m hm1 => ?_⟩
    obtain ⟨m, rfl⟩ : ∃ k, m = k + 1 := ⟨m - 1, by omega⟩
    simp only [Api.decode, hl, restoreTop, if_true, bind_run, restore, h, hm]
    rfl

/-- Both together: the module comes back when the look-up of `name/name` finds it (for when it does: `loadmodule_iff`). -/
theorem module_round_trip_partial (w : World) (cfg : PCfg) (env : UEnv) (hu : cfg.unpicklable = true) (hmax : cfg.maxDepth ≠ some 0) (n : Str)
    (hl : env.loads (w.dumps (docOf n)) = some (docOf n)) (hi : env.loadmodule (n ++ p!"/" ++ n) = .ok (some (.module n))) (u : UState) :
    ∃ text u', Encodes w cfg (.module n) text ∧ Decodes env text u (.module n) u' ∧ u'.heap = u.heap := by
  obtain ⟨u', h1, h2⟩ := module_read env _ _ hl u
  refine ⟨_, u', module_written_partial w cfg hu hmax n, ⟨1, fun m hm => ?_⟩, h1⟩
  rw [h2 m hm, hi]
  rfl

/-! ### examples -/

example : Sample.program.env.loadmodule (p!"m" ++ p!"/" ++ p!"m") = .ok (some (.module p!"m")) := by decide

/-- With `max_depth=0` the module is written as its `repr`. -/
theorem depth_zero : Sample.res (Pickler.flattenTop (Sample.world []) { maxDepth := some 0 } 9 (.module p!"m") true {}) =
    Sample.res (some (((Sample.world []).repr (.module p!"m")).map Json.str, ({} : PState))) := by decide +kernel

end JP.C43
