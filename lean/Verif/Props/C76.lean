import Verif.Proofs.UNamesEq
import Verif.Props.C75
/-!
# C76 — what a document does not name has no influence on decoding it
-/
namespace JP.C76
open JP PyM Unpickler C75

/-- The two environments differ at most in what the document `j` does not name: options and backend are the same, the names in the
document (`Named`) denote the same and have the same handlers, and the classes and functions that it names (`C75.Reaches`) are the same. -/
structure Agree (env env' : UEnv) (j : Json) : Prop where
  keys : env.keys = env'.keys
  safe : env.safe = env'.safe
  v1 : env.v1 = env'.v1
  onMissing : env.onMissing = env'.onMissing
  loads : env.loads = env'.loads
  cls : ∀ s, Named env j s → env.loadclass s = env'.loadclass s
  mod : ∀ s, Named env j s → env.loadmodule s = env'.loadmodule s
  handler : ∀ s, Named env j s → env.handler s = env'.handler s
  info : ∀ n, Reaches env j n → env.classInfo n = env'.classInfo n

/-- With `safe=True`: other classes, functions, modules and handlers than those named by the document have no influence: the result, the
exception, the objects made, everything that happens and what the decoder remembers are the same. -/
theorem same (env env' : UEnv) (hs : env.safe = true) (g : env.Globals) (n : Nat) (j : Json) (A : Agree env env' j) (u : UState) :
    restoreTop env n j true u = restoreTop env' n j true u := by
  have A' : NAgree env env' (Reaches env j) (Named env j) := ⟨A.keys, A.safe, A.v1, A.onMissing, A.loads, A.cls, A.mod, A.handler, A.info⟩
  have main := tw_restore (l0 := u.log) (rules hs g j u.heap.length) A' n j (fun s hs => hs)
  show (Unpickler.reset >>= fun _ => restore env n j >>= fun v => swapProxies >>= fun _ => (Pure.pure v : U Val)) u =
    (Unpickler.reset >>= fun _ => restore env' n j >>= fun v => swapProxies >>= fun _ => (Pure.pure v : U Val)) u
  rw [bind_run, bind_run]
  show (restore env n j >>= fun v => swapProxies >>= fun _ => (Pure.pure v : U Val)) { u with objs := [], idx := [], proxies := [] } =
    (restore env' n j >>= fun v => swapProxies >>= fun _ => (Pure.pure v : U Val)) { u with objs := [], idx := [], proxies := [] }
  rw [bind_run, bind_run, main.2]
  refine ⟨Nat.le_refl _, fun a o ha ho => ?_, fun v hv => ?_, fun e he => ?_, [], (List.append_nil _).symm, fun e he => by cases he⟩
  · rw [List.getElem?_eq_none ha] at ho; cases ho
  · cases hv
  · cases he

/-- The same for `decode`. -/
theorem decode_same (env env' : UEnv) (hs : env.safe = true) (g : env.Globals) (n : Nat) (text : Str) (hl : env.loads text = env'.loads text)
    (A : ∀ j, env.loads text = some j → Agree env env' j) (own : Bool) (u : UState) :
    Api.decode env n text true own u = Api.decode env' n text true own u := by
  unfold Api.decode
  rw [← hl]
  cases ht : env.loads text with
  | none => rfl
  | some j =>
    simp only []
    rw [bind_run, bind_run, same env env' hs g n j (A j ht) u]

/-- Registering a handler for a class, or removing one, changes nothing for documents without the name of that class. -/
theorem other_handler (env : UEnv) (hs : env.safe = true) (g : env.Globals) (n : Nat) (j : Json) (c : Str) (k : Option HKind) (hc : ¬ Named env j c) (u : UState) :
    restoreTop { env with handler := fun s => if s = c then k else env.handler s } n j true u = restoreTop env n j true u :=
  (same env { env with handler := fun s => if s = c then k else env.handler s } hs g n j ⟨rfl, rfl, rfl, rfl, rfl, fun _ _ => rfl, fun _ _ => rfl, fun s hn => (if_neg (fun (e : s = c) => hc (e ▸ hn))).symm, fun _ _ => rfl⟩ u).symm

/-- Defining, redefining or removing a class or function, or passing one in `classes`, changes nothing for documents that do not name it. -/
theorem other_class (env : UEnv) (hs : env.safe = true) (g : env.Globals) (n : Nat) (j : Json) (c : Str) (v : Option Val) (i : ClassInfo) (hc : ¬ Reaches env j c) (u : UState) :
    restoreTop { env with loadclass := fun s => if s = c then v else env.loadclass s, classInfo := fun s => if s = c then i else env.classInfo s } n j true u =
      restoreTop env n j true u :=
  (same env { env with loadclass := fun s => if s = c then v else env.loadclass s, classInfo := fun s => if s = c then i else env.classInfo s } hs g n j
    ⟨rfl, rfl, rfl, rfl, rfl, fun s hn => (if_neg (fun (e : s = c) => hc (Or.inl (e ▸ hn)))).symm, fun _ _ => rfl, fun s hn => rfl,
    fun s hn => (if_neg (fun (e : s = c) => hc (e ▸ hn))).symm⟩ u).symm

/-! ### examples -/

/-- `[{"py/object": "m.C", "x": 1}]` -/
def doc : Json := .arr [.obj [(p!"py/object", .str p!"m.C"), (p!"x", .int 1)]]

theorem doc_named (env : UEnv) (hk : env.keys = false) (s : Str) (h : Named env doc s) : s = p!"m.C" := by
  cases h with
  | elem hm h =>
    rcases List.mem_singleton.1 hm with rfl
    cases h with
    | here h1 h2 =>
      simp at h1
      rcases h1 with ⟨_, rfl⟩
      rfl
    | key hk' => rw [hk] at hk'; cases hk'
    | value h1 h2 =>
      simp at h1
      rcases h1 with ⟨_, rfl⟩ | ⟨_, rfl⟩ <;> cases h2

/-- a handler for `m.D` does not matter for it … -/
example (u : UState) : restoreTop { C75.env with handler := fun s => if s = p!"m.D" then some .drop else C75.env.handler s } 9 doc true u = restoreTop C75.env 9 doc true u :=
  other_handler C75.env rfl C75.env_globals 9 doc p!"m.D" (some .drop) (fun h => absurd (doc_named _ rfl _ h) (by decide)) u

/-- … a handler for `m.C` does. -/
theorem named_handler_matters : Sample.res (restoreTop { C75.env with handler := fun s => if s = p!"m.C" then some .drop else none } 9 doc true {}) = some (.error .assertionError) ∧
    Sample.res (restoreTop C75.env 9 doc true {}) = some (.ok (.ref 0)) := by
  decide +kernel

/-- With `safe=False` more matters: the same `py/repr` text may be evaluated to something else.  (`loadrepr` is not part of `Agree`.) -/
theorem unsafe_differs : let j : Json := .obj [(p!"py/repr", .str p!"m/m.x")]
    Sample.res (restoreTop { C75.env with safe := false, loadrepr := fun _ => .ok (.int 1) } 9 j true {}) = some (.ok (.int 1)) ∧
    Sample.res (restoreTop { C75.env with safe := false, loadrepr := fun _ => .ok (.int 2) } 9 j true {}) = some (.ok (.int 2)) := by
  decide +kernel

end JP.C76
