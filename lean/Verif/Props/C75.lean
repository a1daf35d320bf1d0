import Verif.Api
import Verif.Proofs.UNames
import Verif.Rename
import Verif.LoadClass
import Verif.Props.C10
/-!
# C75 — with `safe=True` decoding looks up and calls only what the document names
-/
namespace JP.C75
open JP PyM Unpickler

/-- `n` is a string that the document uses as a name (`Named`, Verif/Proofs/UNames.lean), or the class or function that such a string
denotes. -/
def Reaches (env : UEnv) (j : Json) (n : Str) : Prop :=
  Named env j n ∨ ∃ s v, Named env j s ∧ (env.loadclass s = some v ∨ env.loadmodule s = .ok (some v)) ∧ (v = .type n ∨ v = .func n)

theorem fit_global {C : Str → Prop} {N : Nat} {v : Val} (hg : v.Global) (hc : ∀ n, v = .type n ∨ v = .func n → C n) : Fit C N v := by
  cases v with
  | type n => exact hc n (Or.inl rfl)
  | func n => exact hc n (Or.inr rfl)
  | ref _ => cases hg
  | tuple _ _ => cases hg
  | set _ _ => cases hg
  | _ => exact trivial

/-- The general form: `C` are the names of what may be called. -/
theorem names {env : UEnv} {C : Str → Prop} {j : Json} {u : UState} (R : NRules env C (Named env j) u.heap.length) (n : Nat) (reset : Bool)
    (hr : reset = true ∨ (u.objs = [] ∧ u.proxies = [])) {u' : UState} {r : Except Exc Val} (h : restoreTop env n j reset u = some (r, u')) :
    NInv C (Named env j) u.heap.length u.log u' ∧ ∀ v, r = .ok v → Fit C u.heap.length v := by
  have old : ∀ (us : UState), us.heap = u.heap → us.log = u.log → us.objs = [] → us.proxies = [] → NInv C (Named env j) u.heap.length u.log us := by
    intro us h1 h2 h3 h4
    refine ⟨by rw [h1]; exact Nat.le_refl _, fun a o ha ho => ?_, fun v hv => ?_, fun e he => ?_, [], by rw [h2, List.append_nil], fun e he => by cases he⟩
    · rw [h1, List.getElem?_eq_none ha] at ho; cases ho
    · rw [h3] at hv; cases hv
    · rw [h4] at he; cases he
  have main := fl_restore (l0 := u.log) R n j (fun s hs => hs)
  cases reset with
  | false =>
    rcases hr with hr | hr
    · cases hr
    · exact main u r u' h (old u rfl rfl hr.1 hr.2)
  | true =>
    have h : (Unpickler.reset >>= fun _ => restore env n j >>= fun v => swapProxies >>= fun _ => (Pure.pure v : U Val)) u = some (r, u') := h
    refine (Flow.bind main (fun v hv => Flow.bind Flow.swapProxies (fun _ _ => Flow.pure hv))
      : Flow C (Named env j) u.heap.length u.log _ (Fit C u.heap.length)) { u with objs := [], idx := [], proxies := [] } r u' h (old _ rfl rfl rfl rfl)

theorem rules {env : UEnv} (hs : env.safe = true) (g : env.Globals) (j : Json) (N : Nat) : NRules env (Reaches env j) (Named env j) N where
  safe := hs
  named s h := Or.inl h
  cls s v h e := fit_global (g.cls s v e) (fun n hn => Or.inr ⟨s, v, h, Or.inl e, hn⟩)
  mod s v h e := fit_global (g.mod s v e) (fun n hn => Or.inr ⟨s, v, h, Or.inr e, hn⟩)

/-- the events are among those that the document asks for -/
def Asked (env : UEnv) (j : Json) (happened : List Event) : Prop :=
  (∀ s, .imp s ∈ happened → Named env j s) ∧ (∀ s, .obj s ∈ happened → Named env j s) ∧ (∀ s, .missing s ∈ happened → Named env j s) ∧
  (∀ n, .call n ∈ happened → Reaches env j n) ∧ (∀ t, .eval t ∉ happened)

/-- `Unpickler.restore(j)` with `safe=True`: whatever the document, the options, the classes, the handlers and the objects that exist
already are, and however the call ends: the names that were looked up are names in the document, and what was called (classes, `__new__`,
functions of `py/reduce`, state setters) is named by the document.  What can be found by name are classes, functions, modules and
constants. -/
theorem only_named (env : UEnv) (hs : env.safe = true) (g : env.Globals) (n : Nat) (j : Json) (reset : Bool) (u u' : UState)
    (hr : reset = true ∨ (u.objs = [] ∧ u.proxies = [])) (r : Except Exc Val) (h : restoreTop env n j reset u = some (r, u')) :
    ∃ happened, u'.log = u.log ++ happened ∧ Asked env j happened := by
  obtain ⟨evs, h1, h2⟩ := (names (rules hs g j _) n reset hr h).1.log
  exact ⟨evs, h1, fun s hm => h2 _ hm, fun s hm => h2 _ hm, fun s hm => h2 _ hm, fun n hm => h2 _ hm, fun t hm => h2 _ hm⟩

/-- The same for `decode(text)`. -/
theorem decode_only_named (env : UEnv) (hs : env.safe = true) (g : env.Globals) (n : Nat) (text : Str) (reset own : Bool) (u u' : UState)
    (hr : reset = true ∨ (u.objs = [] ∧ u.proxies = [])) (r : Except Exc Val) (h : Api.decode env n text reset own u = some (r, u')) :
    (env.loads text = none ∧ u'.log = u.log) ∨ ∃ j happened, env.loads text = some j ∧ u'.log = u.log ++ happened ∧ Asked env j happened := by
  unfold Api.decode at h
  cases hl : env.loads text with
  | none =>
    simp only [hl] at h
    cases h
    exact Or.inl ⟨rfl, rfl⟩
  | some j =>
    simp only [hl] at h
    rw [bind_run] at h
    cases ht : restoreTop env n j reset u with
    | none => rw [ht] at h; cases h
    | some p =>
      obtain ⟨q, s1⟩ := p
      obtain ⟨evs, h1, h2⟩ := only_named env hs g n j reset u s1 hr q ht
      rw [ht] at h
      refine Or.inr ⟨j, evs, rfl, ?_, h2⟩
      cases q with
      | error e => cases h; exact h1
      | ok a =>
        cases own
        · cases h; exact h1
        · cases h; exact h1

/-- Classes and functions in what is returned: a class or function that `decode` returns is one that the document names. -/
theorem returned (env : UEnv) (hs : env.safe = true) (g : env.Globals) (n : Nat) (j : Json) (u u' : UState) (c : Str)
    (h : restoreTop env n j true u = some (.ok (.type c), u') ∨ restoreTop env n j true u = some (.ok (.func c), u')) : Reaches env j c := by
  rcases h with h | h
  · exact (names (rules hs g j _) n true (Or.inl rfl) h).2 _ rfl
  · exact (names (rules hs g j _) n true (Or.inl rfl) h).2 _ rfl

/-- A document that names nothing makes nothing happen: nothing is imported, no class is instantiated, no handler and no callback is
used, no function is called. -/
theorem inert (env : UEnv) (hs : env.safe = true) (n : Nat) (j : Json) (reset : Bool) (u u' : UState)
    (hr : reset = true ∨ (u.objs = [] ∧ u.proxies = [])) (r : Except Exc Val) (hj : ∀ s, ¬ Named env j s) (h : restoreTop env n j reset u = some (r, u')) :
    u'.log = u.log := by
  have R : NRules env (fun _ => False) (Named env j) u.heap.length := ⟨hs, fun s h => hj s h, fun s v h => absurd h (hj s), fun s v h => absurd h (hj s)⟩
  obtain ⟨evs, h1, h2⟩ := (names R n reset hr h).1.log
  rw [h1]
  cases evs with
  | nil => exact List.append_nil _
  | cons e evs =>
    have := h2 e List.mem_cons_self
    cases e with
    | imp s => exact absurd this (hj s)
    | missing s => exact absurd this (hj s)
    | obj s => exact absurd this (hj s)
    | call _ => cases this
    | eval _ => cases this

/-! ### Which modules a name leads to -/

section
open LoadClass

/-- the modules that may be imported for the class name `name`: `a`, `a.b`, …, but not `name` itself -/
def prefixes (name : Str) : List Str := (List.range ((splitDot name).length - 1)).map (fun k => untranslateModuleName (joinDot ((splitDot name).take (k + 1))))

/-- `loadclass(name)` imports nothing but modules whose dotted name is a proper part of `name` from its start: what importing any
other module would do has no influence. -/
theorem imports_prefixes (env env' : Env) (ha : env.attr = env'.attr) (hn : env.noneType = env'.noneType) (name : Str) (classes : List (Str × Nat))
    (h : ∀ m ∈ prefixes name, env.import_ m = env'.import_ m) : loadclass env name classes = loadclass env' name classes := by
  have hat : ∀ q o, attrs env o q = attrs env' o q := by
    intro q
    induction q with
    | nil => exact fun o => rfl
    | cons a q ih =>
      intro o
      rw [attrs, attrs, ha]
      split
      · exact ih _
      · rfl
  have hsearch : ∀ k, k < (splitDot name).length → search env (splitDot name) k = search env' (splitDot name) k := by
    intro k
    induction k with
    | zero => exact fun _ => rfl
    | succ k ih =>
      intro hk
      rw [search, search, ih (by omega)]
      have : attempt env (splitDot name) (k + 1) = attempt env' (splitDot name) (k + 1) := by
        unfold attempt
        rw [h _ (List.mem_map.2 ⟨k, List.mem_range.2 (by omega), rfl⟩)]
        split
        · rfl
        · exact hat _ _
      rw [this]
  unfold loadclass
  dsimp only
  split
  · rfl
  · by_cases h0 : (splitDot name).length = 0
    · rw [h0, hn]; rfl
    · rw [hsearch _ (by omega), hn]

/-- `py/object: "os.path.join"` can import `os` and `os.path`, nothing else -/
example : prefixes p!"os.path.join" = [p!"os", p!"os.path"] := by decide
end

/-! ### examples -/

/-- `os.system` and `m.C` can be found -/
def env : UEnv := { C10.env with
  loadclass := fun s => if s == p!"m.C" then some (.type p!"m.C") else if s == p!"posix.system" then some (.func p!"os.system") else none
  loadmodule := fun s => if s == p!"os/os.system" then .ok (some (.func p!"os.system")) else .ok none }

theorem env_globals : env.Globals where
  cls n v h := by
    unfold env at h
    simp only at h
    split at h
    · cases h; trivial
    · split at h
      · cases h; trivial
      · cases h
  mod n v h := by
    unfold env at h
    simp only at h
    split at h
    · cases h; trivial
    · cases h
  repr n v h := by cases h

/-- `[{"py/object": "m.C"}, {"py/reduce": [{"py/repr": "os/os.system"}, {"py/tuple": ["ls"]}]}]` -/
def doc : Json := .arr [.obj [(p!"py/object", .str p!"m.C")],
  .obj [(p!"py/reduce", .arr [.obj [(p!"py/repr", .str p!"os/os.system")], .obj [(p!"py/tuple", .arr [.str p!"ls"])]])]]

def logOf (x : Option (Except Exc Val × UState)) : Option (List Event) := x.map (fun p => p.2.log)

/-- The bound is attained, and `safe=True` is no protection against calls: the document has `os.system` called. -/
theorem safe_calls_named_functions : env.safe = true ∧ logOf (restoreTop env 9 doc true {}) = some [.imp p!"m.C", .obj p!"m.C", .call p!"m.C", .imp p!"os/os.system", .call p!"os.system"] := by
  decide +kernel

example : ∃ happened, ((restoreTop env 9 doc true {}).map (·.2.log)) = some ([] ++ happened) ∧ Asked env doc happened := by
  cases hq : restoreTop env 9 doc true {} with
  | none => exact absurd hq (by decide +kernel)
  | some p =>
    obtain ⟨happened, h1, h2⟩ := only_named env rfl env_globals 9 doc true {} p.2 (Or.inl rfl) p.1 hq
    exact ⟨happened, by rw [Option.map_some, h1], h2⟩

/-- The condition on what can be found by name is needed: if `m.hooks` is a list that holds a function, that function can be called by a
document that does not name it. -/
def hooked : UEnv := { C10.env with loadclass := fun s => if s == p!"m.hooks" then some (.ref 0) else if s == p!"m.C" then some (.type p!"m.C") else none }

theorem through_global_list : let j : Json := .obj [(p!"py/reduce", .arr [.str Tags.NEWOBJ, .obj [(p!"py/function", .str p!"m.hooks")]])]
    logOf (restoreTop hooked 9 j true { heap := [.list [.type p!"secret.Class"]] }) = some [.imp p!"m.hooks", .call p!"secret.Class"] := by
  decide +kernel

/-- With `safe=False` a document runs any code (C16). -/
theorem unsafe_runs_code : logOf (restoreTop { env with safe := false } 9 (.obj [(p!"py/repr", .str p!"os/os.remove('x')")]) true {}) =
    some [.eval p!"os/os.remove('x')"] := by decide +kernel

/-- A document without names: nested lists, dicts, tuples, references, bytes -/
example : ∀ s, ¬ Named env (.arr [.obj [(p!"py/tuple", .arr [.int 1, .obj [(p!"py/id", .int 0)]])], .obj [(p!"json://1", .str p!"x")]]) s := by
  intro s h
  have hk : env.keys = false := rfl
  cases h with
  | elem hm h =>
    rcases List.mem_cons.1 hm with rfl | hm
    · cases h with
      | here h1 h2 => simp at h1
      | key hk' => rw [hk] at hk'; cases hk'
      | value h1 h2 =>
        simp at h1
        obtain ⟨rfl, rfl⟩ := h1
        cases h2 with
        | elem hm h =>
          simp at hm
          rcases hm with rfl | rfl
          · cases h
          · cases h with
            | here h1 h2 => simp at h1
            | key hk' => rw [hk] at hk'; cases hk'
            | value h1 h2 =>
              simp at h1
              obtain ⟨rfl, rfl⟩ := h1
              cases h2
    · rcases List.mem_singleton.1 hm with rfl
      cases h with
      | here h1 h2 =>
        simp at h1
        obtain ⟨rfl, rfl⟩ := h1
        exact absurd h2 (by decide)
      | key hk' => rw [hk] at hk'; cases hk'
      | value h1 h2 =>
        simp at h1
        obtain ⟨rfl, rfl⟩ := h1
        cases h2

end JP.C75
