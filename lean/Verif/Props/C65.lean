import Verif.StringReduce
import Verif.Proofs.Names
import Verif.Api
import Verif.Sample
/-!
# C65 — strings returned by `__reduce__`

pickle takes such a string for the name of a global variable.
-/
namespace JP.C65
open JP PyM Pickler StringReduce LoadClass

/-- The object that a path leads to from `o`: each name is an attribute of what the names before lead to. -/
inductive Leads (g : Names) : Val → List Str → Val → Prop
  | here (o : Val) : Leads g o [] o
  | step {o p v : Val} {x : Str} {xs : List Str} (h : g.attr o x = .ok p) (hr : Leads g p xs v) : Leads g o (x :: xs) v

/-- The names in a dotted path hold no dots. -/
def Plain (xs : List Str) : Prop := ∀ x ∈ xs, 46 ∉ x

theorem split {m : Str} {xs : List Str} (h : Plain (m :: xs)) : splitDot (joinDot (m :: xs)) = m :: xs :=
  splitDot_joinDot _ (by simp) h

/-- `"NAME"`, what pickle expects, is ignored. -/
theorem name_ignored (g : Names) {s : Str} (hs : 46 ∉ s) : target g s = none := by
  unfold target
  by_cases h : s = []
  · rw [if_pos h]
  · rw [if_neg h]
    have := split (m := s) (xs := []) (by intro x hx; simp at hx; rw [hx]; exact hs)
    have e : joinDot [s] = s := rfl
    rw [e] at this
    rw [this]

theorem join_ne {m x : Str} {xs : List Str} : joinDot (m :: x :: xs) ≠ [] := by
  intro h
  have : joinDot (m :: x :: xs) = m ++ 46 :: joinDot (x :: xs) := rfl
  rw [this] at h
  simp at h

/-- `"module.NAME"` leads to the object that the path leads to. -/
theorem module_name (g : Names) {m x : Str} (hp : Plain [m, x]) {o v : Val} (hm : g.mods m = some o) (hl : Leads g o [x] v) :
    target g (joinDot [m, x]) = some (.ok v) := by
  unfold target
  rw [if_neg join_ne, split hp]
  dsimp only
  rw [hm]
  cases hl with
  | step h hr =>
    cases hr
    dsimp only
    rw [h]

/-- Of a longer path only the first two names matter. -/
theorem rest_ignored (g : Names) {m x : Str} {xs : List Str} (hp : Plain (m :: x :: xs)) :
    target g (joinDot (m :: x :: xs)) = target g (joinDot [m, x]) := by
  unfold target
  rw [if_neg join_ne, if_neg join_ne, split hp, split (m := m) (xs := [x]) (fun y hy => hp y (by simp at hy ⊢; rcases hy with h | h <;> simp [h]))]

/-- So a longer path leads where it should if and only if the names after the second lead back to the same object. -/
theorem right_iff (g : Names) {m x : Str} {xs : List Str} (hp : Plain (m :: x :: xs)) {o p v : Val} (hm : g.mods m = some o) (hx : g.attr o x = .ok p)
    (hl : Leads g o (x :: xs) v) : target g (joinDot (m :: x :: xs)) = some (.ok v) ↔ p = v := by
  rw [rest_ignored g hp, module_name g (fun y hy => hp y (by simp at hy ⊢; rcases hy with h | h <;> simp [h])) hm (.step hx (.here p))]
  simp

/-- A path whose first name is no loaded module is ignored. -/
theorem unknown_module (g : Names) {m : Str} {xs : List Str} (hp : Plain (m :: xs)) (hm : g.mods m = none) : target g (joinDot (m :: xs)) = none := by
  cases xs with
  | nil => exact name_ignored g (hp m (by simp))
  | cons x xs =>
    unfold target
    rw [if_neg join_ne, split hp]
    dsimp only
    rw [hm]

/-- When the module is loaded and has no such attribute, the `AttributeError` is raised; only a `KeyError` is passed over. -/
theorem attribute_raises (g : Names) {m x : Str} {xs : List Str} (hp : Plain (m :: x :: xs)) {o : Val} (hm : g.mods m = some o) {e : Exc} (hx : g.attr o x = .error e) :
    target g (joinDot (m :: x :: xs)) = (if e = .keyError then none else some (.error e)) := by
  unfold target
  rw [if_neg join_ne, split hp]
  dsimp only
  rw [hm]
  dsimp only
  rw [hx]

/-- the result of a call -/
def result {σ α : Type} (r : Option (Except Exc α × σ)) : Option (Except Exc α) := r.map (·.1)

/-- An object whose string names the object itself, as it does for a global variable, is written as a reference to itself, and the result of
`decode` is an internal placeholder. -/
theorem singleton {w : World} {cfg : PCfg} {g : Names} {a : Addr} {i : Inst} {s : Str} (ha : w.heap[a]? = some (.inst i)) (hi : i.reduce = reduceVal g s)
    (hs : target g s = some (.ok (.ref a))) (hr : i.info.reduces = true) (hh : w.handler i.cls = none) (hu : cfg.unpicklable = true)
    (hm : cfg.makeRefs = true) (hd : cfg.maxDepth = none) (n : Nat) (st : PState) :
    result (Api.encode w cfg (n + 2) (.ref a) true st) = some (.ok (w.dumps (.obj [(Tags.ID, .int 0)]))) ∧
    ∀ env : UEnv, env.loads (w.dumps (.obj [(Tags.ID, .int 0)])) = some (.obj [(Tags.ID, .int 0)]) → ∀ k u,
      ∃ u' b j, Api.decode env (k + 2) (w.dumps (.obj [(Tags.ID, .int 0)])) true true u = some (.ok (.ref b), u') ∧ u'.heap[b]? = some (.idproxy j) := by
  have hred : i.reduce = .str (some (.ref a)) := by rw [hi]; unfold reduceVal; rw [hs]
  have hcyc : ∀ (t : PState) e (d : Int), inCycle (Val.ref a).ident e (some d == cfg.maxDepth) cfg.makeRefs t = some (.ok false, t) := by
    intro t e d
    rw [hd, hm]
    unfold inCycle
    rfl
  have step : ∀ (m : Nat) (t t' : PState) (j : Json),
      Pickler.flattenBy w cfg (Pickler.flatten w cfg m) (.ref a) { t with depth := t.depth + 1, seen := t.seen ++ [.ref a] } = some (.ok j, t') →
      ∃ t'', Pickler.flatten w cfg (m + 1) (.ref a) t = some (.ok j, t'') := by
    intro m t t' j hb
    show ∃ t'', cached cfg _ _ t = _
    unfold cached
    rw [hu, hm]
    unfold flattenImpl push
    dsimp only
    rw [if_pos (show (true && true) = true from rfl), bind_run, modify_run]
    dsimp only
    have hx : Pickler.flattenObj w cfg (Pickler.flatten w cfg m) (.ref a) { t with depth := t.depth + 1 } = some (.ok j, t') := by
      unfold Pickler.flattenObj flattenObjWith maxReached
      rw [bind_run, modify_run]
      dsimp only
      rw [bind_run, gets_run]
      dsimp only
      unfold PyM.tryCatch
      rw [bind_ok (hcyc { t with depth := t.depth + 1, seen := t.seen ++ [.ref a] } _ _), if_neg (by decide), hb]
    rw [bind_ok hx]
    exact ⟨_, rfl⟩
  have inner : ∃ t, Pickler.flatten w cfg (n + 1) (.ref a) { depth := 0, seen := [.ref a], objs := [.addr a] } = some (.ok (.obj [(Tags.ID, .int 0)]), t) := by
    refine step n _ { depth := 1, seen := [.ref a, .ref a], objs := [.addr a] } _ ?_
    unfold Pickler.flattenBy
    dsimp only
    rw [ha]
    dsimp only
    unfold refObjInstance
    rw [if_pos hu]
    have h1 : mkref cfg (.addr a) { depth := 0 + 1, seen := [.ref a] ++ [.ref a], objs := [.addr a] } = some (.ok false, { depth := 1, seen := [.ref a, .ref a], objs := [.addr a] }) := by
      unfold mkref
      rw [bind_run]
      simp [logRef, hu, hm]
    rw [bind_ok h1, if_neg (by decide)]
    unfold getref
    simp
  obtain ⟨t, ht⟩ := inner
  have outer : ∃ t', Pickler.flatten w cfg (n + 2) (.ref a) {} = some (.ok (.obj [(Tags.ID, .int 0)]), t') := by
    refine step (n + 1) {} t _ ?_
    unfold Pickler.flattenBy
    dsimp only
    rw [ha]
    dsimp only
    unfold refObjInstance
    rw [if_pos hu]
    have h1 : mkref cfg (.addr a) { depth := -1 + 1, seen := [] ++ [.ref a] } = some (.ok true, { depth := 0, seen := [.ref a], objs := [.addr a] }) := by
      unfold mkref
      rw [bind_run]
      simp [logRef, hu, hm]
    rw [bind_ok h1, if_pos rfl]
    unfold flattenInst
    rw [hh]
    dsimp only
    unfold flattenReduce
    rw [hu, hr, hred]
    show PyM.tryCatch _ _ _ _ = _
    unfold PyM.tryCatch
    rw [ht]
  obtain ⟨t', ht'⟩ := outer
  constructor
  · show result ((Pickler.flatten w cfg (n + 2) (.ref a) >>= fun j => pure (w.dumps j) : PyM PState Str) {}) = _
    rw [bind_ok ht']
    rfl
  · intro env hl k u
    unfold Api.decode
    rw [hl]
    refine ⟨_, _, 0, rfl, ?_⟩
    simp

/-! ### examples -/

/-- A package `pkg` with a module `mod` and a global variable `pkg.mod.ONE`, object 0; `pkg.TOP` is object 1. -/
def names : Names where
  mods s := dget s [(p!"pkg", .module p!"pkg"), (p!"pkg.mod", .module p!"pkg.mod")]
  attr v x := match (dget (v, x) [((.module p!"pkg", p!"mod"), .module p!"pkg.mod"), ((.module p!"pkg", p!"TOP"), .ref 1), ((.module p!"pkg.mod", p!"ONE"), .ref 0)]) with
    | some v => .ok v
    | none => .error .attributeError

example : target names p!"pkg.NONE" = some (.error .attributeError) :=
  attribute_raises names (m := p!"pkg") (x := p!"NONE") (xs := []) (by unfold Plain; decide) rfl rfl

/-- `"pkg.mod.ONE"` leads to the object, but what is taken is the module `pkg.mod`. -/
theorem nested_wrong : Leads names (.module p!"pkg") [p!"mod", p!"ONE"] (.ref 0) ∧ target names p!"pkg.mod.ONE" = some (.ok (.module p!"pkg.mod")) :=
  ⟨.step (p := .module p!"pkg.mod") rfl (.step rfl (.here _)), rfl⟩

def world : World := Sample.world [.inst { cls := p!"pkg.mod.C", info := { reduces := true }, reduce := reduceVal names p!"pkg.mod.ONE" }, .inst { cls := p!"pkg.C", info := { reduces := true }, reduce := reduceVal names p!"pkg.TOP" }]

/-- The object in `pkg.mod` is written as the module, … -/
theorem nested_encode : result (Api.encode world {} 9 (.ref 0) true {}) = some (.ok (Sample.dumps (.obj [(Tags.MODULE, .str p!"pkg.mod/pkg.mod")]))) := by
  decide +kernel

/-- … and the one in `pkg` as a reference to itself. -/
example (n : Nat) : result (Api.encode world {} (n + 2) (.ref 1) true {}) = some (.ok (Sample.dumps (.obj [(Tags.ID, .int 0)]))) :=
  (singleton (g := names) (s := p!"pkg.TOP") rfl rfl rfl rfl rfl rfl rfl rfl n {}).1

end JP.C65
