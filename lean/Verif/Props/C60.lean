import Verif.KeySpec
import Verif.Proofs.PPropSim
import Verif.Proofs.PProps
import Verif.Api
import Verif.Sample
/-!
# C60 — `encode(…, include_properties=True)`
-/
namespace JP.C60
open JP PyM Pickler Pickler.WithProps Unpickler

/-- Without the option nothing else changes. -/
theorem off {w : World} {cfg : PCfg} {px : PropCfg} (h : px.inc = false) (n : Nat) (v : Val) :
    Api.encodeWith w cfg px n v = Api.encode w cfg n v true := by
  unfold Api.encodeWith Api.encode WithProps.flattenTop Pickler.flattenTop
  rw [flatten_off h]

/-- a value that is written as it is, a function, or a class -/
def Simple (p : PropVal) : Prop := (∃ j, p = .raw j) ∨ (∃ n, p = .val (.func n)) ∨ (∃ n, p = .val (.type n))

/-- the class is importable for `decode`, has no handler there, and can be instantiated -/
def Known (env : UEnv) (c : Str) : Prop :=
  env.handler c = none ∧ env.loadclass c ≠ none ∧ (env.classInfo c).blankOk = true

/-- What `decode` makes of the two texts is the same: the same value or exception, the same imports and calls.
Both are texts of the backend, which is assumed to read back what it wrote. -/
def Alike (env : UEnv) (w : World) (t t' : Str) : Prop :=
  ∃ j j', t = w.dumps j ∧ t' = w.dumps j' ∧ (env.loads t = some j → env.loads t' = some j' →
    ∀ m reset own, Api.decode env m t reset own = Api.decode env m t' reset own)

theorem alike {env : UEnv} {w : World} {j j' : Json} (h : Eqv env j j') : Alike env w (w.dumps j) (w.dumps j') := by
  refine ⟨j, j', rfl, rfl, fun h1 h2 m reset own => ?_⟩
  have : restore env m j = restore env m j' := by
    rw [← Pruning.restore_prune m j, ← Pruning.restore_prune m j']; unfold Eqv at h; rw [h]
  unfold Api.decode
  rw [h1, h2]
  dsimp only
  unfold restoreTop
  rw [this]

theorem key_repr {w : World} (h : ∀ k s, KeyText w k s → (∃ t, k = .str t) ∨ s ∉ Tags.RESERVED) (k : Val) (s : Str) (hs : reprKey w k = .ok s) :
    (∃ t, k = .str t) ∨ Tags.isReserved s = false :=
  (h k s (reprKey_text hs)).imp id (fun h => Bool.eq_false_iff.2 (fun h2 => h (List.contains_iff_mem.1 h2)))

section
variable {env : UEnv} {w : World} {cfg : PCfg} {px : PropCfg} (hinc : px.inc = true)
  (hu : cfg.unpicklable = true) (hm : cfg.makeRefs = true) (hk : cfg.keys = false) (hd : cfg.maxDepth = none) (hf : cfg.failSafe = none)
  (hrepr : ∀ k s, KeyText w k s → (∃ t, k = .str t) ∨ s ∉ Tags.RESERVED)
  (hclone : Known env CLONE)
  (hcls : ∀ (a : Nat) i, w.heap[a]? = some (.inst i) →
    w.handler i.cls = none ∧ Known env i.cls ∨ w.handler i.cls = some .opaque ∨ w.handler i.cls = some .drop)
  (hp : ∀ a, ∀ kv ∈ px.members a ++ px.nonSlots a, Simple kv.2)
include hinc hu hm hk hd hf hrepr hclone hcls hp

/-- If `encode` returns or raises, then so does `encode` with `include_properties=True`: the same exception, or a text that `decode` takes
for the same.  Partial: of the properties, methods and other members of the classes, none may be an object of its own, so that there are
no methods. -/
theorem same_partial {n : Nat} {v : Val} {s s1 : PState} {r : Except Exc Str} (he : Api.encode w cfg n v true s = some (r, s1)) :
    ∃ r' s2, Api.encodeWith w cfg px (n + 1) v s = some (r', s2) ∧
      ((∃ e, r = .error e ∧ r' = .error e) ∨ ∃ t t', r = .ok t ∧ r' = .ok t' ∧ Alike env w t t') := by
  have H : Hyp env w cfg px := ⟨hu, hm, hk, hd, hf, hinc, key_repr hrepr, hclone, hcls, hp⟩
  unfold Api.encode Pickler.flattenTop at he
  rw [if_pos rfl, bind_run, bind_ok (x := Pickler.reset) (a := ()) (s' := {}) rfl] at he
  cases hx : Pickler.flatten w cfg n v {} with
  | none => rw [hx] at he; cases he
  | some q =>
    obtain ⟨q, u⟩ := q
    obtain ⟨r0, u0, r2, u2, h1, h2, _, _, ho⟩ := sim_flatten_succ H n v {} {} ⟨rfl, rfl⟩ (by decide)
      (by unfold Ends; rw [hx]; rfl)
    rw [hx] at h1 he
    injection h1 with h1
    injection h1 with e1 e2
    subst e1 e2
    unfold Api.encodeWith WithProps.flattenTop
    rw [if_pos rfl, bind_run, bind_ok (x := Pickler.reset) (a := ()) (s' := {}) rfl, h2]
    cases q with
    | error e =>
      injection he with he
      injection he with e1 e2
      subst e1 e2
      cases r2 with
      | ok a => cases ho
      | error e' =>
        have ho : e = e' := ho
        subst ho
        exact ⟨_, _, rfl, .inl ⟨e, rfl, rfl⟩⟩
    | ok j =>
      injection he with he
      injection he with e1 e2
      subst e1 e2
      cases r2 with
      | error e' => cases ho
      | ok j' => exact ⟨_, _, rfl, .inr ⟨_, _, rfl, rfl, alike ho⟩⟩

/-- The other way round: if `encode` with the option returns or raises, then so does `encode` without. -/
theorem same_back_partial {n : Nat} {v : Val} {s s1 : PState} {r' : Except Exc Str} (he : Api.encodeWith w cfg px n v s = some (r', s1)) :
    ∃ r s2, Api.encode w cfg n v true s = some (r, s2) ∧
      ((∃ e, r = .error e ∧ r' = .error e) ∨ ∃ t t', r = .ok t ∧ r' = .ok t' ∧ Alike env w t t') := by
  have H : Hyp env w cfg px := ⟨hu, hm, hk, hd, hf, hinc, key_repr hrepr, hclone, hcls, hp⟩
  unfold Api.encodeWith WithProps.flattenTop at he
  rw [if_pos rfl, bind_run, bind_ok (x := Pickler.reset) (a := ()) (s' := {}) rfl] at he
  cases hx : WithProps.flatten w cfg px n v {} with
  | none => rw [hx] at he; cases he
  | some q =>
    obtain ⟨q, u⟩ := q
    obtain ⟨r0, u0, r2, u2, h1, h2, _, _, ho⟩ := sim_flatten H n v {} {} ⟨rfl, rfl⟩ (by decide)
      (by unfold Ends; rw [hx]; rfl)
    rw [hx] at h2 he
    injection h2 with h2
    injection h2 with e1 e2
    subst e1 e2
    unfold Api.encode Pickler.flattenTop
    rw [if_pos rfl, bind_run, bind_ok (x := Pickler.reset) (a := ()) (s' := {}) rfl, h1]
    cases q with
    | error e =>
      injection he with he
      injection he with e1 e2
      subst e1 e2
      cases r0 with
      | ok a => cases ho
      | error e' =>
        have ho : e' = e := ho
        subst ho
        exact ⟨_, _, rfl, .inl ⟨e', rfl, rfl⟩⟩
    | ok j' =>
      injection he with he
      injection he with e1 e2
      subst e1 e2
      cases r0 with
      | error e' => cases ho
      | ok j => exact ⟨_, _, rfl, .inr ⟨_, _, rfl, rfl, alike ho⟩⟩

end

/-! ### examples -/

/-- `class P: x = property(lambda self: 7); K = int; @staticmethod def f(): …`, an instance `p` with an attribute `a = []`, and `[p, p.a, p]` -/
def heap : Heap := [.list [.ref 1, .ref 2, .ref 1], .inst { cls := p!"m.P", attrs := [(p!"a", .ref 2)] }, .list []]

def simple : PropCfg where
  inc := true
  members := fun a => if a = 1 then [(p!"K", .val (.type p!"builtins.int")), (p!"f", .val (.func p!"m.P.f")), (p!"x", .raw (.int 7))] else []
  nonSlots := fun _ => []

def env (loads : Str → Option Json) : UEnv where
  loadclass := fun s => some (.type s)
  classInfo := fun _ => {}
  handler := fun _ => none
  loadmodule := fun _ => .ok none
  loadrepr := fun _ => .ok .none
  loads := loads

example : (Sample.res ((WithProps.flattenTop (Sample.world heap) {} simple 5 (.ref 0) true) {})) = some (.ok (.arr [
    .obj [(p!"py/property", .obj [(p!"K", .obj [(p!"py/type", .str p!"builtins.int")]), (p!"f", .obj [(p!"py/function", .str p!"m.P.f")]), (p!"x", .int 7)]),
      (p!"py/object", .str p!"m.P"), (p!"a", .arr [])],
    .obj [(p!"py/id", .int 2)], .obj [(p!"py/id", .int 1)]])) := by decide +kernel

theorem simple_ok (loads : Str → Option Json) {n : Nat} {s s1 : PState} {r : Except Exc Str}
    (he : Api.encode (Sample.world heap) {} n (.ref 0) true s = some (r, s1)) :
    ∃ r' s2, Api.encodeWith (Sample.world heap) {} simple (n + 1) (.ref 0) s = some (r', s2) ∧
      ((∃ e, r = .error e ∧ r' = .error e) ∨ ∃ t t', r = .ok t ∧ r' = .ok t' ∧ Alike (env loads) (Sample.world heap) t t') := by
  refine same_partial (env := env loads) rfl rfl rfl rfl rfl rfl ?_ ?_ ?_ ?_ he
  · intro k s h
    by_cases hk : ∃ t, k = .str t
    · exact .inl hk
    · exact .inr (h.all_of (Q := fun s => s ∉ Tags.RESERVED) (by decide +kernel) (fun _ _ h => by cases h; decide +kernel) (fun _ _ h => by cases h; decide +kernel) (fun t e => hk ⟨t, e⟩))
  · exact ⟨rfl, nofun, rfl⟩
  · intro a i _; exact .inl ⟨rfl, rfl, nofun, rfl⟩
  · intro a kv hkv
    have : kv ∈ simple.members a := by simpa [simple] using hkv
    unfold simple at this
    dsimp only at this
    split at this
    · simp only [List.mem_cons, List.not_mem_nil, or_false] at this
      rcases this with e | e | e <;> subst e
      · exact .inr (.inr ⟨_, rfl⟩)
      · exact .inr (.inl ⟨_, rfl⟩)
      · exact .inl ⟨_, rfl⟩
    · cases this

/-- `class P: def f(self): …`, `p = P()`, `a = []`, `b = []`, and `[p, a, b, a]`; cell 4 is the bound method `p.f` -/
def withMethod : Heap := [.list [.ref 1, .ref 2, .ref 3, .ref 2], .inst { cls := p!"m.P" }, .list [], .list [],
  .inst { cls := p!"builtins.method", info := { reduces := true }, reduce := .tup [.func p!"builtins.getattr", .tuple 0 [.ref 1, .str p!"f"]] }]

def method : PropCfg where
  inc := true
  members := fun a => if a = 1 then [(p!"f", .val (.ref 4))] else []
  nonSlots := fun _ => []

/-- The bound method is registered, so the list `a` is number 3 … -/
def methodDoc : Json := .arr [
  .obj [(p!"py/property", .obj [(p!"f", .obj [(p!"py/property", .obj []), (p!"py/reduce", .arr [.obj [(p!"py/function", .str p!"builtins.getattr")],
      .obj [(p!"py/tuple", .arr [.obj [(p!"py/id", .int 1)], .str p!"f"])]])])]), (p!"py/object", .str p!"m.P")],
  .arr [], .arr [], .obj [(p!"py/id", .int 3)]]

theorem method_encodes : Sample.res ((WithProps.flattenTop (Sample.world withMethod) {} method 9 (.ref 0) true) {}) = some (.ok methodDoc) := by
  decide +kernel

/-- … but for `decode`, which does not look at `py/property`, number 3 is the list `b`: the last element of the result is the third one,
and not the second. -/
theorem method_breaks :
    (match Api.decode (env (fun _ => some methodDoc)) 9 p!"t" true true {} with
    | some (.ok (.ref a), u) => (match u.heap[a]? with
      | some (.list [_, x, y, z]) => some (decide (z = x), decide (z = y))
      | _ => none)
    | _ => none) = some (false, true) := by decide +kernel

/-- Without the option the last element is the second one. -/
theorem method_off :
    (match Sample.res ((Pickler.flattenTop (Sample.world withMethod) {} 9 (.ref 0) true) {}) with
    | some (.ok j) => (match Api.decode (env (fun _ => some j)) 9 p!"t" true true {} with
      | some (.ok (.ref a), u) => (match u.heap[a]? with
        | some (.list [_, x, y, z]) => some (decide (z = x), decide (z = y))
        | _ => none)
      | _ => none)
    | _ => none) = some (true, false) := by decide +kernel

/-- A property that raises makes `encode` raise. -/
theorem raising (e : Exc) :
    Sample.res (Api.encodeWith (Sample.world heap) {} { inc := true, members := fun a => if a = 1 then [(p!"x", .raises e)] else [], nonSlots := fun _ => [] } 5 (.ref 0) {}) =
      some (.error e) := by cases e <;> rfl

end JP.C60
