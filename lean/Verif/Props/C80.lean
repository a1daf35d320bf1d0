import Verif.Proofs.PWarn
import Verif.ApiSpec
import Verif.Sample
/-!
# C80 — `warn`

With `warn=True` the encoder reports the objects that it cannot write.  The text is the one that `encode` returns without the option, provided that
`str` can be called for those objects (`same`; otherwise `str_raises`).  Only objects that cannot be written are reported (`reported`), and with
`unpicklable=True` nothing is replaced by `null` without a report: if `None` does not occur in the graph and nothing is reported, `null` does not occur
in the document (`complete`).

With `unpicklable=False` this fails: functions and cycles become `null` without a report (`silent_function`, `silent_cycle`).  Lambdas that are
values of dictionaries or attributes are left out without a report (`silent_lambda`), those in lists are reported twice (`lambda_twice`).
-/
namespace JP.C80
open JP PyM Warn

/-- The text, or the exception, is the same with and without the option. -/
theorem same (w : World) (cfg : PCfg) (wr : Bool) (n : Nat) (v : Val) (s : PState) (h : wr = false ∨ StrOk w cfg) :
    (Api.encodeWarned w cfg wr n v).map (·.1) = (Api.encode w cfg n v true s).map (·.1) := by
  have h1 := (Warn.flatten (w := w) (cfg := cfg) (wr := wr) (V := fun _ => False) n v {}).1 h
  have e : Api.encode w cfg n v true s = (do
    let j ← Pickler.flatten w cfg n v
    pure (w.dumps j)) {} := rfl
  rw [e, bind_run]
  change erase _ = Pickler.flatten w cfg n v {} at h1
  rw [← h1]
  unfold Api.encodeWarned
  cases Pickler.Warned.flatten w cfg wr n v {} with
  | none => rfl
  | some p =>
    obtain ⟨r, s1⟩ := p
    cases r <;> rfl

/-- Only objects that cannot be written are reported, and nothing without the option. -/
theorem reported (w : World) (cfg : PCfg) (wr : Bool) (n : Nat) (v : Val) (r : Except Exc Str) (reports : List Val)
    (h : Api.encodeWarned w cfg wr n v = some (r, reports)) : ∀ u ∈ reports, wr = true ∧ Refused w cfg u := by
  unfold Api.encodeWarned at h
  cases hf : Pickler.Warned.flatten w cfg wr n v {} with
  | none => rw [hf] at h; cases h
  | some p =>
    obtain ⟨r1, s1⟩ := p
    rw [hf] at h
    injection h with h
    injection h with h1 h2
    obtain ⟨new, e1, e2, _⟩ := (Warn.flatten (w := w) (cfg := cfg) (wr := wr) (V := fun _ => False) n v {}).2 _ _ hf
    rw [← h2, e1]
    exact e2

/-- Without `None` in the graph, and without reports, there is no `null` in the document. -/
theorem complete (w : World) (cfg : PCfg) (V : Val → Prop) (n : Nat) (v : Val) (text : Str) (hu : cfg.unpicklable = true) (hV : NoneFree w V) (hs : SafeFull cfg)
    (hv : V v) (h : Api.encodeWarned w cfg true n v = some (.ok text, [])) : ∃ j, text = w.dumps j ∧ j.NoNull := by
  unfold Api.encodeWarned at h
  cases hf : Pickler.Warned.flatten w cfg true n v {} with
  | none => rw [hf] at h; cases h
  | some p =>
    obtain ⟨r1, s1⟩ := p
    rw [hf] at h
    injection h with h
    injection h with h1 h2
    obtain ⟨new, e1, _, _, e3⟩ := (Warn.flatten (w := w) (cfg := cfg) (wr := true) (V := V) n v {}).2 _ _ hf
    cases r1 with
    | error e => cases h1
    | ok j =>
      injection h1 with h1
      have hn : new = [] := by rw [h2] at e1; exact e1.symm
      exact ⟨j, h1.symm, (e3 rfl ⟨⟨hV, hu, hs⟩, hv⟩ (fun e he => by cases he) hn).2 j rfl⟩

/-- The text that `encode` returns without the option is then the same and has no `null` either. -/
theorem complete_text (w : World) (cfg : PCfg) (V : Val → Prop) (n : Nat) (v : Val) (text : Str) (s : PState) (hu : cfg.unpicklable = true) (hV : NoneFree w V)
    (hs : SafeFull cfg) (hv : V v) (hr : StrOk w cfg) (h : Api.encodeWarned w cfg true n v = some (.ok text, [])) :
    (∃ j, text = w.dumps j ∧ j.NoNull) ∧ (Api.encode w cfg n v true s).map (·.1) = some (.ok text) := by
  refine ⟨complete w cfg V n v text hu hV hs hv h, ?_⟩
  rw [← same w cfg true n v s (.inr hr), h]
  rfl

/-! ### examples -/

/-- instances of `m.F` have a handler that returns `None` -/
def world (h : Heap) : World := { Sample.world h with handler := fun c => if c = p!"m.F" then some .drop else none }

theorem strOk (h : Heap) (cfg : PCfg) : StrOk (world h) cfg := fun _ _ => ⟨_, rfl⟩

/-- `[lambda: 0, f, F(), G(), {"x": lambda: 0}]` with a function `f`, and a class `G` whose `__getstate__` cannot be called -/
def h1 : Heap := [.list [.lambda 7, .func p!"m.f", .ref 1, .ref 2, .ref 3], .inst { cls := p!"m.F" },
  .inst { cls := p!"m.G", info := { ownGetstate := true, hasDict := true }, state := .error .typeError }, .dict [(.str p!"x", .lambda 7)]]

example : StrOk (world h1) {} := strOk h1 {}

example : (Api.encodeWarned (world h1) {} true 9 (.ref 0)).map (·.2) = some [.lambda 7, .lambda 7, .ref 1, .ref 2] := by decide +kernel

example : (Api.encodeWarned (world h1) {} true 9 (.ref 0)).map (·.1) = some (.ok (Sample.dumps
    (.arr [.null, .obj [(Tags.FUNCTION, .str p!"m.f")], .null, .null, .obj []]))) := by decide +kernel

example : (Api.encodeWarned (world h1) {} false 9 (.ref 0)).map (·.2) = some [] := by decide +kernel

/-- A lambda in a list is reported twice. -/
theorem lambda_twice : (Api.encodeWarned (world []) {} true 9 (.tuple 0 [.lambda 7])).map (·.2) = some [.lambda 7, .lambda 7] := by
  decide +kernel

/-- A lambda as value of a dictionary is left out and not reported. -/
theorem silent_lambda : Api.encodeWarned (world [.dict [(.str p!"x", .lambda 7), (.str p!"y", .int 1)]]) {} true 9 (.ref 0) =
    some (.ok (Sample.dumps (.obj [(p!"y", .int 1)])), []) := by decide +kernel

/-- With `unpicklable=False` a function becomes `null`, which is not reported. -/
theorem silent_function : Api.encodeWarned (world []) { unpicklable := false } true 9 (.func p!"m.f") = some (.ok (Sample.dumps .null), []) := by decide +kernel

/-- An object that holds itself: with `unpicklable=False` the inner one becomes `null`, which is not reported. -/
theorem silent_cycle : Api.encodeWarned (world [.inst { cls := p!"m.C", info := { hasDict := true }, attrs := [(p!"x", .ref 0)] }]) { unpicklable := false } true 9 (.ref 0) =
    some (.ok (Sample.dumps (.obj [(p!"x", .null)])), []) := by decide +kernel

/-- If `str` raises for an object that cannot be written, `encode` raises with the option and does not without it. -/
theorem str_raises : ∃ w : World, Api.encodeWarned w {} true 9 (.ref 0) = some (.error .valueError, []) ∧
    Api.encodeWarned w {} false 9 (.ref 0) = some (.ok (Sample.dumps .null), []) :=
  ⟨{ world [.inst { cls := p!"m.F" }] with pystr := fun _ => .error .valueError }, by decide +kernel, by decide +kernel⟩

/-- `c = C(); c.x = [c, 1, (2, "y")]; c.f = f; [c, c]` -/
def h2 : Heap := [.list [.ref 1, .ref 1], .inst { cls := p!"m.C", info := { hasDict := true }, attrs := [(p!"x", .ref 2), (p!"f", .func p!"m.f")] },
  .list [.ref 1, .int 1, .tuple 0 [.int 2, .str p!"y"]]]

/-- what occurs in it -/
def V2 (v : Val) : Prop := v = .ref 0 ∨ v = .ref 1 ∨ v = .ref 2 ∨ v = .func p!"m.f" ∨ v = .int 1 ∨ v = .int 2 ∨ v = .tuple 0 [.int 2, .str p!"y"] ∨ ∃ s, v = .str s

theorem free2 : NoneFree (world h2) V2 := by
  have hl : ∀ {a : Addr} {xs}, V2 (.ref a) → (world h2).heap[a]? = some (.list xs) → ∀ x ∈ xs, V2 x := by
    intro a xs hv ha x hx
    have : a = 0 ∨ a = 1 ∨ a = 2 := by simpa [V2] using hv
    rcases this with rfl | rfl | rfl
    · cases ha; simp at hx; subst hx; simp [V2]
    · cases ha
    · cases ha; simp at hx; rcases hx with rfl | rfl | rfl <;> simp [V2]
  have hd : ∀ {a : Addr} {kvs}, V2 (.ref a) → ¬ (world h2).heap[a]? = some (.dict kvs) := by
    intro a kvs hv ha
    have : a = 0 ∨ a = 1 ∨ a = 2 := by simpa [V2] using hv
    rcases this with rfl | rfl | rfl <;> cases ha
  have hi : ∀ {a : Addr} {i}, V2 (.ref a) → (world h2).heap[a]? = some (.inst i) → i = { cls := p!"m.C", info := { hasDict := true }, attrs := [(p!"x", .ref 2), (p!"f", .func p!"m.f")] } := by
    intro a i hv ha
    have : a = 0 ∨ a = 1 ∨ a = 2 := by simpa [V2] using hv
    rcases this with rfl | rfl | rfl
    · cases ha
    · cases ha; rfl
    · cases ha
  constructor
  · simp [V2]
  · simp [V2]
  · intro i xs h x hx
    simp [V2] at h
    obtain ⟨rfl, rfl⟩ := h
    simp at hx
    rcases hx with rfl | rfl <;> simp [V2]
  · intro i xs h; simp [V2] at h
  · exact hl
  · exact fun hv ha => absurd ha (hd hv)
  · intro a i hv ha kv hkv
    rw [hi hv ha] at hkv
    simp at hkv
    rcases hkv with rfl | rfl <;> simp [V2]
  · intro a i hv ha kv hkv; rw [hi hv ha] at hkv; cases hkv
  · intro a d i kvs hv ha hc; rw [hi hv ha] at hc; cases hc
  · intro a i hv ha kv hkv; rw [hi hv ha] at hkv; cases hkv
  · intro a i hv ha kv hkv; rw [hi hv ha] at hkv; cases hkv
  · intro a i hv ha hc; rw [hi hv ha] at hc; cases hc
  · intro a i hv ha hc; rw [hi hv ha] at hc; cases hc
  · intro a i hv ha hc; rw [hi hv ha] at hc; cases hc
  · intro a i st hv ha hc; rw [hi hv ha] at hc; cases hc
  · intro a i xs hv ha hc; rw [hi hv ha] at hc; cases hc
  · intro a i v hv ha hc; rw [hi hv ha] at hc; cases hc
  · intro a i hv ha hc; rw [hi hv ha] at hc; cases hc
  · intro a i hv ha hc; rw [hi hv ha] at hc; cases hc
  · intro a i hv ha hc; rw [hi hv ha] at hc; cases hc

example : ∃ text, Api.encodeWarned (world h2) {} true 20 (.ref 0) = some (.ok text, []) ∧ (∃ j, text = (world h2).dumps j ∧ j.NoNull) ∧
    (Api.encode (world h2) {} 20 (.ref 0) true {}).map (·.1) = some (.ok text) := by
  have h : Api.encodeWarned (world h2) {} true 20 (.ref 0) = some (.ok (Sample.dumps (.arr [.obj [(Tags.OBJECT, .str p!"m.C"),
      (p!"x", .arr [.obj [(Tags.ID, .int 1)], .int 1, .obj [(Tags.TUPLE, .arr [.int 2, .str p!"y"])]]), (p!"f", .obj [(Tags.FUNCTION, .str p!"m.f")])],
      .obj [(Tags.ID, .int 1)]])), []) := by decide +kernel
  exact ⟨_, h, complete_text (world h2) {} V2 20 (.ref 0) _ {} rfl free2 (fun f e j hf => by cases hf) (.inl rfl) (strOk h2 {}) h⟩

end JP.C80
