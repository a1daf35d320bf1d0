import Verif.Registry
/-!
# C33: handler_context reaches exactly the handlers that ask for it

The specification is Python's own rule for binding a call to a signature (`callOk`), written without
reference to the model's decision function.
-/
namespace JP.Registry.C33
open JP JP.Registry

def ctxName : Str := p!"handler_context"

/-- The parameter can be filled by position. -/
def Param.positional (p : Param) : Bool :=
  p.kind = .positionalOnly || p.kind = .positionalOrKeyword
/-- The parameter can be filled by its keyword. -/
def Param.byKeyword (p : Param) : Bool :=
  p.kind = .positionalOrKeyword || p.kind = .keywordOnly
/-- The parameter must be filled. -/
def Param.required (p : Param) : Bool :=
  !p.hasDefault && (p.kind != .varPositional) && (p.kind != .varKeyword)

/-- Names filled by `n` positional arguments. -/
def filled (ps : List Param) (n : Nat) : List Str :=
  ((ps.filter Param.positional).take n).map (·.name)

/-- Python accepts the call `f(a1, ..., an, **{k: _ for k in kws})`
(language reference, "Calls"). -/
def callOk (ps : List Param) (n : Nat) (kws : List Str) : Prop :=
  (n ≤ (ps.filter Param.positional).length ∨ ∃ p ∈ ps, p.kind = .varPositional) ∧
  (∀ k ∈ kws, (∃ p ∈ ps, p.name = k ∧ Param.byKeyword p = true ∧ k ∉ filled ps n) ∨
     ((∃ p ∈ ps, p.kind = .varKeyword) ∧ ∀ p ∈ ps, p.name = k → Param.byKeyword p = false)) ∧
  (∀ p ∈ ps, Param.required p = true →
     p.name ∈ filled ps n ∨ (Param.byKeyword p = true ∧ p.name ∈ kws))

/-- The method has a parameter of that name that can be passed by keyword (or collects keywords
under that name). -/
def Asks (ps : List Param) : Prop :=
  ∃ p ∈ ps, p.name = ctxName ∧ (Param.byKeyword p = true ∨ p.kind = .varKeyword)

/-- Parameter names of a Python function are distinct. -/
def Distinct (ps : List Param) : Prop := (ps.map (·.name)).Nodup

theorem paramGet_some {n : Str} {ps : List Param} {p : Param} (h : paramGet n ps = some p) :
    p ∈ ps ∧ p.name = n := by
  induction ps with
  | nil => cases h
  | cons q r ih =>
    simp only [paramGet] at h
    split at h
    · next e => cases h; exact ⟨List.mem_cons_self, e⟩
    · have := ih h; exact ⟨List.mem_cons_of_mem _ this.1, this.2⟩

theorem paramGet_of_mem {ps : List Param} (hd : Distinct ps) {p : Param} (hp : p ∈ ps) :
    paramGet p.name ps = some p := by
  induction ps with
  | nil => cases hp
  | cons q r ih =>
    simp only [Distinct, List.map_cons, List.nodup_cons] at hd
    simp only [paramGet]
    rcases List.mem_cons.mp hp with rfl | hp
    · simp
    · have hne : q.name ≠ p.name := fun e => hd.1 (by rw [e]; exact List.mem_map_of_mem hp)
      rw [if_neg hne]; exact ih hd.2 hp

/-- **C33**, decision: the context is passed exactly when one was given and the method asks for it;
otherwise the call has no extra argument (also when the signature cannot be inspected). -/
theorem context_passed_iff (ctx : Option Nat) (ps : List Param) (hd : Distinct ps) :
    ((∃ c, ctx = some c ∧ contextArgs ctx (some ps) = [(ctxName, c)]) ↔
        (∃ c, ctx = some c) ∧ Asks ps) ∧
    (¬ ((∃ c, ctx = some c) ∧ Asks ps) → contextArgs ctx (some ps) = []) ∧
    contextArgs ctx none = [] := by
  have key : acceptsContext (some ps) = true ↔ Asks ps := by
    simp only [acceptsContext]
    constructor
    · intro h
      split at h
      · cases h
      · next p hp =>
        obtain ⟨h1, h2⟩ := paramGet_some hp
        refine ⟨p, h1, h2, ?_⟩
        simp only [Bool.or_eq_true, decide_eq_true_eq, Param.byKeyword] at h ⊢
        grind
    · rintro ⟨p, hp, hn, hk⟩
      have := paramGet_of_mem hd hp
      rw [hn] at this
      simp only [ctxName] at this
      rw [this]
      simp only [Bool.or_eq_true, decide_eq_true_eq, Param.byKeyword] at hk ⊢
      grind
  refine ⟨?_, ?_, ?_⟩
  · constructor
    · rintro ⟨c, rfl, h⟩
      refine ⟨⟨c, rfl⟩, key.mp ?_⟩
      simp only [contextArgs] at h
      split at h
      · assumption
      · simp at h
    · rintro ⟨⟨c, rfl⟩, ha⟩
      exact ⟨c, rfl, by simp [contextArgs, key.mpr ha, ctxName]⟩
  · intro h
    cases ctx with
    | none => rfl
    | some c =>
      have : ¬ acceptsContext (some ps) = true := fun hk => h ⟨⟨c, rfl⟩, key.mp hk⟩
      simp [contextArgs, this]
  · cases ctx <;> simp [contextArgs, acceptsContext]

/-- **C33**, safety: adding the context never turns an acceptable handler call (`n` positional
arguments: 2 for `flatten`, 1 for `restore`) into a `TypeError`, provided `handler_context` is not the
name of one of those first `n` parameters. -/
theorem context_call_ok (ctx : Option Nat) (ps : List Param) (hd : Distinct ps) (n : Nat)
    (hok : callOk ps n []) (hpos : ctxName ∉ filled ps n) :
    callOk ps n ((contextArgs ctx (some ps)).map (·.1)) := by
  obtain ⟨h1, h2, h3⟩ := hok
  by_cases hc : (∃ c, ctx = some c) ∧ Asks ps
  · obtain ⟨c, rfl, he⟩ := (context_passed_iff ctx ps hd).1.mpr hc
    rw [he]
    obtain ⟨p, hp, hn, hk⟩ := hc.2
    refine ⟨h1, ?_, ?_⟩
    · intro k hkm
      simp only [List.map_cons, List.map_nil, List.mem_singleton] at hkm
      subst hkm
      by_cases hb : Param.byKeyword p = true
      · exact Or.inl ⟨p, hp, hn, hb, hpos⟩
      · have hv : p.kind = .varKeyword := by rcases hk with h | h; exact absurd h hb; exact h
        refine Or.inr ⟨⟨p, hp, hv⟩, ?_⟩
        intro q hq hqn
        have a := paramGet_of_mem hd hp
        have b := paramGet_of_mem hd hq
        rw [hn] at a; rw [hqn, a] at b; cases b
        simpa using hb
    · intro q hq hr
      rcases h3 q hq hr with h | h
      · exact Or.inl h
      · simp at h
  · rw [(context_passed_iff ctx ps hd).2.1 hc]
    exact ⟨h1, by simp, by simpa using h3⟩

/-- `def flatten(self, obj, data, handler_context=None)` -/
def good : List Param := [⟨p!"obj", .positionalOrKeyword, false⟩, ⟨p!"data", .positionalOrKeyword, false⟩,
  ⟨p!"handler_context", .positionalOrKeyword, true⟩]

example : Distinct good ∧ Asks good ∧ callOk good 2 [] ∧ ctxName ∉ filled good 2 := by
  refine ⟨by unfold Distinct; decide, ⟨_, List.mem_cons_of_mem _ (List.mem_cons_of_mem _ List.mem_cons_self), rfl, Or.inl rfl⟩, ⟨by decide, by simp, ?_⟩, by decide⟩
  intro p hp
  simp only [good, List.mem_cons, List.not_mem_nil, or_false] at hp
  rcases hp with rfl | rfl | rfl <;> decide
example : contextArgs (some 7) (some good) = [(p!"handler_context", 7)] := by decide
/-- A handler with only `**kwargs` does not get it; positional-only does not either. -/
example : contextArgs (some 7) (some [⟨p!"kwargs", .varKeyword, false⟩]) = [] := by decide
example : contextArgs (some 7) (some [⟨p!"handler_context", .positionalOnly, false⟩]) = [] := by decide

/-- `def flatten(self, obj, handler_context)` -/
def bad : List Param := [⟨p!"obj", .positionalOrKeyword, false⟩, ⟨p!"handler_context", .positionalOrKeyword, false⟩]

/-- The proviso of `context_call_ok` is needed: an old-style handler that happens to call its second
positional parameter `handler_context` works without a context and raises `TypeError` (multiple values
for argument) as soon as one is given. -/
theorem context_clash : callOk bad 2 [] ∧ contextArgs (some 7) (some bad) = [(ctxName, 7)] ∧
    ¬ callOk bad 2 [ctxName] := by
  refine ⟨⟨by decide, by simp, ?_⟩, by decide, ?_⟩
  · intro p hp
    simp only [bad, List.mem_cons, List.not_mem_nil, or_false] at hp
    rcases hp with rfl | rfl <;> decide
  · rintro ⟨-, h, -⟩
    rcases h ctxName (by simp) with ⟨p, _, _, _, h⟩ | ⟨⟨p, hp, hk⟩, _⟩
    · exact h (by decide)
    · simp only [bad, List.mem_cons, List.not_mem_nil, or_false] at hp
      rcases hp with rfl | rfl <;> cases hk

end JP.Registry.C33
