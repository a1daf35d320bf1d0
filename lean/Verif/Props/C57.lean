import Verif.Props.C56
/-!
# C57 — which methods of an object are used: `util.has_method` and `has_own_getstate`
-/
namespace JP.C57
open JP Classes C56

/-- `m` is what the first class in the list that defines the name has under it -/
def First (t : Table) (name : Str) (m : Member) (mro : List CId) : Prop :=
  ∃ pre b post, mro = pre ++ b :: post ∧ (∀ c ∈ pre, ∀ m', (name, m') ∉ (t c).vars) ∧ dget name (t b).vars = some m

/-- a function, a static method, a class method, or a method of a builtin class -/
def IsMethod : Member → Prop
  | .func _ | .static _ | .classm _ | .builtin _ => True
  | _ => False

theorem dget_none {α : Type} {k : Str} {d : List (Str × α)} : dget k d = none ↔ ∀ v, (k, v) ∉ d := by
  constructor
  · intro h v hv
    obtain ⟨v', h'⟩ := dget_of_mem hv
    rw [h] at h'
    cases h'
  · intro h
    cases e : dget k d with
    | none => rfl
    | some v => exact absurd (dget_mem e) (h v)

theorem findSome_iff (t : Table) (name : Str) (m : Member) (f : CId → Option Member) (hf : ∀ b, f b = some m ↔ dget name (t b).vars = some m)
    (hn : ∀ b, dget name (t b).vars = none → f b = none) : ∀ (mro : List CId), First t name m mro → mro.findSome? f = some m := by
  rintro mro ⟨pre, b, post, rfl, h1, h2⟩
  induction pre with
  | nil => simp only [List.nil_append, List.findSome?, (hf b).2 h2]
  | cons c pre ih =>
    simp only [List.cons_append, List.findSome?, hn c (dget_none.2 (h1 c (by simp)))]
    exact ih (fun c hc => h1 c (by simp [hc]))

theorem lookup_iff (t : Table) (c : CId) (name : Str) (m : Member) : lookup t c name = some m ↔ First t name m (t c).mro := by
  unfold lookup
  constructor
  · generalize (t c).mro = mro
    induction mro with
    | nil => intro h; cases h
    | cons b bs ih =>
      intro h
      simp only [List.findSome?] at h
      cases e : dget name (t b).vars with
      | some m' =>
        simp only [e] at h
        cases h
        exact ⟨[], b, bs, rfl, (fun _ h => by cases h), e⟩
      | none =>
        simp only [e] at h
        obtain ⟨pre, b', post, h1, h2, h3⟩ := ih h
        refine ⟨b :: pre, b', post, by rw [h1]; rfl, ?_, h3⟩
        intro c hc
        rcases List.mem_cons.1 hc with rfl | hc
        · exact dget_none.1 e
        · exact h2 c hc
  · exact findSome_iff t name m _ (fun _ => Iff.rfl) (fun _ h => h) _

/-- the method that is checked is the one found, unless that is `None` -/
theorem original_of_first {t : Table} {c : CId} {name : Str} {m : Member} (h : First t name m (t c).mro) (hm : m ≠ .none) : original t c name = some m := by
  refine findSome_iff t name m _ (fun b => ?_) (fun b hb => by rw [hb]) _ h
  cases dget name (t b).vars with
  | none => simp
  | some m' =>
    cases m' with
    | none =>
      constructor
      · intro h; cases h
      · intro h; cases h; exact absurd rfl hm
    | _ => exact Iff.rfl

/-- If the object itself has no attribute of that name, `has_method` says whether the first class in the MRO that defines the name defines it as a method (a function, a
static method, a class method or a method of a builtin class): definitions as `None` or another value hide methods of the classes above. -/
theorem has_method_iff (t : Table) (o : Instance) (name : Str) (hc : o.cls ∈ (t o.cls).mro) (hown : ∀ g, (name, g) ∉ o.attrs) :
    hasMethod t o name = true ↔ ∃ m, First t name m (t o.cls).mro ∧ IsMethod m := by
  have hself : issub t o.cls o.cls = true := by
    unfold issub
    simpa using hc
  unfold hasMethod objGet
  rw [dget_none.2 hown]
  simp only
  cases h : lookup t o.cls name with
  | none =>
    simp only [Option.map_none, Bool.false_eq_true, false_iff]
    rintro ⟨m, h1, _⟩
    rw [(lookup_iff ..).2 h1] at h
    cases h
  | some m =>
    have hf := (lookup_iff ..).1 h
    have uniq : (∃ m', First t name m' (t o.cls).mro ∧ IsMethod m') ↔ IsMethod m := by
      constructor
      · rintro ⟨m', h1, h2⟩
        rw [(lookup_iff ..).2 h1] at h
        cases h
        exact h2
      · exact fun h2 => ⟨m, hf, h2⟩
    rw [uniq]
    cases m with
    | none => simp [Classes.bind, IsMethod]
    | data x b => simp [Classes.bind, IsMethod]
    | builtin f => simp [Classes.bind, IsMethod]
    | func f => simp [Classes.bind, IsMethod, original_of_first hf, hself]
    | static f => simp [Classes.bind, IsMethod, original_of_first hf]
    | classm f => simp [Classes.bind, IsMethod, original_of_first hf, hself]

/-- A function that was assigned to an attribute of the object itself is not used, unless the class has a static method of that name. -/
theorem own_function_ignored (t : Table) (o : Instance) (name : Str) (f : Nat) (h : dget name o.attrs = some (.function f))
    (hs : ∀ b ∈ (t o.cls).mro, ∀ g, (name, Member.static g) ∉ (t b).vars) : hasMethod t o name = false := by
  unfold hasMethod objGet
  rw [h]
  simp only
  cases ho : original t o.cls name with
  | none => rfl
  | some m =>
    unfold original at ho
    obtain ⟨b, hb, hm⟩ := List.exists_of_findSome?_eq_some ho
    cases m with
    | static g =>
      exfalso
      cases e : dget name (t b).vars with
      | none => rw [e] at hm; cases hm
      | some m' =>
        rw [e] at hm
        cases m' with
        | none => cases hm
        | _ => first
          | (cases hm; exact hs b hb _ (dget_mem e))
          | cases hm
    | _ => rfl

/-- `__getstate__` counts exactly if a class other than `object` defines it; what they define must not be the method of `object` (nor `None`). -/
theorem own_getstate_iff (t : Table) (c : CId) (hm : MroOk t c)
    (ho : ∀ b ∈ (t c).mro, b ≠ object → ∀ m, (p!"__getstate__", m) ∈ (t b).vars → m ≠ .none ∧ (p!"__getstate__", m) ∉ (t object).vars) :
    ownGetstate t c = true ↔ Inherits t c p!"__getstate__" := by
  obtain ⟨hob, l, hl, hnot⟩ := hm
  have hobj : lookup t object p!"__getstate__" = dget p!"__getstate__" (t object).vars := by
    unfold lookup
    rw [hob]
    simp only [List.findSome?]
    cases dget p!"__getstate__" (t object).vars <;> rfl
  unfold ownGetstate
  cases h : lookup t c p!"__getstate__" with
  | none =>
    simp only [Bool.false_eq_true, false_iff]
    rintro ⟨b, hb, _, m, hmem⟩
    unfold lookup at h
    obtain ⟨m', h'⟩ := dget_of_mem hmem
    have := List.findSome?_eq_none_iff.1 h b hb
    rw [h'] at this
    cases this
  | some m =>
    rw [hobj]
    obtain ⟨pre, b, post, e1, e2, e3⟩ := (lookup_iff ..).1 h
    have hb : b ∈ (t c).mro := by rw [e1]; simp
    have hmem := dget_mem e3
    by_cases hbo : b = object
    · subst hbo
      have hno : ¬ Inherits t c p!"__getstate__" := by
        rintro ⟨b, hb', hbo, m', hm'⟩
        rw [e1] at hb'
        rcases List.mem_append.1 hb' with hb' | hb'
        · exact e2 b hb' m' hm'
        · rcases List.mem_cons.1 hb' with rfl | hb'
          · exact hbo rfl
          · have hl' := hl.symm.trans e1
            have : post = [] := by
              rcases List.append_eq_append_iff.1 hl' with ⟨a, h1, h2⟩ | ⟨a, h1, h2⟩
              · cases a with
                | nil => injection h2 with _ h2; exact h2.symm
                | cons x a =>
                  injection h2 with _ h2
                  simp at h2
              · cases a with
                | nil => injection h2 with _ h2
                | cons x a =>
                  injection h2 with h2 _
                  subst h2
                  exact absurd (by rw [h1]; simp) hnot
            rw [this] at hb'
            cases hb'
      simp only [e3, hno, iff_false]
      simp
    · have hin : Inherits t c p!"__getstate__" := ⟨b, hb, hbo, m, hmem⟩
      obtain ⟨h1, h2⟩ := ho b hb hbo m hmem
      simp only [hin, iff_true]
      cases e : dget p!"__getstate__" (t object).vars with
      | none => simpa using h1
      | some m' =>
        have : m ≠ m' := fun he => h2 (he ▸ dget_mem e)
        simpa using this

/-- A subclass that does not define the name has the method if its base class has it. -/
theorem subclass_same (t : Table) (c d : CId) (name : Str) (hmro : (t d).mro = d :: (t c).mro) (hc : c ∈ (t c).mro) (hd : ∀ m, (name, m) ∉ (t d).vars) :
    hasMethod t { cls := d } name = hasMethod t { cls := c } name := by
  rw [Bool.eq_iff_iff, has_method_iff t { cls := d } name (by simp [hmro]) (fun _ h => by cases h), has_method_iff t { cls := c } name hc (fun _ h => by cases h)]
  have : ∀ m, First t name m (t d).mro ↔ First t name m (t c).mro := by
    intro m
    rw [← lookup_iff, ← lookup_iff]
    unfold lookup
    rw [hmro]
    simp only [List.findSome?, dget_none.2 hd]
  simp only [this]

/-- Asked about a class, `has_method` says whether the first class in the MRO that defines the name defines it as a static method or a class method,
or, when no class in the MRO defines it, whether it is a builtin method of the metaclass (as `mro` is of `type`). -/
theorem has_method_class_iff (t : Table) (mt c : CId) (name : Str) (hc : c ∈ (t c).mro) :
    hasMethodCls t mt c name = true ↔
      (∃ f, First t name (.static f) (t c).mro ∨ First t name (.classm f) (t c).mro) ∨
      ((∀ b ∈ (t c).mro, ∀ m, (name, m) ∉ (t b).vars) ∧ ∃ f, First t name (.builtin f) (t mt).mro) := by
  have hself : issub t c c = true := by
    unfold issub
    simpa using hc
  have hnone : lookup t c name = none ↔ ∀ b ∈ (t c).mro, ∀ m, (name, m) ∉ (t b).vars := by
    unfold lookup
    rw [List.findSome?_eq_none_iff]
    exact ⟨fun h b hb => dget_none.1 (h b hb), fun h b hb => dget_none.2 (h b hb)⟩
  rw [← hnone]
  simp only [← lookup_iff]
  unfold hasMethodCls clsGet
  cases h : lookup t c name with
  | none =>
    have ho : original t c name = none := by
      unfold original
      rw [List.findSome?_eq_none_iff]
      intro b hb
      rw [dget_none.2 (hnone.1 h b hb)]
    simp only [reduceCtorEq, or_false, exists_const, false_or, true_and]
    cases h2 : lookup t mt name with
    | none => simp
    | some m => cases m <;> simp [bindMeta, ho]
  | some m =>
    simp only [reduceCtorEq, false_and, or_false, Option.some.injEq]
    have hf := (lookup_iff ..).1 h
    cases m with
    | none => simp [bindCls]
    | data x b => simp [bindCls]
    | builtin f => simp [bindCls]
    | func f => simp [bindCls, original_of_first hf]
    | static f => simp [bindCls, original_of_first hf]
    | classm f => simp [bindCls, original_of_first hf, hself]

/-- `m` is the first entry under the name in the MRO that is not `None` -/
def Nearest (t : Table) (name : Str) (m : Member) (mro : List CId) : Prop :=
  ∃ pre b post, mro = pre ++ b :: post ∧ (∀ c ∈ pre, dget name (t c).vars = none ∨ dget name (t c).vars = some .none) ∧ dget name (t b).vars = some m ∧ m ≠ .none

theorem skip_iff (x : Option Member) (m : Member) (f : Option Member → Option Member) (h1 : f (some .none) = none) (h2 : ∀ x, x ≠ some .none → f x = x) :
    (f x = some m ↔ x = some m ∧ m ≠ .none) ∧ (f x = none ↔ x = none ∨ x = some .none) := by
  by_cases h : x = some .none
  · subst h
    rw [h1]
    refine ⟨⟨nofun, fun ⟨a, b⟩ => ?_⟩, by simp⟩
    cases a
    exact absurd rfl b
  · rw [h2 x h]
    exact ⟨⟨fun e => ⟨e, fun e' => h (e' ▸ e)⟩, fun e => e.1⟩, ⟨.inl, fun e => e.resolve_right h⟩⟩

theorem original_iff (t : Table) (c : CId) (name : Str) (m : Member) : original t c name = some m ↔ Nearest t name m (t c).mro := by
  unfold original Nearest
  rw [C56.findSome_iff]
  have key := fun b => skip_iff (dget name (t b).vars) m (fun x => match x with | some .none => none | x => x) rfl (fun x hx => by
    cases x with
    | none => rfl
    | some y => cases y <;> first | rfl | exact absurd rfl hx)
  constructor
  · rintro ⟨pre, b, post, e, h1, h2⟩
    exact ⟨pre, b, post, e, fun c hc => (key c).2.1 (h1 c hc), ((key b).1.1 h2).1, ((key b).1.1 h2).2⟩
  · rintro ⟨pre, b, post, e, h1, h2, h3⟩
    exact ⟨pre, b, post, e, fun c hc => (key c).2.2 (h1 c hc), (key b).1.2 ⟨h2, h3⟩⟩

/-- A bound method that was assigned to an attribute of the object itself counts if the nearest definition in the classes (other than `None`) is a static method, or a class
method and it is bound to the object's class or one above it, or anything else and it is bound to an instance of the object's class or one above it. -/
theorem own_method_iff (t : Table) (o : Instance) (name : Str) (f : Nat) (self : Self) (h : dget name o.attrs = some (.method f self)) :
    hasMethod t o name = true ↔ ∃ m, Nearest t name m (t o.cls).mro ∧
      ((∃ g, m = .static g) ∨ ((∃ g, m = .classm g) ∧ ∃ d, self = .cls d ∧ d ∈ (t o.cls).mro) ∨
       ((∀ g, m ≠ .static g) ∧ (∀ g, m ≠ .classm g) ∧ ∃ d, self = .inst d ∧ d ∈ (t o.cls).mro)) := by
  have hi : ∀ d, issub t o.cls d = true ↔ d ∈ (t o.cls).mro := fun d => by unfold issub; simp
  simp only [← original_iff]
  unfold hasMethod objGet
  rw [h]
  simp only
  cases original t o.cls name with
  | none => simp
  | some m => cases m <;> cases self <;> simp [hi]

/-! ### examples -/

/-- 20 defines `__getnewargs__` and, as a class method, `__getinitargs__`; 21 is a subclass of it with `__getnewargs__ = None` and `__getstate__`; 4 is `tuple`, 22 a subclass of it -/
def sample : Table := fun c =>
  if c = object then { mro := [0], vars := [(p!"__getstate__", .builtin 3)] }
  else if c = 4 then { mro := [4, 0], vars := [(p!"__getnewargs__", .builtin 4)] }
  else if c = 20 then { mro := [20, 0], vars := [(p!"__getnewargs__", .func 5), (p!"__getinitargs__", .classm 6)] }
  else if c = 21 then { mro := [21, 20, 0], vars := [(p!"__getnewargs__", .none), (p!"__getstate__", .func 7)] }
  else { mro := [c, 4, 0] }

example : hasMethod sample { cls := 20 } p!"__getnewargs__" = true ∧ hasMethod sample { cls := 21 } p!"__getnewargs__" = false ∧
    hasMethod sample { cls := 21 } p!"__getinitargs__" = true ∧ hasMethod sample { cls := 22 } p!"__getnewargs__" = true ∧
    ownGetstate sample 20 = false ∧ ownGetstate sample 21 = true := by decide

example : First sample p!"__getinitargs__" (.classm 6) (sample 21).mro := ⟨[21], 20, [0], rfl, (fun c hc m h => by
  have : c = 21 := by simpa using hc
  subst this
  simp [sample, object] at h), rfl⟩

/-- `has_method(C, name)`: a class method counts, a function and a method of a builtin class do not; 30 stands for `type` with its method `mro` -/
example : let t : Table := fun c => if c = 30 then { mro := [30, 0], vars := [(p!"mro", .builtin 8)] } else sample c
    hasMethodCls t 30 21 p!"__getinitargs__" = true ∧ hasMethodCls t 30 20 p!"__getnewargs__" = false ∧ hasMethodCls t 30 22 p!"__getnewargs__" = false ∧
    hasMethodCls t 30 20 p!"mro" = true ∧ hasMethod t { cls := 20 } p!"mro" = false := by decide

/-- a function in the object's `__dict__`, which hides the method -/
example : hasMethod sample { cls := 20, attrs := [(p!"__getnewargs__", .function 9)] } p!"__getnewargs__" = false := by decide

/-- the method of another object of the same class, of an object of a subclass, and a class method of the class above -/
example : hasMethod sample { cls := 20, attrs := [(p!"__getnewargs__", .method 5 (.inst 20))] } p!"__getnewargs__" = true ∧
    hasMethod sample { cls := 20, attrs := [(p!"__getnewargs__", .method 5 (.inst 21))] } p!"__getnewargs__" = false ∧
    hasMethod sample { cls := 21, attrs := [(p!"__getinitargs__", .method 6 (.cls 20))] } p!"__getinitargs__" = true ∧
    hasMethod sample { cls := 20, attrs := [(p!"__getinitargs__", .method 6 (.cls 21))] } p!"__getinitargs__" = false := by decide

/-- Without `__getstate__` in `object` (before Python 3.11) `__getstate__ = None` counts as absent, with it (from 3.11 on) as present. -/
theorem none_getstate :
    ownGetstate (fun c => if c = 0 then { mro := [0] } else { mro := [c, 0], vars := [(p!"__getstate__", .none)] }) 20 = false ∧
    ownGetstate (fun c => if c = 0 then { mro := [0], vars := [(p!"__getstate__", .builtin 3)] } else { mro := [c, 0], vars := [(p!"__getstate__", .none)] }) 20 = true := by decide

end JP.C57
