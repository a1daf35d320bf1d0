import Verif.Proofs.Names
import Verif.DecEq
/-!
# C18, C34, C43: class look-up, module name translation, module references
-/
namespace JP.LoadClass.C18
open JP JP.LoadClass

/-! ### C34: module name translation -/

/-- **C34**: translating twice is the same as translating once, in both directions. -/
theorem translate_idempotent (m : Str) :
    translateModuleName (translateModuleName m) = translateModuleName m ∧
    untranslateModuleName (untranslateModuleName m) = untranslateModuleName m := by
  have : translateModuleName (translateModuleName m) = translateModuleName m := by
    unfold translateModuleName
    simp only [dget_cons, dget_nil]
    by_cases h1 : p!"__builtin__" = m
    · rw [if_pos h1, Option.getD_some]; decide
    · rw [if_neg h1]
      by_cases h2 : p!"exceptions" = m
      · rw [if_pos h2, Option.getD_some]; decide
      · rw [if_neg h2]; simp only [Option.getD_none, if_neg h1, if_neg h2]
  exact ⟨this, this⟩

/-- **C34** (partial): for every module name except the two Python 2 names, writing and reading back
gives exactly the same module.  Missing for the full statement: `exceptions` and `__builtin__`, for
which it is false (next theorem). -/
theorem untranslate_translate_partial (m : Str) (h1 : m ≠ p!"__builtin__") (h2 : m ≠ p!"exceptions") :
    untranslateModuleName (translateModuleName m) = m ∧ translateModuleName m = m := by
  have : translateModuleName m = m := by
    unfold translateModuleName
    simp only [dget_cons, dget_nil, if_neg (Ne.symm h1), if_neg (Ne.symm h2), Option.getD_none]
  exact ⟨by rw [this]; exact this, this⟩

example : p!"collections" ≠ p!"__builtin__" ∧ p!"collections" ≠ p!"exceptions" := by decide

/-- **C34**, exactly: a module name survives writing and reading if and only if it is none of the two Python 2 names. -/
theorem untranslate_translate_iff (m : Str) : untranslateModuleName (translateModuleName m) = m ↔ m ≠ p!"__builtin__" ∧ m ≠ p!"exceptions" := by
  constructor
  · intro h
    constructor <;> (rintro rfl; revert h; decide)
  · exact fun h => (untranslate_translate_partial m h.1 h.2).1

/-- **C34** is false as stated: a (Python 3) user module called `exceptions` is written as, and
imported as, `builtins`. -/
theorem exceptions_module_lost :
    untranslateModuleName (translateModuleName p!"exceptions") = p!"builtins" ∧
    importableName { qualname := p!"MyError", module_ := p!"exceptions" } = p!"builtins.MyError" := by
  decide

/-! ### C18: what loadclass must find

Specification: a name resolves at a split into module part and attribute part if that module can be
imported and the attribute chain exists. -/

/-- The attribute chain `o.a.b.c` evaluates to `x`. -/
inductive Chain (env : Env) : Nat → List Str → Nat → Prop
  | nil (o) : Chain env o [] o
  | cons {o a o' r x} : env.attr o a = .ok o' → Chain env o' r x → Chain env o (a :: r) x

/-- The chain (or the import before it) breaks with an error the look-up expects. -/
inductive Breaks (env : Env) : Nat → List Str → Prop
  | here {o a r e} : env.attr o a = .error e → e ∈ [Exc.attributeError, .importError, .valueError, .unicodeError] →
      Breaks env o (a :: r)
  | later {o a o' r} : env.attr o a = .ok o' → Breaks env o' r → Breaks env o (a :: r)

def Resolves (env : Env) (mod : List Str) (qual : List Str) (x : Nat) : Prop :=
  ∃ o, env.import_ (untranslateModuleName (joinDot mod)) = .ok o ∧ Chain env o qual x

def Fails (env : Env) (mod : List Str) (qual : List Str) : Prop :=
  (∃ e, env.import_ (untranslateModuleName (joinDot mod)) = .error e ∧
      e ∈ [Exc.attributeError, .importError, .valueError, .unicodeError]) ∨
  (∃ o, env.import_ (untranslateModuleName (joinDot mod)) = .ok o ∧ Breaks env o qual)

theorem caught_iff (e : Exc) :
    caught e = true ↔ e ∈ [Exc.attributeError, .importError, .valueError, .unicodeError] := by
  cases e <;> simp [caught]

theorem attrs_chain {env : Env} {o : Nat} {q : List Str} {x : Nat} (h : Chain env o q x) :
    attrs env o q = .ok x := by
  induction h with
  | nil => rfl
  | cons h1 _ ih => simp [attrs, h1, ih]

theorem attrs_breaks {env : Env} {o : Nat} {q : List Str} (h : Breaks env o q) :
    ∃ e, attrs env o q = .error e ∧ caught e = true := by
  induction h with
  | here h1 h2 => exact ⟨_, by simp [attrs, h1], (caught_iff _).mpr h2⟩
  | later h1 _ ih => obtain ⟨e, h2, h3⟩ := ih; exact ⟨e, by simp [attrs, h1, h2], h3⟩

theorem attempt_resolves {env : Env} {names : List Str} {k x : Nat}
    (h : Resolves env (names.take k) (names.drop k) x) : attempt env names k = .ok x := by
  obtain ⟨o, h1, h2⟩ := h
  simp [attempt, h1, attrs_chain h2]

theorem attempt_fails {env : Env} {names : List Str} {k : Nat}
    (h : Fails env (names.take k) (names.drop k)) :
    ∃ e, attempt env names k = .error e ∧ caught e = true := by
  rcases h with ⟨e, h1, h2⟩ | ⟨o, h1, h2⟩
  · exact ⟨e, by simp [attempt, h1], (caught_iff _).mpr h2⟩
  · obtain ⟨e, h3, h4⟩ := attrs_breaks h2
    exact ⟨e, by simp [attempt, h1, h3], h4⟩

theorem search_finds {env : Env} {names : List Str} {k x : Nat} (n : Nat) (hk : 1 ≤ k) (hn : k ≤ n)
    (hx : Resolves env (names.take k) (names.drop k) x)
    (hlong : ∀ j, k < j → j ≤ n → Fails env (names.take j) (names.drop j)) :
    search env names n = .ok (some x) := by
  induction n with
  | zero => omega
  | succ n ih =>
    rw [search]
    by_cases e : k = n + 1
    · subst e; simp [attempt_resolves hx]
    · obtain ⟨er, h1, h2⟩ := attempt_fails (hlong (n + 1) (by omega) (by omega))
      simp [h1, h2, ih (by omega) (fun j a b => hlong j a (by omega))]

theorem search_none {env : Env} {names : List Str} (n : Nat)
    (h : ∀ j, 1 ≤ j → j ≤ n → Fails env (names.take j) (names.drop j)) :
    search env names n = .ok none := by
  induction n with
  | zero => rfl
  | succ n ih =>
    obtain ⟨er, h1, h2⟩ := attempt_fails (h (n + 1) (by omega) (by omega))
    simp [search, h1, h2, ih (fun j a b => h j a (by omega))]

theorem loadclass_joined (env : Env) (mod qual : List Str) (x : Nat)
    (hm : mod ≠ []) (hq : qual ≠ []) (hdot : ∀ a ∈ mod ++ qual, 46 ∉ a)
    (hx : Resolves env mod qual x)
    (hshadow : ∀ pre post, qual = pre ++ post → pre ≠ [] → post ≠ [] → Fails env (mod ++ pre) post) :
    loadclass env (joinDot (mod ++ qual)) [] = .ok (some x) := by
  have hsplit : splitDot (joinDot (mod ++ qual)) = mod ++ qual :=
    splitDot_joinDot _ (by simp [hm]) hdot
  have hlm : 1 ≤ mod.length := by cases mod <;> simp_all
  have hlq : 1 ≤ qual.length := by cases qual <;> simp_all
  have hs : search env (mod ++ qual) ((mod ++ qual).length - 1) = .ok (some x) := by
    refine search_finds (k := mod.length) _ hlm (by simp; omega) (by simpa using hx) ?_
    intro j h1 h2
    simp only [List.length_append] at h2
    have e1 : (mod ++ qual).take j = mod ++ qual.take (j - mod.length) := by
      rw [List.take_append]; simp [List.take_of_length_le (Nat.le_of_lt h1)]
    have e2 : (mod ++ qual).drop j = qual.drop (j - mod.length) := by
      rw [List.drop_append]; simp [List.drop_of_length_le (Nat.le_of_lt h1)]
    rw [e1, e2]
    refine hshadow _ _ (List.take_append_drop _ _).symm ?_ ?_
    · intro h; rw [List.take_eq_nil_iff] at h; rcases h with h | h
      · omega
      · exact hq h
    · intro h; rw [List.drop_eq_nil_iff] at h; omega
  simp only [loadclass, hsplit, if_true, hs]

/-- **C18** (nested classes; partial).  A class whose module (components `mod`) can be imported and
whose qualified name (components `qual`) resolves there is found under the name encode wrote, provided
no longer prefix of the dotted name is itself an importable module in which the remainder resolves.
Missing for the full statement: that proviso, which is necessary (`shadowed_by_submodule`). -/
theorem loadclass_finds_partial (env : Env) (mod qual : List Str) (x : Nat)
    (hm : mod ≠ []) (hq : qual ≠ []) (hdot : ∀ a ∈ mod ++ qual, 46 ∉ a)
    (hb : joinDot mod ≠ p!"__builtin__") (he : joinDot mod ≠ p!"exceptions") (hne : joinDot mod ≠ [])
    (hx : Resolves env mod qual x)
    (hshadow : ∀ pre post, qual = pre ++ post → pre ≠ [] → post ≠ [] → Fails env (mod ++ pre) post) :
    loadclass env (importableName { qualname := joinDot qual, module_ := some (joinDot mod) }) []
      = .ok (some x) := by
  have hname : importableName { qualname := joinDot qual, module_ := some (joinDot mod) }
      = joinDot (mod ++ qual) := by
    simp only [importableName, Option.map_some, Option.getD_some, (untranslate_translate_partial _ hb he).2, if_neg hne]
    rw [joinDot_append _ _ hm hq]
  rw [hname]
  exact loadclass_joined env mod qual x hm hq hdot hx hshadow

/-- **C18** (bound methods of builtin types, such as `dict.fromkeys`; partial).  Such an object has no `__module__`: the module of `__self__` (here `mod`) is written
in its place, and the object is found there.  Missing: as in `loadclass_finds_partial`. -/
theorem method_found_partial (env : Env) (mod qual : List Str) (x : Nat) (none_ : Option Str) (hn : none_.getD [] = [])
    (hm : mod ≠ []) (hq : qual ≠ []) (hdot : ∀ a ∈ mod ++ qual, 46 ∉ a)
    (hx : Resolves env mod qual x)
    (hshadow : ∀ pre post, qual = pre ++ post → pre ≠ [] → post ≠ [] → Fails env (mod ++ pre) post) :
    loadclass env (importableName { qualname := joinDot qual, module_ := none_, selfModule := some (joinDot mod) }) [] = .ok (some x) := by
  have hname : importableName { qualname := joinDot qual, module_ := none_, selfModule := some (joinDot mod) } = joinDot (mod ++ qual) := by
    have : (none_.map translateModuleName).getD [] = [] := by
      cases none_ with
      | none => rfl
      | some s =>
        simp only [Option.getD_some] at hn
        subst hn
        rfl
    simp only [importableName, this, if_true, Option.orElse_some, Option.getD_some]
    rw [joinDot_append _ _ hm hq]
  rw [hname]
  exact loadclass_joined env mod qual x hm hq hdot hx hshadow

/-- Without `__self__`, too, a name is made up that no module has. -/
theorem no_module (q : Str) : importableName { qualname := q, module_ := none } = p!"None." ++ q ∧
    importableName { qualname := q, module_ := some [] } = p!"." ++ q := ⟨rfl, rfl⟩

/-- **C18** (top-level classes and functions): no proviso is needed - a class that is an attribute of
its importable module is always found, whatever else can be imported. -/
theorem loadclass_finds_toplevel (env : Env) (mod : List Str) (c : Str) (x : Nat)
    (hm : mod ≠ []) (hdot : ∀ a ∈ mod, 46 ∉ a) (hc : 46 ∉ c)
    (hb : joinDot mod ≠ p!"__builtin__") (he : joinDot mod ≠ p!"exceptions") (hne : joinDot mod ≠ [])
    (o : Nat) (hi : env.import_ (joinDot mod) = .ok o) (ha : env.attr o c = .ok x) :
    loadclass env (importableName { qualname := c, module_ := some (joinDot mod) }) [] = .ok (some x) := by
  have := loadclass_finds_partial env mod [c] x hm (by simp)
    (by intro a h; rcases List.mem_append.mp h with h | h
        · exact hdot a h
        · simp only [List.mem_singleton] at h; subst h; exact hc) hb he hne
    ⟨o, by rw [show untranslateModuleName (joinDot mod) = joinDot mod from
              (untranslate_translate_partial _ hb he).2]; exact hi, .cons ha (.nil _)⟩
    (by
      intro pre post h h1 h2
      cases pre with
      | nil => exact absurd rfl h1
      | cons a r =>
        cases r with
        | nil => cases post with
          | nil => exact absurd rfl h2
          | cons => simp at h
        | cons => simp at h)
  simpa [joinDot] using this

/-- **C18** (classes argument): a class given under its full name wins over anything importable; failing
that, one given under the last component of the name. -/
theorem classes_precedence (env : Env) (name : Str) (classes : List (Str × Nat)) :
    (∀ c, dget name classes = some c → loadclass env name classes = .ok (some c)) ∧
    (∀ pre last c, name = joinDot (pre ++ [last]) → (∀ a ∈ pre ++ [last], 46 ∉ a) →
      dget name classes = none → dget last classes = some c →
      loadclass env name classes = .ok (some c)) ∧
    (dget name classes = none → (∀ s ∈ splitDot name, dget s classes = none) →
      loadclass env name classes = loadclass env name []) := by
  refine ⟨?_, ?_, ?_⟩
  · intro c hc
    have hne : classes ≠ [] := by rintro rfl; simp at hc
    simp [loadclass, hne, hc]
  · intro pre last c hn hdot hnone hc
    have hne : classes ≠ [] := by rintro rfl; simp at hc
    have hs : splitDot name = pre ++ [last] := by rw [hn]; exact splitDot_joinDot _ (by simp) hdot
    simp [loadclass, hne, hnone, hs, hc]
  · intro h1 h2
    have hl : dget ((splitDot name).getLast?.getD []) classes = none := by
      cases hs : (splitDot name).getLast? with
      | none =>
        rw [List.getLast?_eq_none_iff] at hs
        exact absurd hs (splitDot_ne_nil name)
      | some s => exact h2 s (List.mem_of_getLast? hs)
    simp only [loadclass, h1, hl, ite_self, if_true]

/-- **C18** (unresolvable names): if at every split the import or an attribute fails in one of the
expected ways, the result is `None` and nothing is raised (`NoneType` being the one special case). -/
theorem unresolvable_is_none (env : Env) (name : Str)
    (h : ∀ pre post, splitDot name = pre ++ post → pre ≠ [] → post ≠ [] → Fails env pre post) :
    loadclass env name [] =
      .ok (if name = p!"builtins.NoneType" then some env.noneType else none) := by
  have hs : search env (splitDot name) ((splitDot name).length - 1) = .ok none := by
    refine search_none _ ?_
    intro j h1 h2
    have hl : 1 ≤ (splitDot name).length := by
      cases hh : splitDot name with
      | nil => exact absurd hh (splitDot_ne_nil name)
      | cons => simp
    refine h _ _ (List.take_append_drop _ _).symm ?_ ?_
    · intro h; rw [List.take_eq_nil_iff] at h; rcases h with h | h
      · omega
      · exact splitDot_ne_nil _ h
    · intro h; rw [List.drop_eq_nil_iff] at h; omega
  simp only [loadclass, if_true, hs]
  split <;> rfl

/-- **C18**: a name without a dot is never imported: with no `classes` it is simply not found. -/
theorem undotted_is_none (env : Env) (name : Str) (h : 46 ∉ name) : loadclass env name [] = .ok none := by
  have hne : name ≠ p!"builtins.NoneType" := by rintro rfl; exact h (by decide)
  simp [loadclass, splitDot_nodot name h, search, hne]

/-! ### register_classes -/

mutual
/-- All (name, class) pairs an argument mentions, in order. -/
def pairs (iname : Nat → Str) : ClassesArg → List (Str × Nat)
  | .cls c => [(iname c, c)]
  | .seq xs => pairsAll iname xs
  | .dict kvs => kvs.map (fun kv => (match kv.1 with | .inl s => s | .inr c => iname c, kv.2))
def pairsAll (iname : Nat → Str) : List ClassesArg → List (Str × Nat)
  | [] => []
  | x :: r => pairs iname x ++ pairsAll iname r
end

/-- The last pair with that name. -/
def lastPair (name : Str) (l : List (Str × Nat)) : Option Nat := dget name l.reverse

theorem foldl_dset_get (l : List (Str × Nat)) (acc : List (Str × Nat)) (name : Str) :
    dget name (l.foldl (fun a kv => dset kv.1 kv.2 a) acc) = (lastPair name l).or (dget name acc) := by
  induction l generalizing acc with
  | nil => simp [lastPair]
  | cons kv l ih =>
    rw [List.foldl_cons, ih]
    obtain ⟨k, v⟩ := kv
    simp only [lastPair, List.reverse_cons, dget_append, dget_cons, dget_nil, dget_dset]
    cases dget name l.reverse with
    | some x => simp
    | none =>
      by_cases e : name = k
      · subst e; simp
      · simp [e, Ne.symm e]

mutual
theorem registerClasses_eq (iname : Nat → Str) (acc : List (Str × Nat)) (a : ClassesArg) :
    registerClasses iname acc a = (pairs iname a).foldl (fun a kv => dset kv.1 kv.2 a) acc := by
  cases a with
  | cls c => rfl
  | seq xs => simp only [registerClasses, pairs]; exact registerAll_eq iname acc xs
  | dict kvs => simp only [registerClasses, pairs, List.foldl_map]; rfl
theorem registerAll_eq (iname : Nat → Str) (acc : List (Str × Nat)) (xs : List ClassesArg) :
    registerAll iname acc xs = (pairsAll iname xs).foldl (fun a kv => dset kv.1 kv.2 a) acc := by
  cases xs with
  | nil => rfl
  | cons x r =>
    simp only [registerAll, pairsAll, List.foldl_append]
    rw [registerClasses_eq iname acc x, registerAll_eq iname _ r]
end

/-- **C18** (register_classes): every class mentioned anywhere in the (nested) argument becomes
resolvable under its name, a later mention wins over an earlier one, other names keep their meaning. -/
theorem registerClasses_spec (iname : Nat → Str) (acc : List (Str × Nat)) (a : ClassesArg) (name : Str) :
    dget name (registerClasses iname acc a) = (lastPair name (pairs iname a)).or (dget name acc) := by
  rw [registerClasses_eq, foldl_dset_get]

/-! ### C43: module references -/

/-- **C43**: a module encoded as `name/name` (pickler.py:731) is found again: importing `a.b.c` gives the
top-level package `a`, and the remaining components are followed as attributes.  Missing: what the encoder writes, and look-ups
that fail. -/
theorem loadmodule_roundtrip_partial (env : Env) (first : Str) (rest : List Str) (top x : Nat)
    (hdot : ∀ a ∈ first :: rest, 46 ∉ a) (hslash : 47 ∉ joinDot (first :: rest))
    (hi : env.importTop (joinDot (first :: rest)) = .ok top) (hx : Chain env top rest x) :
    loadmodule env (joinDot (first :: rest) ++ 47 :: joinDot (first :: rest)) = .ok (some x) := by
  have h1 : splitSlash (joinDot (first :: rest) ++ 47 :: joinDot (first :: rest))
      = [joinDot (first :: rest), joinDot (first :: rest)] := by
    rw [splitSlash_append _ _ hslash, splitSlash_noslash _ hslash]
  have h2 : splitDot (joinDot (first :: rest)) = first :: rest := splitDot_joinDot _ (by simp) hdot
  have h3 : ¬ (first ≠ joinDot (first :: rest) ∧
      startsWith (joinDot (first :: rest)) (first ++ [46]) = false) := by
    rintro ⟨ha, hb⟩
    cases rest with
    | nil => exact ha rfl
    | cons b r =>
      have : startsWith (joinDot (first :: b :: r)) (first ++ [46]) = true := by
        simp only [startsWith, joinDot, List.isPrefixOf_iff_prefix]
        exact ⟨joinDot (b :: r), by simp⟩
      rw [this] at hb; cases hb
  have h4 : loadModuleAttrs env top rest = .ok (some x) := by
    clear h1 h2 h3 hdot hslash hi
    induction hx with
    | nil => rfl
    | cons ha _ ih => simp [loadModuleAttrs, ha, ih]
  simp only [loadmodule, h1, hi, h2, if_neg h3, h4]

theorem splitSlash_join (s : Str) : ∀ {m i : Str}, splitSlash s = [m, i] → s = m ++ 47 :: i ∧ 47 ∉ m ∧ 47 ∉ i := by
  have one : ∀ (s : Str) {i : Str}, splitSlash s = [i] → s = i ∧ 47 ∉ i := by
    intro s
    induction s with
    | nil => intro i h; cases h; exact ⟨rfl, by simp⟩
    | cons c r ih =>
      intro i h
      simp only [splitSlash] at h
      by_cases hc : c = 47
      · rw [if_pos hc] at h
        cases hr : splitSlash r with
        | nil =>
          cases r with
          | nil => cases hr
          | cons d r => simp only [splitSlash] at hr; split at hr <;> first | cases hr | (split at hr <;> cases hr)
        | cons a b => rw [hr] at h; cases h
      · rw [if_neg hc] at h
        cases hr : splitSlash r with
        | nil =>
          cases r with
          | nil => cases hr
          | cons d r => simp only [splitSlash] at hr; split at hr <;> first | cases hr | (split at hr <;> cases hr)
        | cons a b =>
          rw [hr] at h
          simp only [List.cons.injEq] at h
          obtain ⟨rfl, rfl⟩ := h
          obtain ⟨h1, h2⟩ := ih hr
          exact ⟨by rw [h1], by simp only [List.mem_cons, not_or]; exact ⟨fun e => hc e.symm, h2⟩⟩
  induction s with
  | nil => intro m i h; cases h
  | cons c r ih =>
    intro m i h
    simp only [splitSlash] at h
    by_cases hc : c = 47
    · rw [if_pos hc] at h
      simp only [List.cons.injEq] at h
      obtain ⟨rfl, h⟩ := h
      obtain ⟨h1, h2⟩ := one r h
      exact ⟨by rw [hc, h1]; rfl, by simp, h2⟩
    · rw [if_neg hc] at h
      cases hr : splitSlash r with
      | nil => rw [hr] at h; cases h
      | cons a b =>
        rw [hr] at h
        simp only [List.cons.injEq] at h
        obtain ⟨rfl, rfl⟩ := h
        obtain ⟨h1, h2, h3⟩ := ih hr
        exact ⟨by rw [h1]; rfl, by simp only [List.mem_cons, not_or]; exact ⟨fun e => hc e.symm, h2⟩, h3⟩

theorem chain_iff (env : Env) (x : Nat) : ∀ (rest : List Str) (o : Nat), loadModuleAttrs env o rest = .ok (some x) ↔ Chain env o rest x
  | [], o => by
    constructor
    · intro h; cases h; exact .nil _
    · intro h; cases h; rfl
  | a :: r, o => by
    simp only [loadModuleAttrs]
    constructor
    · intro h
      cases ha : env.attr o a with
      | ok o' => rw [ha] at h; exact .cons ha ((chain_iff env x r o').1 h)
      | error e => rw [ha] at h; cases e <;> cases h
    · intro h
      cases h with
      | cons ha hc => rw [ha]; exact (chain_iff env x r _).2 hc

/-- **C43**, everything that can come back: a look-up returns the object `x` exactly when the text is `m/i` with one slash, `m` can be imported,
`i` begins with `m` or with a package name of `m`, and the other components of `i`, followed from the imported top-level package, lead to `x`. -/
theorem loadmodule_iff (env : Env) (s : Str) (x : Nat) : loadmodule env s = .ok (some x) ↔
    ∃ (m first : Str) (rest : List Str) (top : Nat), s = m ++ 47 :: joinDot (first :: rest) ∧ 47 ∉ m ∧ 47 ∉ joinDot (first :: rest) ∧
      (∀ a ∈ first :: rest, 46 ∉ a) ∧ env.importTop m = .ok top ∧ (first = m ∨ (first ++ [46]) <+: m) ∧ Chain env top rest x := by
  constructor
  · intro h
    unfold loadmodule at h
    split at h
    · next m i hs =>
      obtain ⟨h1, h2, h3⟩ := splitSlash_join s hs
      cases hi : env.importTop m with
      | error e => rw [hi] at h; cases e <;> cases h
      | ok top =>
        rw [hi] at h
        cases hd : splitDot i with
        | nil => exact absurd hd (splitDot_ne_nil i)
        | cons first rest =>
          rw [hd] at h
          have hj : joinDot (first :: rest) = i := by rw [← hd, joinDot_splitDot]
          simp only at h
          split at h
          · cases h
          · next hc =>
            refine ⟨m, first, rest, top, by rw [hj]; exact h1, h2, by rw [hj]; exact h3, by rw [← hd]; exact splitDot_dotfree i, hi, ?_, (chain_iff env x rest top).1 h⟩
            by_cases e : first = m
            · exact .inl e
            · refine .inr ?_
              have : startsWith m (first ++ [46]) ≠ false := fun hf => hc ⟨e, hf⟩
              simpa [startsWith, List.isPrefixOf_iff_prefix] using this
    · cases h
  · rintro ⟨m, first, rest, top, rfl, h2, h3, h4, hi, hp, hx⟩
    have h1 : splitSlash (m ++ 47 :: joinDot (first :: rest)) = [m, joinDot (first :: rest)] := by rw [splitSlash_append _ _ h2, splitSlash_noslash _ h3]
    have h5 : splitDot (joinDot (first :: rest)) = first :: rest := splitDot_joinDot _ (by simp) h4
    have h6 : ¬ (first ≠ m ∧ startsWith m (first ++ [46]) = false) := by
      rintro ⟨ha, hb⟩
      rcases hp with hp | hp
      · exact ha hp
      · rw [show startsWith m (first ++ [46]) = true from by simpa [startsWith, List.isPrefixOf_iff_prefix] using hp] at hb; cases hb
    simp only [loadmodule, h1, hi, h5, if_neg h6]
    exact (chain_iff env x rest top).2 hx

/-- **C43**, failures: without exactly one slash the look-up raises `ValueError`; an `ImportError` gives `None`. -/
theorem loadmodule_fails (env : Env) (s : Str) : ((∀ m i : Str, splitSlash s ≠ [m, i]) → loadmodule env s = .error .valueError) ∧
    (∀ m i : Str, s = m ++ 47 :: i → 47 ∉ m → 47 ∉ i → env.importTop m = .error .importError → loadmodule env s = .ok none) := by
  constructor
  · intro h
    unfold loadmodule
    split
    · next m i hs => exact absurd hs (h m i)
    · rfl
  · rintro m i rfl h1 h2 hi
    simp only [loadmodule, splitSlash_append _ _ h1, splitSlash_noslash _ h2, hi]

/-- Following `rest` from `o`, the last attribute fails with `e`. -/
inductive BreaksAt (env : Env) (e : Exc) : Nat → List Str → Prop
  | here {o a r} : env.attr o a = .error e → BreaksAt env e o (a :: r)
  | later {o a o' r} : env.attr o a = .ok o' → BreaksAt env e o' r → BreaksAt env e o (a :: r)

theorem breaks_result (env : Env) (e : Exc) {o : Nat} {r : List Str} (h : BreaksAt env e o r) :
    loadModuleAttrs env o r = if e = .attributeError then .ok none else .error e := by
  induction h with
  | here ha => unfold loadModuleAttrs; rw [ha]; cases e <;> rfl
  | later ha _ ih => unfold loadModuleAttrs; rw [ha]; exact ih

/-- **C43**, failures after the import: an attribute that does not exist gives `None`; any other exception
raised by the attribute lookup is raised. -/
theorem loadmodule_breaks (env : Env) (m first : Str) (rest : List Str) (top : Nat) (e : Exc)
    (hm : 47 ∉ m) (hs : 47 ∉ joinDot (first :: rest)) (hdot : ∀ a ∈ first :: rest, 46 ∉ a)
    (hi : env.importTop m = .ok top) (hp : first = m ∨ (first ++ [46]) <+: m) (hb : BreaksAt env e top rest) :
    loadmodule env (m ++ 47 :: joinDot (first :: rest)) = if e = .attributeError then .ok none else .error e := by
  have h1 : splitSlash (m ++ 47 :: joinDot (first :: rest)) = [m, joinDot (first :: rest)] := by
    rw [splitSlash_append _ _ hm, splitSlash_noslash _ hs]
  have h2 : splitDot (joinDot (first :: rest)) = first :: rest := splitDot_joinDot _ (by simp) hdot
  have h3 : ¬ (first ≠ m ∧ startsWith m (first ++ [46]) = false) := by
    rintro ⟨ha, hb⟩
    rcases hp with h | h
    · exact ha h
    · have : startsWith m (first ++ [46]) = true := by
        simpa [startsWith, List.isPrefixOf_iff_prefix] using h
      rw [this] at hb; cases hb
  simp only [loadmodule, h1, hi, h2, if_neg h3]
  exact breaks_result env e hb

/-! ### concrete cases -/

/-- Module `m` is object 1 with class `C` = 2, whose nested class `D` = 3; nothing else exists. -/
def env1 : Env where
  import_ s := if s = p!"m" then .ok 1 else .error .importError
  importTop s := if s = p!"m" then .ok 1 else .error .importError
  attr o a := if o = 1 ∧ a = p!"C" then .ok 2 else if o = 2 ∧ a = p!"D" then .ok 3 else .error .attributeError
  noneType := 0

example : Resolves env1 [p!"m"] [p!"C", p!"D"] 3 := ⟨1, rfl, .cons (o' := 2) rfl (.cons rfl (.nil _))⟩
example : Fails env1 ([p!"m"] ++ [p!"C"]) [p!"D"] := Or.inl ⟨.importError, rfl, by simp⟩
example : loadclass env1 p!"m.C.D" [] = .ok (some 3) := by decide
example : loadclass env1 p!"m.C" [(p!"C", 9)] = .ok (some 9) := by decide
example : loadclass env1 p!"no.such.Thing" [] = .ok none := by decide
example : loadmodule env1 p!"m/m" = .ok (some 1) := by decide
example : lastPair p!"b" (pairs (fun c => if c = 1 then p!"a" else p!"b")
    (.seq [.cls 1, .seq [.dict [(.inl p!"b", 5)], .cls 2]])) = some 2 := by decide

/-- Module names `p.b` whose package `p` (object 1) has an attribute `b` that is not the submodule `p.b` (object 5) but something else (object 6). -/
def env3 : Env where
  import_ s := if s = p!"p" then .ok 1 else if s = p!"p.b" then .ok 5 else .error .importError
  importTop s := if s = p!"p" ∨ s = p!"p.b" then .ok 1 else .error .importError
  attr o a := if o = 1 ∧ a = p!"b" then .ok 6 else .error .attributeError
  noneType := 0

/-- "never another module" fails when a package rebinds the name of its submodule: the module `p.b` is object 5, the look-up returns object 6. -/
theorem rebound_submodule : env3.import_ p!"p.b" = .ok 5 ∧ loadmodule env3 p!"p.b/p.b" = .ok (some 6) := by decide

example : loadmodule env1 p!"m" = .error .valueError ∧ loadmodule env1 p!"gone/gone" = .ok none ∧ loadmodule env1 p!"m/n" = .ok none := by decide

/-- `m` was imported but has no submodule `n` -/
example : BreaksAt env1 .attributeError 1 [p!"C", p!"n"] := .later (o' := 2) rfl (.here rfl)
example : loadmodule env1 p!"m/m.C.n" = .ok none := by decide

/-- the bound method `D` of the class `m.C`, which has no `__module__` of its own -/
example : loadclass env1 (importableName { qualname := p!"C.D", module_ := none, selfModule := some p!"m" }) [] = .ok (some 3) := by decide

/-- As `env1`, but there is also a submodule `m.C` (object 7) with an attribute `D` = 8. -/
def env2 : Env where
  import_ s := if s = p!"m" then .ok 1 else if s = p!"m.C" then .ok 7 else .error .importError
  importTop s := if s = p!"m" ∨ s = p!"m.C" then .ok 1 else .error .importError
  attr o a := if o = 1 ∧ a = p!"C" then .ok 2 else if o = 2 ∧ a = p!"D" then .ok 3
    else if o = 7 ∧ a = p!"D" then .ok 8 else .error .attributeError
  noneType := 0

/-- The proviso of `loadclass_finds_partial` is needed: class 3 really is `m.C.D`, but the look-up of
the name encode wrote returns 8, an attribute of the submodule that has the same dotted name. -/
theorem shadowed_by_submodule :
    Resolves env2 [p!"m"] [p!"C", p!"D"] 3 ∧
    loadclass env2 (importableName { qualname := p!"C.D", module_ := p!"m" }) [] = .ok (some 8) :=
  ⟨⟨1, rfl, .cons (o' := 2) rfl (.cons rfl (.nil _))⟩, by decide⟩

/-- An import that fails with anything else (a `SyntaxError`, an `OSError`, ... in the module) is not
absorbed: looking up the class raises. -/
theorem foreign_import_error_propagates :
    loadclass { env1 with import_ := fun _ => .error (.other 1) } p!"m.C" [] = .error (.other 1) := by
  decide

end JP.LoadClass.C18
