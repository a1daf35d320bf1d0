import Verif.Registry
/-!
# C19: the handler registry behaves like a map with subclass fallback

The specification below looks only at the history of calls, newest call first; it knows nothing of
the two dicts of the implementation.
-/
namespace JP.Registry.C19
open JP JP.Registry

/-- The handler most recently registered for exactly the class `t`, unless unregistered since. -/
def lastDirect : List Op → Nat → Option Nat
  | [], _ => none
  | .reg c h _ :: older, t => if c = t then some h else lastDirect older t
  | .unreg c :: older, t => if c = t then none else lastDirect older t

/-- The same for look-up by fully qualified name. -/
def lastNamed (w : Classes) : List Op → Str → Option Nat
  | [], _ => none
  | .reg c h _ :: older, s => if w.iname c = s then some h else lastNamed w older s
  | .unreg c :: older, s => if w.iname c = s then none else lastNamed w older s

/-- The handler most recently registered with `base=True` for `c`, unless unregistered since. -/
def activeBase : List Op → Nat → Option Nat
  | [], _ => none
  | .reg c h b :: older, t => if c = t ∧ b = true then some h else activeBase older t
  | .unreg c :: older, t => if c = t then none else activeBase older t

/-- When the current `base=True` registration of `t` began (index of the call in the history):
the first such registration after the latest unregister. -/
def since : List Op → Nat → Option Nat
  | [], _ => none
  | .reg c _ b :: older, t =>
    if c = t ∧ b = true then (match since older t with | some n => some n | none => some older.length)
    else since older t
  | .unreg c :: older, t => if c = t then none else since older t

/-- What looking up type `t` must give. -/
inductive Lookup (w : Classes) (hist : List Op) (t : Nat) (default : Option Nat) : Option Nat → Prop
  | direct {h} : lastDirect hist t = some h → Lookup w hist t default (some h)
  | base {c h n} : lastDirect hist t = none → w.sub t c = true → activeBase hist c = some h →
      since hist c = some n →
      (∀ c' n', w.sub t c' = true → since hist c' = some n' → n ≤ n') →
      Lookup w hist t default (some h)
  | default : lastDirect hist t = none →
      (∀ c, w.sub t c = true → activeBase hist c = none) → Lookup w hist t default default

/-! ### helper lemmas: the dicts after a history -/

theorem run_snoc (w : Classes) (ops : List Op) (op : Op) :
    run w (ops ++ [op]) = step w (run w ops) op := by simp [run]

theorem run_handlers_ty (w : Classes) (hist : List Op) (t : Nat) :
    dget (.ty t) (run w hist.reverse).handlers = lastDirect hist t := by
  induction hist with
  | nil => rfl
  | cons op older ih =>
    rw [List.reverse_cons, run_snoc]
    cases op with
    | reg c h b =>
      simp only [step, register, lastDirect]
      by_cases e : c = t
      · subst e; simp
      · rw [dget_dset_ne (by simpa using fun h => e h.symm), dget_dset_ne (by simp), ih, if_neg e]
    | unreg c =>
      simp only [step, unregister, lastDirect]
      rw [dget_ddel_ne (by simp)]
      by_cases e : c = t
      · subst e; simp
      · rw [dget_ddel_ne (by simpa using fun h => e h.symm), ih, if_neg e]

theorem run_handlers_name (w : Classes) (hist : List Op) (s : Str) :
    dget (.name s) (run w hist.reverse).handlers = lastNamed w hist s := by
  induction hist with
  | nil => rfl
  | cons op older ih =>
    rw [List.reverse_cons, run_snoc]
    cases op with
    | reg c h b =>
      simp only [step, register, lastNamed]
      rw [dget_dset_ne (by simp)]
      by_cases e : w.iname c = s
      · subst e; simp
      · rw [dget_dset_ne (by simpa using fun h => e h.symm), ih, if_neg e]
    | unreg c =>
      simp only [step, unregister, lastNamed]
      by_cases e : w.iname c = s
      · subst e; simp
      · rw [dget_ddel_ne (by simpa using fun h => e h.symm), dget_ddel_ne (by simp), ih, if_neg e]

theorem run_base (w : Classes) (hist : List Op) (t : Nat) :
    dget t (run w hist.reverse).base = activeBase hist t := by
  induction hist with
  | nil => rfl
  | cons op older ih =>
    rw [List.reverse_cons, run_snoc]
    cases op with
    | reg c h b =>
      simp only [step, register, activeBase]
      cases b with
      | false => simp [ih]
      | true =>
        by_cases e : c = t
        · subst e; simp
        · simp [e, dget_dset_ne (fun h => e h.symm), ih]
    | unreg c =>
      simp only [step, unregister, activeBase]
      by_cases e : c = t
      · subst e; simp
      · rw [dget_ddel_ne (fun h => e h.symm), ih, if_neg e]

theorem since_isSome (hist : List Op) (t : Nat) :
    (since hist t).isSome = (activeBase hist t).isSome := by
  induction hist with
  | nil => rfl
  | cons op older ih =>
    cases op with
    | reg c h b =>
      simp only [since, activeBase]
      split
      · split <;> rfl
      · exact ih
    | unreg c =>
      simp only [since, activeBase]
      split
      · rfl
      · exact ih

theorem since_lt (hist : List Op) (t n : Nat) (h : since hist t = some n) : n < hist.length := by
  induction hist generalizing n with
  | nil => cases h
  | cons op older ih =>
    cases op with
    | reg c hd b =>
      simp only [since] at h
      split at h
      · split at h
        · next m hm => cases h; have := ih _ hm; simp; omega
        · cases h; simp
      · have := ih _ h; simp; omega
    | unreg c =>
      simp only [since] at h
      split at h
      · cases h
      · have := ih _ h; simp; omega

/-- The base dict lists the active classes by the time their registration began. -/
def Sorted (hist : List Op) (l : List Nat) : Prop :=
  l.Pairwise (fun a b => ∃ m n, since hist a = some m ∧ since hist b = some n ∧ m < n)

theorem run_sorted (w : Classes) (hist : List Op) :
    Sorted hist ((run w hist.reverse).base.map (·.1)) := by
  induction hist with
  | nil => exact List.Pairwise.nil
  | cons op older ih =>
    have hmem : ∀ c, c ∈ (run w older.reverse).base.map (·.1) → ∃ n, since older c = some n := by
      intro c hc
      have h1 : dget c (run w older.reverse).base ≠ none := by
        rw [Ne, dget_eq_none_iff]; simpa using hc
      rw [run_base] at h1
      have := since_isSome older c
      cases h2 : since older c with
      | some n => exact ⟨n, rfl⟩
      | none =>
        rw [h2] at this
        cases h3 : activeBase older c with
        | none => exact absurd h3 h1
        | some _ => rw [h3] at this; cases this
    rw [List.reverse_cons, run_snoc]
    cases op with
    | reg c h b =>
      cases b with
      | false =>
        simp only [step, register]
        refine List.Pairwise.imp ?_ ih
        rintro x y ⟨m, n, h1, h2, h3⟩
        exact ⟨m, n, by simpa [since] using h1, by simpa [since] using h2, h3⟩
      | true =>
        simp only [step, register, if_true, dset_keys]
        have keep : ∀ x n, since older x = some n → since (.reg c h true :: older) x = some n := by
          intro x n hx
          by_cases e : c = x
          · subst e; simp [since, hx]
          · simp [since, e, hx]
        split
        · refine List.Pairwise.imp ?_ ih
          rintro x y ⟨m, n, h1, h2, h3⟩
          exact ⟨m, n, keep _ _ h1, keep _ _ h2, h3⟩
        · next hnot =>
          unfold Sorted
          rw [List.pairwise_append]
          refine ⟨List.Pairwise.imp ?_ ih, List.pairwise_singleton _ _, ?_⟩
          · rintro x y ⟨m, n, h1, h2, h3⟩
            exact ⟨m, n, keep _ _ h1, keep _ _ h2, h3⟩
          · intro x hx y hy
            simp only [List.mem_singleton] at hy
            subst hy
            obtain ⟨m, hm⟩ := hmem x hx
            have hnone : since older y = none := by
              have h1 : activeBase older y = none := by
                rw [← run_base w, dget_eq_none_iff]; exact hnot
              have := since_isSome older y
              rw [h1] at this
              cases h2 : since older y with
              | none => rfl
              | some _ => rw [h2] at this; cases this
            exact ⟨m, older.length, keep _ _ hm, by simp [since, hnone], since_lt _ _ _ hm⟩
    | unreg c =>
      simp only [step, unregister, ddel]
      have hsub : ((run w older.reverse).base.filter (fun kv => decide (kv.1 ≠ c))).map (·.1)
          = ((run w older.reverse).base.map (·.1)).filter (fun k => decide (k ≠ c)) := by
        rw [List.filter_map]; rfl
      rw [hsub]
      have h1 : (((run w older.reverse).base.map (·.1)).filter (fun k => decide (k ≠ c))).Pairwise
          (fun a b => ∃ m n, since older a = some m ∧ since older b = some n ∧ m < n) :=
        List.Pairwise.filter _ ih
      refine List.Pairwise.imp_of_mem ?_ h1
      rintro x y hx hy ⟨m, n, h1, h2, h3⟩
      simp only [List.mem_filter, decide_eq_true_eq] at hx hy
      refine ⟨m, n, ?_, ?_, h3⟩
      · simp only [since]; rw [if_neg (fun e => hx.2 e.symm)]; exact h1
      · simp only [since]; rw [if_neg (fun e => hy.2 e.symm)]; exact h2

theorem findBase_none (w : Classes) (t : Nat) (l : List (Nat × Nat)) :
    findBase w t l = none ↔ ∀ c ∈ l.map (·.1), w.sub t c = false := by
  induction l with
  | nil => simp [findBase]
  | cons x l ih =>
    obtain ⟨c, h⟩ := x
    simp only [findBase]
    by_cases e : w.sub t c = true
    · simp [e]
    · simp only [Bool.not_eq_true] at e
      simp [e] at ih ⊢
      exact ih

theorem findBase_some (w : Classes) (t : Nat) (l : List (Nat × Nat)) (h : Nat)
    (hf : findBase w t l = some h) :
    ∃ pre c post, l = pre ++ (c, h) :: post ∧ w.sub t c = true ∧
      ∀ c' ∈ pre.map (·.1), w.sub t c' = false := by
  induction l with
  | nil => simp [findBase] at hf
  | cons x l ih =>
    obtain ⟨c, h'⟩ := x
    simp only [findBase] at hf
    split at hf
    · next e => cases hf; exact ⟨[], c, l, rfl, e, by simp⟩
    · next e =>
      obtain ⟨pre, c', post, h1, h2, h3⟩ := ih hf
      refine ⟨(c, h') :: pre, c', post, by rw [h1]; rfl, h2, ?_⟩
      intro d hd
      simp only [List.map_cons, List.mem_cons] at hd
      rcases hd with rfl | hd
      · simpa using e
      · exact h3 _ hd

/-! ### the property -/

/-- **C19** (types).  After any history of register/unregister calls (`hist`, newest first), looking
up a type gives exactly what the specification says, for every class hierarchy: the handler most
recently registered for that class and not unregistered since; otherwise the `base=True` handler of
the base class whose current registration is the oldest; otherwise the default. -/
theorem get_type_spec (w : Classes) (hist : List Op) (t : Nat) (default : Option Nat) :
    Lookup w hist t default (get w (run w hist.reverse) (.ty t) default) := by
  unfold get
  simp only [run_handlers_ty]
  cases hd : lastDirect hist t with
  | some h => exact .direct hd
  | none =>
    simp only
    cases hf : findBase w t (run w hist.reverse).base with
    | none =>
      simp only
      refine .default hd ?_
      intro c hc
      rw [findBase_none] at hf
      rw [← run_base w, dget_eq_none_iff]
      intro hm
      rw [hf c hm] at hc; cases hc
    | some h =>
      simp only
      obtain ⟨pre, c, post, hl, hsub, hpre⟩ := findBase_some _ _ _ _ hf
      have hsorted := run_sorted w hist
      rw [hl] at hsorted
      simp only [List.map_append, List.map_cons] at hsorted
      unfold Sorted at hsorted
      rw [List.pairwise_append, List.pairwise_cons] at hsorted
      obtain ⟨_, ⟨hpost, _⟩, hcross⟩ := hsorted
      have hcpre : c ∉ pre.map (·.1) := fun hm => by rw [hpre c hm] at hsub; cases hsub
      have hact : activeBase hist c = some h := by
        rw [← run_base w, hl, dget_append, (dget_eq_none_iff c pre).mpr hcpre]
        simp [dget_cons]
      have hs : ∃ n, since hist c = some n := by
        have := since_isSome hist c
        rw [hact] at this
        exact Option.isSome_iff_exists.mp this
      obtain ⟨n, hn⟩ := hs
      refine .base hd hsub hact hn ?_
      intro c' n' hc' hn'
      have hmem : c' ∈ (run w hist.reverse).base.map (·.1) := by
        have h1 := since_isSome hist c'
        rw [hn'] at h1
        refine Classical.byContradiction fun hnot => ?_
        rw [← dget_eq_none_iff, run_base] at hnot
        rw [hnot] at h1; cases h1
      rw [hl] at hmem
      simp only [List.map_append, List.map_cons, List.mem_append, List.mem_cons] at hmem
      rcases hmem with hm | rfl | hm
      · rw [hpre c' hm] at hc'; cases hc'
      · rw [hn] at hn'; cases hn'; exact Nat.le_refl _
      · obtain ⟨m, k, h1, h2, h3⟩ := hpost c' hm
        rw [hn] at h1; rw [hn'] at h2; cases h1; cases h2; omega

/-- **C19** (the specification is deterministic, so `get_type_spec` pins the result down). -/
theorem lookup_unique (w : Classes) (hist : List Op) (t : Nat) (d : Option Nat) (x y : Option Nat)
    (hx : Lookup w hist t d x) (hy : Lookup w hist t d y) : x = y := by
  have inj : ∀ c c' n, since hist c = some n → since hist c' = some n → c = c' := by
    intro c c' n h1 h2
    have hs := run_sorted w hist
    have mem : ∀ c n, since hist c = some n → c ∈ (run w hist.reverse).base.map (·.1) := by
      intro c n hc
      have h1 := since_isSome hist c
      rw [hc] at h1
      refine Classical.byContradiction fun hnot => ?_
      rw [← dget_eq_none_iff, run_base] at hnot
      rw [hnot] at h1; cases h1
    obtain ⟨i, hi, ei⟩ := List.getElem_of_mem (mem c n h1)
    obtain ⟨j, hj, ej⟩ := List.getElem_of_mem (mem c' n h2)
    rcases Nat.lt_trichotomy i j with hij | hij | hij
    · obtain ⟨m, k, a, b, lt⟩ := (List.pairwise_iff_getElem.mp hs) i j hi hj hij
      rw [ei, h1] at a; rw [ej, h2] at b; cases a; cases b; omega
    · subst hij; rw [← ei, ← ej]
    · obtain ⟨m, k, a, b, lt⟩ := (List.pairwise_iff_getElem.mp hs) j i hj hi hij
      rw [ej, h2] at a; rw [ei, h1] at b; cases a; cases b; omega
  have act : ∀ c h, activeBase hist c = some h → ∃ n, since hist c = some n := by
    intro c h hc
    have := since_isSome hist c
    rw [hc] at this
    exact Option.isSome_iff_exists.mp this
  cases hx with
  | direct h =>
    cases hy with
    | direct h' => rw [h] at h'; exact h'
    | base h' => rw [h] at h'; cases h'
    | default h' => rw [h] at h'; cases h'
  | base h hs ha hn hmin =>
    cases hy with
    | direct h' => rw [h] at h'; cases h'
    | base h' hs' ha' hn' hmin' =>
      have e := Nat.le_antisymm (hmin _ _ hs' hn') (hmin' _ _ hs hn)
      subst e
      have := inj _ _ _ hn hn'
      subst this
      rw [ha] at ha'; exact ha'
    | default h' hnone => rw [hnone _ hs] at ha; cases ha
  | default h hnone =>
    cases hy with
    | direct h' => rw [h] at h'; cases h'
    | base h' hs' ha' => rw [hnone _ hs'] at ha'; cases ha'
    | default => rfl

/-- **C19** (names).  Look-up by fully qualified name (used by the decoder for classes it cannot
import) gives the handler most recently registered under that name. -/
theorem get_name_spec (w : Classes) (hist : List Op) (s : Str) (default : Option Nat) :
    get w (run w hist.reverse) (.name s) default = (lastNamed w hist s).or default := by
  unfold get
  simp only [run_handlers_name]
  cases lastNamed w hist s <;> rfl

/-- **C19**: registering something that is not a class raises `TypeError`. -/
theorem register_nontype (w : Classes) (r : Reg) (k : Key) (h : Nat) (b : Bool)
    (hk : ∀ c, k ≠ .ty c) : register w r k h b = .error .typeError := by
  cases k with
  | ty c => exact absurd rfl (hk c)
  | name => rfl
  | other => rfl

/-! ### concrete cases -/

/-- classes 0 ⊇ 1 ⊇ 2 (2 derives from 1 derives from 0) -/
def w3 : Classes := { iname := fun c => [c], sub := fun a b => decide (b ≤ a) }

/-- Class 2 has no handler of its own; 1 was registered (base) after 0, so 0's handler wins. -/
example : get w3 (run w3 [.reg 0 10 true, .reg 1 11 true, .reg 2 12 false, .unreg 2]) (.ty 2) none
    = some 10 := by decide
/-- After unregistering and re-registering 0 it goes to the end: now 1's handler is found first. -/
example : get w3 (run w3 [.reg 0 10 true, .reg 1 11 true, .unreg 0, .reg 0 13 true]) (.ty 2) none
    = some 11 := by decide
example : get w3 (run w3 [.reg 0 10 true, .reg 2 12 false]) (.ty 2) none = some 12 := by decide
example : get w3 (run w3 [.reg 2 12 false, .unreg 2]) (.ty 2) (some 99) = some 99 := by decide
example : get w3 (run w3 [.reg 2 12 false]) (.name [2]) none = some 12 := by decide
example : ∀ c, (Key.name [1]) ≠ .ty c := by intro c; simp

/-- A consequence worth knowing: registering a class again *without* `base=True` does not withdraw
its earlier `base=True` handler, so a subclass keeps getting the old one. -/
theorem stale_base_handler :
    get w3 (run w3 [.reg 1 11 true, .reg 1 21 false]) (.ty 1) none = some 21 ∧
    get w3 (run w3 [.reg 1 11 true, .reg 1 21 false]) (.ty 2) none = some 11 := by decide

/-- ... and two classes with the same importable name share the by-name entry: unregistering one
hides the other from look-up by name (look-up by type still works). -/
theorem name_shared :
    let w : Classes := { iname := fun _ => p!"m.C", sub := fun a b => decide (a = b) }
    get w (run w [.reg 0 10 false, .reg 1 11 false, .unreg 0]) (.name p!"m.C") none = none ∧
    get w (run w [.reg 0 10 false, .reg 1 11 false, .unreg 0]) (.ty 1) none = some 11 := by decide

end JP.Registry.C19
