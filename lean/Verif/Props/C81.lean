import Verif.Dispatch
/-!
# C81 — the form in which an object is written

The forms for lists, dicts, tuples, sets, bytes, bytearrays, numbers, strings and `None` are for objects of exactly these types; an instance of a subclass
is always written as an instance (`special_iff`, `instance_iff`).  What is refused are the functions that cannot be found by name (`refused_iff`).  As a value of
a dictionary or an attribute, exactly what is refused is left out, and in addition bound methods (`picklable_iff`).  The forms of instances are tried in a
fixed order, in which the test for sequences that comes under `has_dict` is never true (`dead`), and the order is the one of `Pickler.flattenRest` (`rest_eq`).

The statements about functions and classes need an object that does not claim another class than its own: `claims_function` and `claims_list`.
-/
namespace JP.C81
open JP Classes Dispatch

variable (t : Table) (dec : Bool) (o : PyObj)

/-- the notation of an exact type -/
def notation_ (c : CId) : Option Route :=
  if c = Classes.bytes then some .bytes
  else if c ∈ [str, bool, int, float, noneType] then some .primitive
  else if c = Dispatch.bytearray then some .bytearray
  else if c = Classes.list then some .list
  else if c = Classes.dict then some .dict
  else if c = Classes.tuple then some .tuple
  else if c = Classes.set then some .set
  else none

/-- Objects of one of the special types are written in the notation of the type, and all others in one of the other ways.  (Numbers for `use_decimal` apart.) -/
theorem special_iff (hn : ¬ Number t dec o) (r : Route) (hr : r ∈ [Route.bytes, .primitive, .bytearray, .list, .dict, .tuple, .set]) :
    route t dec o = r ↔ notation_ o.type_ = some r := by
  have hd : (dec && isinst t o decimal) = false := by
    cases h : (dec && isinst t o decimal) with
    | false => rfl
    | true => exact absurd (Bool.and_eq_true_iff.1 h) hn
  have hno : ∀ x : Route, x ∉ [Route.bytes, .primitive, .bytearray, .list, .dict, .tuple, .set] → x ≠ r := by
    intro x hx e
    exact hx (e ▸ hr)
  unfold route notation_ primitives
  rw [hd, Bool.or_false]
  by_cases h1 : o.type_ = Classes.bytes
  · simp [h1]
  rw [if_neg h1, if_neg h1]
  by_cases h2 : o.type_ ∈ [str, bool, int, float, noneType]
  · rw [if_pos h2, if_pos (List.contains_iff_mem.2 h2)]
    exact ⟨fun h => by rw [h], fun h => by injection h⟩
  rw [if_neg h2, if_neg (fun h => h2 (List.contains_iff_mem.1 h))]
  by_cases h3 : o.type_ = Dispatch.bytearray
  · rw [if_pos h3, if_pos h3]
    exact ⟨fun h => by rw [h], fun h => by injection h⟩
  rw [if_neg h3, if_neg h3]
  by_cases h4 : o.type_ = Classes.list
  · rw [if_pos (.inl h4), if_pos h4, if_pos h4]
    exact ⟨fun h => by rw [h], fun h => by injection h⟩
  simp only [h4, false_or, if_false]
  by_cases h5 : o.type_ = Classes.dict
  · rw [if_pos h5, if_pos h5]
    exact ⟨fun h => by rw [h], fun h => by injection h⟩
  simp only [h5, if_false]
  by_cases h6 : o.type_ = Classes.tuple
  · rw [if_pos (.inl h6), if_pos h6, if_pos h6]
    exact ⟨fun h => by rw [h], fun h => by injection h⟩
  simp only [h6, false_or, if_false]
  by_cases h7 : o.type_ = Classes.set
  · rw [if_pos h7, if_pos h7]
    exact ⟨fun h => by rw [h], fun h => by injection h⟩
  simp only [h7, if_false]
  constructor
  · intro h
    split at h
    · exact absurd h (hno _ (by decide))
    · split at h
      · exact absurd h (hno _ (by decide))
      · split at h
        · exact absurd h (hno _ (by decide))
        · exact absurd h (hno _ (by decide))
  · intro h; cases h

theorem notation_none (c : CId) : notation_ c = none ↔ c ∉ special := by
  unfold notation_ special
  constructor
  · intro h hc
    simp only [List.mem_cons, List.not_mem_nil, or_false] at hc
    rcases hc with e | e | e | e | e | e | e | e | e | e | e <;> (rw [e] at h; revert h; decide)
  · intro h
    simp only [List.mem_cons, List.not_mem_nil, or_false, not_or] at h
    obtain ⟨h1, h2, h3, h4, h5, h6, h7, h8, h9, h10, h11⟩ := h
    rw [if_neg h1, if_neg (by simp [h2, h3, h4, h5, h6]), if_neg h7, if_neg h8, if_neg h9, if_neg h10, if_neg h11]

/-- the rest of `_get_flattener` -/
theorem other (hn : ¬ Number t dec o) (hs : o.type_ ∉ special) :
    route t dec o = if isModuleFunction t o then .function else if isObject t o then .instance else if isType t o then .type else .refused := by
  have hd : (dec && isinst t o decimal) = false := by
    cases h : (dec && isinst t o decimal) with
    | false => rfl
    | true => exact absurd (Bool.and_eq_true_iff.1 h) hn
  unfold special at hs
  simp only [List.mem_cons, List.not_mem_nil, or_false, not_or] at hs
  obtain ⟨h1, h2, h3, h4, h5, h6, h7, h8, h9, h10, h11⟩ := hs
  unfold route primitives
  rw [hd, if_neg h1, if_neg (by simp [h2, h3, h4, h5, h6]), if_neg h7, if_neg (fun h => h.elim h8 h9), if_neg (fun h => h.elim h10 h11)]

section
variable {t} {dec} {o}

theorem isinst_honest (ho : Honest o) (c : CId) : isinst t o c = issub t o.type_ c := by
  unfold isinst
  rw [ho, Bool.or_self]

theorem function_iff' (hS : Sound t) (c : CId) : issub t c Classes.function = true ↔ c = Classes.function :=
  ⟨hS.function c, fun h => by rw [h]; exact hS.self _⟩

theorem builtin_iff' (hS : Sound t) (c : CId) : issub t c builtinFunction = true ↔ c = builtinFunction :=
  ⟨hS.builtin c, fun h => by rw [h]; exact hS.self _⟩

theorem moduleFunction_iff (hS : Sound t) (ho : Honest o) (hc : o.cython = false) :
    isModuleFunction t o = true ↔ (o.type_ = Classes.function ∨ o.type_ = builtinFunction) ∧ Named o := by
  unfold isModuleFunction Named
  rw [isinst_honest ho, isinst_honest ho, hc, Bool.or_false, Bool.and_eq_true, Bool.and_eq_true, Bool.or_eq_true, function_iff' hS, builtin_iff' hS, and_assoc]
  cases o.name with
  | none => simp
  | some n => simp

end

theorem notation_mem {c : CId} {r : Route} (hno : notation_ c = some r) : r ∈ [Route.bytes, .primitive, .bytearray, .list, .dict, .tuple, .set] := by
  unfold notation_ at hno
  repeat' split at hno
  all_goals first | (injection hno with hno; subst hno; decide) | cases hno

/-- What is refused: functions and lambdas that cannot be found by a name. -/
theorem refused_iff (hS : Sound t) (ho : Honest o) (hc : o.cython = false) (hn : ¬ Number t dec o) :
    route t dec o = .refused ↔ (o.type_ = Classes.function ∨ o.type_ = builtinFunction) ∧ ¬ Named o := by
  by_cases hs : o.type_ ∈ special
  · constructor
    · intro h
      cases hno : notation_ o.type_ with
      | none => exact absurd hs ((notation_none _).1 hno)
      | some r =>
        have hr : r ∈ [Route.bytes, .primitive, .bytearray, .list, .dict, .tuple, .set] := notation_mem hno
        rw [(special_iff t dec o hn r hr).2 hno] at h
        subst h
        exact absurd hr (by decide)
    · rintro ⟨h | h, _⟩ <;> (rw [h] at hs; exact absurd hs (by decide))
  · rw [other t dec o hn hs]
    by_cases hm : isModuleFunction t o = true
    · rw [if_pos hm]
      have := (moduleFunction_iff hS ho hc).1 hm
      exact ⟨fun h => (by cases h), fun h => absurd this.2 h.2⟩
    · rw [if_neg hm]
      have hm' := fun h => hm ((moduleFunction_iff hS ho hc).2 h)
      by_cases hf : o.type_ = Classes.function ∨ o.type_ = builtinFunction
      · have h1 : isObject t o = false := by
          unfold isObject
          rw [isinst_honest ho, isinst_honest ho, isinst_honest ho]
          rcases hf with h | h
          · rw [h, hS.self]; simp
          · rw [h, hS.self]; simp
        have h2 : isType t o = false := by
          unfold isType
          rw [isinst_honest ho]
          rcases hf with h | h <;> rw [h] <;> exact hS.notMeta _ (by simp)
        rw [h1, h2]
        exact ⟨fun _ => ⟨hf, fun h => hm' ⟨hf, h⟩⟩, fun _ => rfl⟩
      · refine ⟨fun h => ?_, fun h => absurd h.1 hf⟩
        have h1 : isObject t o = !isType t o := by
          unfold isObject isType
          rw [isinst_honest ho Classes.function, isinst_honest ho builtinFunction]
          have e1 : issub t o.type_ Classes.function = false := by
            cases h : issub t o.type_ Classes.function with
            | false => rfl
            | true => exact absurd (.inl (hS.function _ h)) hf
          have e2 : issub t o.type_ builtinFunction = false := by
            cases h : issub t o.type_ builtinFunction with
            | false => rfl
            | true => exact absurd (.inr (hS.builtin _ h)) hf
          rw [e1, e2, Bool.or_false, Bool.or_false]
        rw [h1] at h
        cases ht : isType t o <;> rw [ht] at h <;> cases h

/-- Functions that can be found by a name are written with it. -/
theorem function_iff (hS : Sound t) (ho : Honest o) (hc : o.cython = false) (hn : ¬ Number t dec o) :
    route t dec o = .function ↔ (o.type_ = Classes.function ∨ o.type_ = builtinFunction) ∧ Named o := by
  by_cases hf : o.type_ = Classes.function ∨ o.type_ = builtinFunction
  · have hs : o.type_ ∉ special := by rcases hf with h | h <;> (rw [h]; decide)
    rw [other t dec o hn hs]
    by_cases hm : isModuleFunction t o = true
    · rw [if_pos hm]
      exact ⟨fun _ => (moduleFunction_iff hS ho hc).1 hm, fun _ => rfl⟩
    · rw [if_neg hm]
      refine ⟨fun h => ?_, fun h => absurd ((moduleFunction_iff hS ho hc).2 h) hm⟩
      split at h
      · cases h
      · split at h <;> cases h
  · refine ⟨fun h => ?_, fun h => absurd h.1 hf⟩
    by_cases hs : o.type_ ∈ special
    · cases hno : notation_ o.type_ with
      | none => exact absurd hs ((notation_none _).1 hno)
      | some r =>
        have hr : r ∈ [Route.bytes, .primitive, .bytearray, .list, .dict, .tuple, .set] := notation_mem hno
        rw [(special_iff t dec o hn r hr).2 hno] at h
        subst h
        exact absurd hr (by decide)
    · rw [other t dec o hn hs] at h
      by_cases hm : isModuleFunction t o = true
      · exact absurd ((moduleFunction_iff hS ho hc).1 hm).1 hf
      · rw [if_neg hm] at h
        split at h
        · cases h
        · split at h <;> cases h

/-- Classes, of whatever metaclass, are written by their names. -/
theorem type_iff (hS : Sound t) (ho : Honest o) (hc : o.cython = false) (hn : ¬ Number t dec o) :
    route t dec o = .type ↔ issub t o.type_ typeC = true := by
  by_cases hs : o.type_ ∈ special
  · have hm := hS.notMeta o.type_ (List.mem_cons_of_mem _ (List.mem_cons_of_mem _ hs))
    rw [hm]
    refine ⟨fun h => ?_, fun h => by cases h⟩
    cases hno : notation_ o.type_ with
    | none => exact absurd hs ((notation_none _).1 hno)
    | some r =>
      have hr : r ∈ [Route.bytes, .primitive, .bytearray, .list, .dict, .tuple, .set] := notation_mem hno
      rw [(special_iff t dec o hn r hr).2 hno] at h
      subst h
      exact absurd hr (by decide)
  · rw [other t dec o hn hs]
    have hob : isObject t o = !(issub t o.type_ typeC || (issub t o.type_ Classes.function || issub t o.type_ builtinFunction)) := by
      unfold isObject
      rw [isinst_honest ho, isinst_honest ho, isinst_honest ho, Bool.or_assoc]
    have hty : isType t o = issub t o.type_ typeC := isinst_honest ho _
    have hff : issub t o.type_ typeC = true → ¬ (o.type_ = Classes.function ∨ o.type_ = builtinFunction) := by
      rintro h (e | e) <;> rw [e, hS.notMeta _ (by simp)] at h <;> cases h
    by_cases hm : isModuleFunction t o = true
    · rw [if_pos hm]
      exact ⟨fun h => (by cases h), fun h => absurd ((moduleFunction_iff hS ho hc).1 hm).1 (hff h)⟩
    · rw [if_neg hm, hob, hty]
      cases h : issub t o.type_ typeC with
      | true => exact ⟨fun _ => rfl, fun _ => rfl⟩
      | false =>
        refine ⟨fun h => ?_, fun h => by cases h⟩
        split at h
        · cases h
        · split at h
          · next h' => cases h'
          · cases h

/-- Everything else is written as an instance: in particular all instances of subclasses of the special types, and bound methods. -/
theorem instance_iff (hS : Sound t) (ho : Honest o) (hc : o.cython = false) (hn : ¬ Number t dec o) :
    route t dec o = .instance ↔ o.type_ ∉ special ∧ o.type_ ≠ Classes.function ∧ o.type_ ≠ builtinFunction ∧ issub t o.type_ typeC = false := by
  constructor
  · intro h
    refine ⟨fun hs => ?_, fun e => ?_, fun e => ?_, ?_⟩
    · cases hno : notation_ o.type_ with
      | none => exact absurd hs ((notation_none _).1 hno)
      | some r =>
        have hr : r ∈ [Route.bytes, .primitive, .bytearray, .list, .dict, .tuple, .set] := notation_mem hno
        rw [(special_iff t dec o hn r hr).2 hno] at h
        subst h
        exact absurd hr (by decide)
    · by_cases hN : Named o
      · rw [(function_iff t dec o hS ho hc hn).2 ⟨.inl e, hN⟩] at h; cases h
      · rw [(refused_iff t dec o hS ho hc hn).2 ⟨.inl e, hN⟩] at h; cases h
    · by_cases hN : Named o
      · rw [(function_iff t dec o hS ho hc hn).2 ⟨.inr e, hN⟩] at h; cases h
      · rw [(refused_iff t dec o hS ho hc hn).2 ⟨.inr e, hN⟩] at h; cases h
    · cases ht : issub t o.type_ typeC with
      | false => rfl
      | true => rw [(type_iff t dec o hS ho hc hn).2 ht] at h; cases h
  · rintro ⟨h1, h2, h3, h4⟩
    cases hr : route t dec o with
    | «instance» => rfl
    | function => exact absurd ((function_iff t dec o hS ho hc hn).1 hr).1 (fun h => h.elim h2 h3)
    | refused => exact absurd ((refused_iff t dec o hS ho hc hn).1 hr).1 (fun h => h.elim h2 h3)
    | type => rw [(type_iff t dec o hS ho hc hn).1 hr] at h4; cases h4
    | _ =>
      have := (special_iff t dec o hn _ (by decide)).1 hr
      rw [(notation_none _).2 h1] at this
      cases this

/-- With `use_decimal`, instances of `Decimal` and of its subclasses are handed to the backend. -/
theorem decimal_iff (hb : o.type_ ≠ Classes.bytes) (hn : Number t dec o) : route t dec o = .primitive := by
  unfold route
  rw [if_neg hb, hn.1, hn.2, if_pos (by simp)]

/-- As a value of a dictionary or an attribute, exactly what is refused is left out, and also bound methods.  (Names of jsonpickle's own tags are left out too.) -/
theorem picklable_iff (hS : Sound t) (ho : Honest o) (hc : o.cython = false) (hn : ¬ Number t dec o) (s : Str) (hs : Tags.isReserved s = false) :
    Dispatch.isPicklable t (.str s) o = false ↔ route t dec o = .refused ∨ o.type_ = method := by
  unfold Dispatch.isPicklable
  dsimp only
  rw [hs, Bool.not_false, Bool.true_and, Bool.or_eq_false_iff, refused_iff t dec o hS ho hc hn, Bool.not_eq_false']
  have hf : isFunction o = true ↔ o.type_ = Classes.function ∨ o.type_ = method ∨ o.type_ = builtinFunction := by
    unfold isFunction
    rw [List.contains_iff_mem]
    simp
  rw [hf, Bool.eq_false_iff, ne_eq, moduleFunction_iff hS ho hc]
  have hd1 : method ≠ Classes.function := by decide
  have hd2 : method ≠ builtinFunction := by decide
  constructor
  · rintro ⟨h1, h | h | h⟩
    · exact .inl ⟨.inl h, fun hN => h1 ⟨.inl h, hN⟩⟩
    · exact .inr h
    · exact .inl ⟨.inr h, fun hN => h1 ⟨.inr h, hN⟩⟩
  · rintro (⟨h1, h2⟩ | h)
    · exact ⟨fun h => h2 h.2, h1.elim .inl (fun h => .inr (.inr h))⟩
    · exact ⟨fun h' => by rcases h'.1 with e | e <;> rw [h] at e <;> revert e <;> decide, .inr (.inl h)⟩

/-- Primitive are the numbers, strings and `None`, and not the instances of subclasses; what `include_properties` takes over unchanged is what has a notation
of its own, bytearrays apart. -/
theorem primitive_iff (hn : ¬ Number t dec o) : (isPrimitive o = true ↔ route t dec o = .primitive) ∧
    (isNotClass o = true ↔ o.type_ ∈ special ∧ o.type_ ≠ Dispatch.bytearray) := by
  constructor
  · rw [special_iff t dec o hn .primitive (by decide)]
    unfold isPrimitive notation_ primitives
    rw [List.contains_iff_mem]
    constructor
    · intro h
      rw [if_neg (fun e => by rw [e] at h; exact absurd h (by decide)), if_pos h]
    · intro h
      by_cases h1 : o.type_ = Classes.bytes
      · rw [if_pos h1] at h; cases h
      · rw [if_neg h1] at h
        by_cases h2 : o.type_ ∈ [str, bool, int, float, noneType]
        · exact h2
        · rw [if_neg h2] at h
          repeat' split at h
          all_goals cases h
  · unfold isNotClass special primitives
    rw [List.contains_iff_mem]
    constructor
    · intro h
      simp only [List.cons_append, List.nil_append, List.mem_cons, List.not_mem_nil, or_false] at h
      rcases h with e | e | e | e | e | e | e | e | e | e <;> rw [e] <;> decide
    · rintro ⟨h, h'⟩
      simp only [List.mem_cons, List.not_mem_nil, or_false] at h
      rcases h with e | e | e | e | e | e | e | e | e | e | e
      all_goals first | exact absurd e h' | (rw [e]; decide)

/-- The test for sequences under `has_dict` (pickler.py:754-755) is never true: without it the result is the same. -/
theorem dead : shape t o =
    if isinst t o moduleType then .module
    else if isDictSub t o then .entries
    else if isSeqSub t o then .elements
    else if isIterator t o then .iterator
    else if o.hasDict then .attributes
    else if o.hasSlots then .slots
    else .nothing := by
  unfold shape
  cases isinst t o moduleType <;> cases isDictSub t o <;> cases isSeqSub t o <;> cases isIterator t o <;> cases o.hasDict <;> cases o.hasSlots <;> rfl

/-- An instance is written as its remaining elements if its class is an iterator, by inheritance or by having both methods, and neither an open file nor a
subclass of a container; whether it has attributes makes no difference. -/
theorem iterator_iff (ho : Honest o) (hs : o.type_ ∉ special) :
    shape t o = .iterator ↔ (∀ c ∈ [moduleType, dict, list, Classes.set, tuple, ioBase], issub t o.type_ c = false) ∧
      (issub t o.type_ Dispatch.iterator = true ∨ (∃ m, lookup t o.type_ p!"__iter__" = some m ∧ m ≠ .none) ∧ ∃ m, lookup t o.type_ p!"__next__" = some m ∧ m ≠ .none) := by
  have hty : ∀ c ∈ special, o.type_ ≠ c := fun c hc e => hs (e ▸ hc)
  have h1 : isDictSub t o = issub t o.type_ dict := by
    unfold isDictSub
    rw [bne_iff_ne.2 (hty dict (by decide)), Bool.and_true, ho]
  have h2 : isSeqSub t o = (issub t o.type_ list || issub t o.type_ Classes.set || issub t o.type_ tuple) := by
    unfold isSeqSub
    have : [list, Classes.set, tuple].contains o.type_ = false := by
      rw [Bool.eq_false_iff, ne_eq, List.contains_iff_mem]
      intro h
      simp only [List.mem_cons, List.not_mem_nil, or_false] at h
      rcases h with e | e | e <;> exact hty _ (by decide) e
    rw [this, Bool.not_false, Bool.and_true, ho]
  have hany : ∀ x : Option Member, x.any (· != .none) = true ↔ ∃ m, x = some m ∧ m ≠ .none := by
    intro x
    cases x <;> simp
  have h3 : isIterator t o = true ↔ (issub t o.type_ Dispatch.iterator = true ∨
      (∃ m, lookup t o.type_ p!"__iter__" = some m ∧ m ≠ .none) ∧ ∃ m, lookup t o.type_ p!"__next__" = some m ∧ m ≠ .none) ∧ issub t o.type_ ioBase = false := by
    unfold isIterator subIterator
    rw [ho, Bool.or_self, isinst_honest ho, Bool.and_eq_true, Bool.or_eq_true, Bool.and_eq_true, hany, hany, Bool.not_eq_true']
  have h4 : shape t o = .iterator ↔ (isinst t o moduleType = false ∧ isDictSub t o = false ∧ isSeqSub t o = false) ∧ isIterator t o = true := by
    rw [dead]
    cases isinst t o moduleType <;> cases isDictSub t o <;> cases isSeqSub t o <;> cases isIterator t o <;> cases o.hasDict <;> cases o.hasSlots <;> decide
  rw [h4, h3, h1, h2, isinst_honest ho]
  simp only [Bool.or_eq_false_iff, List.mem_cons, List.not_mem_nil, or_false, forall_eq_or_imp, forall_eq]
  constructor
  · rintro ⟨⟨a, b, ⟨c, d⟩, e⟩, f, g⟩
    exact ⟨⟨a, b, c, d, e, g⟩, f⟩
  · rintro ⟨⟨a, b, c, d, e, g⟩, f⟩
    exact ⟨⟨a, b, ⟨c, d⟩, e⟩, f, g⟩

/-- The order in which the encoder of `Verif/Pickler.lean` tries the forms of an instance is this one, with the facts about the class taken from the table. -/
theorem rest_eq (w : World) (cfg : PCfg) (fl : Val → P Json) (a : Addr) (i : Inst) (d : List (Str × Json)) (ho : Honest o) (hs : o.type_ ∉ special)
    (hm : isinst t o moduleType = false) (hi : i.info = infoOf t o) :
    match shape t o with
    | .entries => Pickler.flattenRest w cfg fl a i d = (do let d ← Pickler.flattenDictSub w cfg fl a i d; pure (.obj d))
    | .elements => Pickler.flattenRest w cfg fl a i d = Pickler.flattenSequence w cfg fl i d
    | .iterator => Pickler.flattenRest w cfg fl a i d = (do
        let js ← PyM.mapM fl (Pickler.iterated cfg i)
        PyM.ofExcept (outcome (Pickler.iterErr cfg i) ())
        pure (.obj (dset Tags.ITERATOR (.arr js) d)))
    | .attributes => Pickler.flattenRest w cfg fl a i d = (do let d ← Pickler.flattenEntries w cfg fl (Pickler.dictItems w i) i.exclude d; pure (.obj d))
    | .slots => Pickler.flattenRest w cfg fl a i d = Pickler.flattenSlots w fl i d
    | .nothing => d ≠ [] → Pickler.flattenRest w cfg fl a i d = pure (.obj d)
    | .module => False := by
  have hty : ∀ c ∈ special, o.type_ ≠ c := fun c hc e => hs (e ▸ hc)
  have h1 : isDictSub t o = issub t o.cls dict := by
    unfold isDictSub
    rw [bne_iff_ne.2 (hty dict (by decide)), Bool.and_true]
  have h2 : isSeqSub t o = (issub t o.cls list || issub t o.cls Classes.set || issub t o.cls tuple) := by
    unfold isSeqSub
    have : [list, Classes.set, tuple].contains o.type_ = false := by
      rw [Bool.eq_false_iff, ne_eq, List.contains_iff_mem]
      intro h
      simp only [List.mem_cons, List.not_mem_nil, or_false] at h
      rcases h with e | e | e <;> exact hty _ (by decide) e
    rw [this, Bool.not_false, Bool.and_true]
  rw [dead, hm, h1, h2]
  have hb : i.info.base = baseOf t o := by rw [hi]; rfl
  have hit : i.info.isIterator = isIterator t o := by rw [hi]; rfl
  have hhd : i.info.hasDict = o.hasDict := by rw [hi]; rfl
  have hsl : i.info.hasSlots = o.hasSlots := by rw [hi]; rfl
  unfold Pickler.flattenRest
  rw [hb, hit, hhd, hsl]
  unfold baseOf
  cases issub t o.cls dict
  · cases issub t o.cls list
    · cases issub t o.cls Classes.set
      · cases issub t o.cls tuple
        · cases isIterator t o
          · cases o.hasDict
            · cases o.hasSlots
              · intro hd
                cases d with
                | nil => exact absurd rfl hd
                | cons x d => rfl
              · rfl
            · rfl
          · rfl
        · rfl
      · rfl
    · rfl
  · rfl

/-! ### witnesses: objects that claim another class -/

/-- class 30 has no bases, class 31 derives from `list`, class 32 is a metaclass -/
def T : Table := fun c => match c with
  | 7 => { mro := [bool, int, object] }
  | 13 => { mro := [defaultdict, dict, object] }
  | 14 => { mro := [structTime, tuple, object] }
  | 31 => { mro := [31, list, object] }
  | 32 => { mro := [32, typeC, object] }
  | 0 => { mro := [object] }
  | c => { mro := [c, object] }

theorem sound : Sound T := by
  have h : ∀ c d : CId, d ∉ [object, list, dict, tuple, int, typeC] → issub T c d = true → c = d := by
    intro c d hd h
    simp only [List.mem_cons, List.not_mem_nil, or_false, not_or] at hd
    obtain ⟨h1, h2, h3, h4, h5, h6⟩ := hd
    unfold issub at h
    rw [List.contains_iff_mem] at h
    unfold T at h
    split at h <;> simp only [List.mem_cons, List.not_mem_nil, or_false] at h
    · rcases h with h | h | h
      · exact h.symm
      · exact absurd h h5
      · exact absurd h h1
    · rcases h with h | h | h
      · exact h.symm
      · exact absurd h h3
      · exact absurd h h1
    · rcases h with h | h | h
      · exact h.symm
      · exact absurd h h4
      · exact absurd h h1
    · rcases h with h | h | h
      · exact h.symm
      · exact absurd h h2
      · exact absurd h h1
    · rcases h with h | h | h
      · exact h.symm
      · exact absurd h h6
      · exact absurd h h1
    · exact absurd h h1
    · rcases h with h | h
      · exact h.symm
      · exact absurd h h1
  refine ⟨fun c => ?_, fun c => h c _ (by decide), fun c => h c _ (by decide), by decide +kernel⟩
  unfold issub
  rw [List.contains_iff_mem]
  unfold T
  split <;> exact List.mem_cons_self ..

/-- A proxy that claims to be a function is written by its name. -/
theorem claims_function : route T false { type_ := 30, cls := Classes.function, name := some p!"f" } = .function := by decide +kernel

/-- An object that claims to be a list but is none is written as an instance with elements. -/
theorem claims_list : route T false { type_ := 30, cls := Classes.list } = .instance ∧ shape T { type_ := 30, cls := Classes.list } = .elements := by decide +kernel

/-- A nameless proxy that claims to be a function is refused, although it is left out nowhere. -/
theorem claims_refused : route T false { type_ := 30, cls := Classes.function } = .refused ∧ Dispatch.isPicklable T (.str p!"x") { type_ := 30, cls := Classes.function } = true := by
  decide +kernel

/-! ### examples -/

/-- an iterator with the two methods only, an open file, an iterator whose `__next__` is blocked -/
def IT : Table := fun c => match c with
  | 40 => { mro := [40, object], vars := [(p!"__iter__", .func 1), (p!"__next__", .func 2)] }
  | 41 => { mro := [41, ioBase, object], vars := [(p!"__iter__", .func 1), (p!"__next__", .func 2)] }
  | 42 => { mro := [42, 40, object], vars := [(p!"__next__", .none)] }
  | c => { mro := [c, object] }

example : shape IT { type_ := 40 } = .iterator ∧ shape IT { type_ := 41 } = .attributes ∧ shape IT { type_ := 42 } = .attributes := by decide +kernel

/-- an instance of a subclass of `list` -/
example : route T false { type_ := 31 } = .instance ∧ shape T { type_ := 31 } = .elements := by decide +kernel

example : Honest { type_ := 31 } := rfl

/-- a class with a metaclass, a lambda, a function, a bound method, `True`, `defaultdict` -/
example : route T false { type_ := 32 } = .type ∧ route T false { type_ := Classes.function, name := some p!"<lambda>" } = .refused ∧
    route T false { type_ := Classes.function, name := some p!"f" } = .function ∧ route T false { type_ := method, name := some p!"f" } = .instance ∧
    route T false { type_ := bool } = .primitive ∧ route T false { type_ := defaultdict } = .instance ∧ shape T { type_ := defaultdict } = .entries := by decide +kernel

example : Dispatch.isPicklable T (.str p!"x") { type_ := method, name := some p!"f" } = false ∧
    Dispatch.isPicklable T (.str p!"x") { type_ := Classes.function, name := some p!"f" } = true := by decide +kernel

example : ¬ Number T false { type_ := 31 } ∧ Number T true { type_ := decimal } := ⟨(fun h => by cases h.1), rfl, by decide +kernel⟩

example : route T true { type_ := decimal } = .primitive ∧ route T false { type_ := decimal } = .instance := by decide +kernel

example : { type_ := 31 : PyObj }.type_ ∉ special ∧ isinst T { type_ := 31 } moduleType = false := by decide +kernel

end JP.C81
