import Verif.Classes
/-!
# C56 — whose `__reduce__` is used: `util.has_reduce`
-/
namespace JP.C56
open JP Classes

/-- the MRO of the class ends with `object`, as always in Python -/
def MroOk (t : Table) (c : CId) : Prop := (t object).mro = [object] ∧ ∃ l, (t c).mro = l ++ [object] ∧ object ∉ l

/-- a class in the MRO other than `object` defines the name -/
def Inherits (t : Table) (c : CId) (name : Str) : Prop := ∃ b ∈ (t c).mro, b ≠ object ∧ ∃ m, (name, m) ∈ (t b).vars

/-- the first class in the MRO that has `__slots__` has this one -/
def HasSlots (t : Table) (c : CId) (s : Slots) : Prop :=
  ∃ pre b post, (t c).mro = pre ++ b :: post ∧ (∀ x ∈ pre, (t x).slots = none) ∧ (t b).slots = some s

theorem findSome_iff {α β : Type} {f : α → Option β} {s : β} : ∀ {l : List α},
    l.findSome? f = some s ↔ ∃ pre b post, l = pre ++ b :: post ∧ (∀ x ∈ pre, f x = none) ∧ f b = some s
  | [] => by simp
  | x :: l => by
    rw [List.findSome?_cons]
    cases h : f x with
    | some y =>
      constructor
      · intro e
        exact ⟨[], x, l, rfl, nofun, h.trans e⟩
      · rintro ⟨pre, b, post, e, h1, h2⟩
        cases pre with
        | nil => cases e; exact h.symm.trans h2
        | cons z pre =>
          cases e
          rw [h1 _ (.head _)] at h
          cases h
    | none =>
      refine (findSome_iff (l := l)).trans ⟨?_, ?_⟩
      · rintro ⟨pre, b, post, e, h1, h2⟩
        refine ⟨x :: pre, b, post, by rw [e]; rfl, ?_, h2⟩
        intro z hz
        rcases List.mem_cons.1 hz with rfl | hz
        · exact h
        · exact h1 z hz
      · rintro ⟨pre, b, post, e, h1, h2⟩
        cases pre with
        | nil => cases e; rw [h] at h2; cases h2
        | cons z pre =>
          cases e
          exact ⟨pre, b, post, rfl, fun z hz => h1 z (.tail _ hz), h2⟩

theorem slotsOf_iff {t : Table} {c : CId} {s : Slots} : slotsOf t c = some s ↔ HasSlots t c s := findSome_iff

/-- the builtin types that have a notation of their own, and functions -/
def Special (c : CId) : Prop := c = list ∨ c = dict ∨ c = set ∨ c = tuple ∨ c = object ∨ c = bytes ∨ c = str ∨ c = bool ∨ c = int ∨
  c = float ∨ c = noneType ∨ c = function ∨ c = builtinFunction

theorem special_iff {c : CId} : c ∈ nonReducible ↔ Special c := by
  simp [nonReducible, primitives, Special]

/-- the object itself has the name, in its `__dict__` or in the `__slots__` of its class -/
def Own (t : Table) (o : Instance) (name : Str) : Prop := (∃ g, (name, g) ∈ o.attrs) ∨ ∃ ns, HasSlots t o.cls (.names ns) ∧ name ∈ ns

/-- what the classes other than `object` define under the name is true, and not what `object` defines -/
def Ordinary (t : Table) (c : CId) (name : Str) : Prop := ∀ b ∈ (t c).mro, b ≠ object → ∀ m, (name, m) ∈ (t b).vars →
  m ≠ .none ∧ (∀ x, m ≠ .data x false) ∧ (name, m) ∉ (t object).vars

/-- an object for which reduce values are considered: not of a builtin type with a notation of its own or of a subclass of one (those defined in the module
`collections` apart), and not something that looks like a list -/
structure Considered (t : Table) (o : Instance) : Prop where
  type : (t o.cls).module_ = p!"collections" ∧ defaultdict ∉ (t o.cls).mro ∨
    ¬ Special o.cls ∧ (∀ b ∈ [list, dict, set, tuple, moduleType], b ∉ (t o.cls).mro) ∧
    ¬ ((objGet t o p!"__getitem__").isSome = true ∧ (objGet t o p!"append").isSome = true) ∧ ¬ HasSlots t o.cls .iter

theorem dget_mem {α : Type} {k : Str} : ∀ {d : List (Str × α)} {v : α}, dget k d = some v → (k, v) ∈ d
  | (k', v') :: r, v, h => by
    unfold dget at h
    split at h
    · next e => cases h; subst e; simp
    · exact List.mem_cons_of_mem _ (dget_mem h)

theorem dget_of_mem {α : Type} {k : Str} : ∀ {d : List (Str × α)} {v : α}, (k, v) ∈ d → ∃ v', dget k d = some v'
  | (k', v') :: r, v, h => by
    unfold dget
    split
    · exact ⟨_, rfl⟩
    · next e =>
      rcases List.mem_cons.1 h with h | h
      · injection h with h1 _
        exact absurd h1.symm e
      · exact dget_of_mem h

theorem considered_iff (t : Table) (o : Instance) : Considered t o ↔ isReducible t o = true := by
  constructor
  · rintro ⟨h | ⟨h1, h2, h3, h4⟩⟩
    · unfold isReducible issub
      simp [h.1, h.2]
    · unfold isReducible
      split
      · rfl
      · have e1 : ∀ b ∈ [list, dict, set, tuple, moduleType], issub t o.cls b = false := by
          intro b hb
          unfold issub
          simpa using h2 b hb
        have e2 : isSlotsIter t o.cls = false := by
          unfold isSlotsIter
          split
          · next h => exact absurd (slotsOf_iff.1 h) h4
          · rfl
        have e3 : isListLike t o = false := by
          unfold isListLike
          revert h3
          cases (objGet t o p!"__getitem__").isSome <;> cases (objGet t o p!"append").isSome <;> simp
        have e4 : nonReducible.contains o.cls = false := by simpa using (fun h => h1 (special_iff.1 h) : o.cls ∉ nonReducible)
        simp only [e1 list (by simp), e1 dict (by simp), e1 set (by simp), e1 tuple (by simp), e1 moduleType (by simp), e2, e3, e4]
        rfl
  · intro h
    unfold isReducible at h
    split at h
    · next hc =>
      unfold issub at hc
      simp only [Bool.and_eq_true, decide_eq_true_eq, Bool.not_eq_true'] at hc
      exact ⟨.inl ⟨hc.1, by simpa using hc.2⟩⟩
    · simp only [Bool.not_eq_true', Bool.or_eq_false_iff] at h
      obtain ⟨⟨⟨⟨⟨h1, h2⟩, h3⟩, ⟨h4, h5⟩, h6⟩, h7⟩, h8⟩ := h
      have h1 : o.cls ∉ nonReducible := by simpa using h1
      refine ⟨.inr ⟨fun h => h1 (special_iff.2 h), ?_, ?_, ?_⟩⟩
      · intro b hb
        unfold issub at h2 h3 h4 h5 h6
        simp only [List.mem_cons, List.not_mem_nil, or_false] at hb
        rcases hb with rfl | rfl | rfl | rfl | rfl
        · simpa using h4
        · rcases Bool.and_eq_false_iff.1 h2 with h | h
          · simpa using h
          · have : o.cls = dict := by simpa using h
            rw [this] at h1
            exact absurd (by decide) h1
        · simpa using h5
        · simpa using h6
        · simpa using h3
      · unfold isListLike at h7
        rintro ⟨a, b⟩
        rw [a, b] at h7
        cases h7
      · unfold isSlotsIter at h8
        intro e
        rw [slotsOf_iff.2 e] at h8
        cases h8

/-- the loop over the MRO only finds what is there -/
theorem mroLoop_spec (t : Table) : ∀ (bs : List CId) (r rx : Bool), ((mroLoop t r rx bs).1 = true → r = true ∨ ∃ b ∈ bs, b ≠ object ∧ dhas REDUCE (t b).vars = true) ∧
    ((mroLoop t r rx bs).2 = true → rx = true ∨ ∃ b ∈ bs, b ≠ object ∧ dhas REDUCE_EX (t b).vars = true) ∧
    (r = true → (mroLoop t r rx bs).1 = true) ∧ (rx = true → (mroLoop t r rx bs).2 = true)
  | [], r, rx => ⟨.inl, .inl, id, id⟩
  | b :: bs, r, rx => by
    unfold mroLoop
    simp only
    have hb : isReducibleCls t b = true → b ≠ object := by
      rintro h rfl
      unfold isReducibleCls at h
      simp at h
    generalize hr : (if isReducibleCls t b = true then r || dhas REDUCE (t b).vars else r) = r'
    generalize hx : (if isReducibleCls t b = true then rx || dhas REDUCE_EX (t b).vars else rx) = rx'
    have k1 : r' = true → r = true ∨ (b ≠ object ∧ dhas REDUCE (t b).vars = true) := by
      intro e
      subst e
      split at hr
      · next hc =>
        rcases Bool.or_eq_true_iff.1 hr with h | h
        · exact .inl h
        · exact .inr ⟨hb hc, h⟩
      · exact .inl hr
    have k2 : rx' = true → rx = true ∨ (b ≠ object ∧ dhas REDUCE_EX (t b).vars = true) := by
      intro e
      subst e
      split at hx
      · next hc =>
        rcases Bool.or_eq_true_iff.1 hx with h | h
        · exact .inl h
        · exact .inr ⟨hb hc, h⟩
      · exact .inl hx
    have k3 : r = true → r' = true := by
      rintro rfl
      rw [← hr]
      split <;> rfl
    have k4 : rx = true → rx' = true := by
      rintro rfl
      rw [← hx]
      split <;> rfl
    have lift : ∀ {x : Bool} {n : Str}, (x = true ∨ ∃ b ∈ bs, b ≠ object ∧ dhas n (t b).vars = true) → ∀ {y : Bool}, (x = true → y = true ∨ (b ≠ object ∧ dhas n (t b).vars = true)) →
        y = true ∨ ∃ c ∈ b :: bs, c ≠ object ∧ dhas n (t c).vars = true := by
      intro x n h y hy
      rcases h with h | ⟨c, h1, h2⟩
      · rcases hy h with h | h
        · exact .inl h
        · exact .inr ⟨b, by simp, h⟩
      · exact .inr ⟨c, by simp [h1], h2⟩
    split
    · next hc =>
      rw [Bool.and_eq_true] at hc
      exact ⟨fun _ => lift (.inl hc.1) k1, fun _ => lift (.inl hc.2) k2, fun _ => hc.1, fun _ => hc.2⟩
    · obtain ⟨i1, i2, i3, i4⟩ := mroLoop_spec t bs r' rx'
      exact ⟨fun h => lift (i1 h) k1, fun h => lift (i2 h) k2, fun h => i3 (k3 h), fun h => i4 (k4 h)⟩

theorem findSome_append {α β : Type} (f : α → Option β) : ∀ (l : List α) (a : α), (l ++ [a]).findSome? f = (l.findSome? f).orElse (fun _ => f a)
  | [], a => by simp only [List.nil_append, List.findSome?]; cases f a <;> rfl
  | x :: l, a => by
    simp only [List.cons_append, List.findSome?]
    cases f x with
    | some y => rfl
    | none => exact findSome_append f l a

/-- `getattr(cls, name)` is not the one of `object` exactly if a class before `object` defines it -/
theorem fallback_iff {t : Table} {c : CId} {name : Str} (hm : MroOk t c) (ho : Ordinary t c name) {found : Bool} :
    fallback t c name found = true ↔ Inherits t c name ∨ found = true := by
  obtain ⟨hob, l, hl, hnot⟩ := hm
  have hobj : lookup t object name = dget name (t object).vars := by
    unfold lookup
    rw [hob]
    simp only [List.findSome?]
    cases dget name (t object).vars <;> rfl
  have hlook : lookup t c name = (l.findSome? (fun b => dget name (t b).vars)).orElse (fun _ => dget name (t object).vars) := by
    unfold lookup
    rw [hl, findSome_append]
  unfold fallback
  cases found with
  | true => simp
  | false =>
    simp only [Bool.false_eq_true, if_false, or_false]
    rw [hlook, hobj]
    cases hs : l.findSome? (fun b => dget name (t b).vars) with
    | some m =>
      obtain ⟨b, hb, hm⟩ := List.exists_of_findSome?_eq_some hs
      have hbo : b ≠ object := fun e => hnot (e ▸ hb)
      have hmem := dget_mem hm
      have hin : Inherits t c name := ⟨b, by rw [hl]; simp [hb], hbo, m, hmem⟩
      obtain ⟨o1, o2, o3⟩ := ho b (by rw [hl]; simp [hb]) hbo m hmem
      have e1 : dget name (t object).vars ≠ some m := fun e => o3 (dget_mem e)
      have e2 : m.truth = true := by
        cases m with
        | none => exact absurd rfl o1
        | data x tr => cases tr with
          | true => rfl
          | false => exact absurd rfl (o2 x)
        | _ => rfl
      simp only [Option.orElse_some, if_neg e1, e2, hin]
    | none =>
      have hno : ¬ Inherits t c name := by
        rintro ⟨b, hb, hbo, m, hmem⟩
        rw [hl] at hb
        rcases List.mem_append.1 hb with hb | hb
        · obtain ⟨m', h'⟩ := dget_of_mem hmem
          have := List.findSome?_eq_none_iff.1 hs b hb
          rw [h'] at this
          cases this
        · exact hbo (by simpa using hb)
      simp only [Option.orElse_none, hno, iff_false]
      cases dget name (t object).vars with
      | none => simp
      | some m => simp

theorem inDict_iff (o : Instance) (name : Str) : inDict o name = true ↔ ∃ g, (name, g) ∈ o.attrs := by
  unfold inDict dhas
  constructor
  · intro h
    obtain ⟨g, hg⟩ := Option.isSome_iff_exists.1 h
    exact ⟨g, dget_mem hg⟩
  · rintro ⟨g, hg⟩
    obtain ⟨g', h⟩ := dget_of_mem hg
    rw [h]
    rfl

theorem own_iff {t : Table} {o : Instance} {name : Str} (hs : ∀ s, ¬ HasSlots t o.cls (.text s)) :
    (inDict o name || inSlots t o name) = true ↔ Own t o name := by
  have : inSlots t o name = true ↔ ∃ ns, HasSlots t o.cls (.names ns) ∧ name ∈ ns := by
    simp only [← slotsOf_iff]
    unfold inSlots
    cases h : slotsOf t o.cls with
    | none => simp
    | some s => cases s with
      | names ns => simp
      | text s => exact absurd (slotsOf_iff.1 h) (hs s)
      | iter => simp
  rw [Bool.or_eq_true, inDict_iff, this]
  exact Iff.rfl

/-- For the objects considered, `__reduce__` counts as present exactly if the object itself has it or a class in its MRO other than `object` defines it, wherever the
class stands in the MRO and whatever its base classes are; and likewise `__reduce_ex__`.  (`time.struct_time` is special, see `struct_time`; `__slots__` is not a single
string, see `slots_text`; what is defined is not a false value and not the method of `object`, see `none_counts`.) -/
theorem has_reduce_iff (t : Table) (o : Instance) (hm : MroOk t o.cls) (hr : Considered t o) (hs : o.cls ≠ structTime) (hslots : ∀ s, ¬ HasSlots t o.cls (.text s))
    (h1 : Ordinary t o.cls p!"__reduce__") (h2 : Ordinary t o.cls p!"__reduce_ex__") :
    ((hasReduce t o).1 = true ↔ Own t o p!"__reduce__" ∨ Inherits t o.cls p!"__reduce__") ∧
    ((hasReduce t o).2 = true ↔ Own t o p!"__reduce_ex__" ∨ Inherits t o.cls p!"__reduce_ex__") := by
  have hr := (considered_iff t o).1 hr
  unfold hasReduce
  simp only [hr, Bool.not_true, Bool.false_eq_true, if_false, if_neg hs]
  obtain ⟨i1, i2, i3, i4⟩ := mroLoop_spec t (t o.cls).mro (inDict o REDUCE || inSlots t o REDUCE) (inDict o REDUCE_EX || inSlots t o REDUCE_EX)
  have inh : ∀ {n : Str}, (∃ b ∈ (t o.cls).mro, b ≠ object ∧ dhas n (t b).vars = true) → Inherits t o.cls n := by
    rintro n ⟨b, h1, h2, h3⟩
    unfold dhas at h3
    obtain ⟨m, hm⟩ := Option.isSome_iff_exists.1 h3
    exact ⟨b, h1, h2, m, dget_mem hm⟩
  rw [fallback_iff (name := REDUCE) hm h1, fallback_iff (name := REDUCE_EX) hm h2]
  rw [own_iff hslots] at i1 i2 i3 i4
  constructor
  · constructor
    · rintro (h | h)
      · exact .inr h
      · exact (i1 h).imp id inh
    · rintro (h | h)
      · exact .inr (i3 h)
      · exact .inl h
  · constructor
    · rintro (h | h)
      · exact .inr h
      · exact (i2 h).imp id inh
    · rintro (h | h)
      · exact .inr (i4 h)
      · exact .inl h

/-- For all other objects reduce values are not considered at all. -/
theorem not_considered (t : Table) (o : Instance) (h : ¬ Considered t o) : hasReduce t o = (false, false) := by
  rw [considered_iff] at h
  unfold hasReduce
  simp [h]

theorem struct_time (t : Table) (o : Instance) (h : Considered t o) (hs : o.cls = structTime) : hasReduce t o = (false, true) := by
  rw [considered_iff] at h
  unfold hasReduce
  simp [h, hs]

/-! ### examples -/

/-- 20 defines `__reduce__`, 21 also `__getitem__` and `append`, 22 is a subclass of 20, 23 has `__reduce__ = None`, 24 has `__slots__ = "a__reduce__b"`, 25 is a subclass
of the class 26 of `datetime`, which defines `__reduce_ex__` -/
def sample : Table := fun c =>
  if c = object then { mro := [0], vars := [(p!"__reduce__", .builtin 1), (p!"__reduce_ex__", .builtin 2), (p!"__getstate__", .builtin 3)], module_ := p!"builtins" }
  else if c = 20 then { mro := [20, 0], vars := [(p!"__reduce__", .func 5)] }
  else if c = 21 then { mro := [21, 0], vars := [(p!"__reduce__", .func 6), (p!"__getitem__", .func 7), (p!"append", .func 8)] }
  else if c = 22 then { mro := [22, 20, 0] }
  else if c = 23 then { mro := [23, 0], vars := [(p!"__reduce__", .none)] }
  else if c = 24 then { mro := [24, 0], slots := some (.text p!"a__reduce__b") }
  else if c = 25 then { mro := [25, 26, 0], module_ := p!"m" }
  else if c = 26 then { mro := [26, 0], vars := [(p!"__reduce_ex__", .func 9)], module_ := p!"datetime" }
  else { mro := [c, 0] }

/-- a class that inherits `__reduce__` -/
example : MroOk sample 22 ∧ hasReduce sample { cls := 22 } = (true, false) := ⟨⟨rfl, [22, 20], rfl, by decide⟩, by decide⟩

/-- a class that inherits from a class of `datetime`, which the loop skips -/
example : hasReduce sample { cls := 25 } = (false, true) := by decide

/-- an object with a `__reduce__` of its own -/
example : hasReduce sample { cls := 30, attrs := [(p!"__reduce__", .function 5)] } = (true, false) ∧ hasReduce sample { cls := 30 } = (false, false) := by decide

/-- The `__reduce__` of a class that looks like a list (it has `__getitem__` and `append`) is ignored. -/
theorem list_like_ignored : Inherits sample 21 p!"__reduce__" ∧ hasReduce sample { cls := 21 } = (false, false) :=
  ⟨⟨21, by decide, by decide, .func 6, by decide⟩, by decide⟩

/-- `__reduce__ = None`, which in Python says that there is no such method, counts as present. -/
theorem none_counts : hasReduce sample { cls := 23 } = (true, false) := by decide

/-- In a class of `datetime`, which the loop over the classes skips, a definition that is false as a value counts as absent. -/
theorem false_ignored : hasReduce (fun c => if c = object then { mro := [0] } else { mro := [c, 0], vars := [(p!"__reduce__", .data 1 false), (p!"__reduce_ex__", .data 2 true)], module_ := p!"datetime" }) { cls := 20 } =
    (false, true) := by decide

/-- A `__slots__` that is a single string is searched for the substring. -/
theorem slots_text : ¬ Own sample { cls := 24 } p!"__reduce__" ∧ ¬ Inherits sample 24 p!"__reduce__" ∧ hasReduce sample { cls := 24 } = (true, false) := by
  refine ⟨?_, ?_, by decide⟩
  · rintro (⟨g, h⟩ | ⟨ns, h, _⟩)
    · cases h
    · have : slotsOf sample 24 = some (.text p!"a__reduce__b") := by decide
      rw [slotsOf_iff.2 h] at this
      cases this
  · rintro ⟨b, h1, h2, m, h3⟩
    have : b = 24 ∨ b = 0 := by simpa [show (sample 24).mro = [24, 0] from rfl] using h1
    rcases this with rfl | rfl
    · cases h3
    · exact h2 rfl

end JP.C56
