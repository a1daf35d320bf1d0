import Verif.GraphSpec
import Verif.Sample
import Verif.Proofs.PCongr
/-!
# C48 — what `_jsonpickle_exclude` excludes has no influence on the document
-/
namespace JP.C48
open JP PyM Pickler

/-- the entries of a dict without those whose key is excluded -/
def Kept (ex : List Str) (kvs : List (Val × Val)) : List (Val × Val) :=
  kvs.filter (fun kv => match kv.1 with
    | .str s => !ex.contains s
    | _ => true)

/-- the name under which the slot `k` of an instance is found: private names are mangled -/
def slotName (i : Inst) (k : Str) : Str := if startsWith k p!"__" then p!"_" ++ i.info.shortName ++ k else k

/-- what `dict(pairs)` has under `k` -/
def get (k : Str) : List (Str × Val) → Option Val
  | [] => none
  | (k', v) :: r => if k' = k then some v else get k r

/-- the two results of `__getstate__` are the same, or dicts that have the same entries except for excluded ones -/
def SameState (h : Heap) (ex : List Str) (r r' : Except Exc Val) : Prop :=
  r = r' ∨ ∃ (d d' : Addr) (kvs kvs' : List (Val × Val)), r = .ok (.ref d) ∧ r' = .ok (.ref d') ∧ h[d]? = some (.dict kvs) ∧
    h[d']? = some (.dict kvs') ∧ Kept ex kvs = Kept ex kvs' ∧ ex ≠ []

/-- The two instances (not of a list, set or tuple subclass) are the same except for excluded attributes (in `__dict__` or in slots), entries
(of a dict subclass, but one of the two is not empty if the other is not) and entries of the state dict. -/
structure SameKept (h : Heap) (i i' : Inst) : Prop where
  others : i' = { i with attrs := i'.attrs, dirAttrs := i'.dirAttrs, items := i'.items, state := i'.state }
  base : i.info.base = .plain ∨ i.info.base = .dict
  attrs : Kept i.exclude (asItems i.attrs) = Kept i.exclude (asItems i'.attrs)
  slots : ∀ k ∈ i.info.slots, k ∉ i.exclude → get (slotName i k) i.attrs = get (slotName i k) i'.attrs
  dirNames : i.dirAttrs.map (·.1) = i'.dirAttrs.map (·.1)
  dir : ∀ k ∈ i.dirAttrs.map (·.1), k ∉ i.exclude → get (slotName i k) i.dirAttrs = get (slotName i k) i'.dirAttrs
  items : Kept i.exclude i.items = Kept i.exclude i'.items
  empty : i.items = [] ↔ i'.items = []
  state : SameState h i.exclude i.state i'.state

inductive SameCell (h : Heap) : Obj → Obj → Prop
  | same (o : Obj) : SameCell h o o
  | inst (i i' : Inst) : SameKept h i i' → SameCell h (.inst i) (.inst i')

theorem cells {h0 : Heap} : ∀ {h h' : Heap}, All2 (SameCell h0) h h' → ∀ a : Nat,
    (h[a]? = h'[a]?) ∨ ∃ i i', h[a]? = some (.inst i) ∧ h'[a]? = some (.inst i') ∧ SameKept h0 i i'
  | [], [], _, _ => .inl rfl
  | [], _ :: _, h, _ => h.elim
  | _ :: _, [], h, _ => h.elim
  | o :: _, o' :: _, h, 0 => by
    cases h.1 with
    | same => exact .inl rfl
    | inst i i' hi => exact .inr ⟨i, i', rfl, rfl, hi⟩
  | _ :: _, _ :: _, h, a + 1 => cells h.2 a

theorem dget_eq (k : Str) : ∀ d : List (Str × Val), dget k d = get k d
  | [] => rfl
  | (k', v) :: r => by
    have := dget_eq k r
    simp only [dget, get] at this ⊢
    by_cases h : k' = k <;> simp [h, this]

variable {w : World} {h' : Heap} {cfg : PCfg} {fl : Val → P Json} {i i' : Inst}

theorem fields (h : SameKept w.heap i i') : i'.info = i.info ∧ i'.exclude = i.exclude ∧ i'.cls = i.cls ∧ i'.dictCell = i.dictCell ∧ i'.eqOwnDict = i.eqOwnDict := by
  rw [h.others]
  exact ⟨rfl, rfl, rfl, rfl, rfl⟩

theorem entries_kept {ex : List Str} {kvs kvs' : List (Val × Val)} (h : Kept ex kvs = Kept ex kvs') (d : List (Str × Json)) :
    flattenEntries w cfg fl kvs ex d = flattenEntries w cfg fl kvs' ex d := by
  have e : itemsExcl ex kvs = itemsExcl ex kvs' := h
  unfold flattenEntries
  rw [e]

theorem dict_kept (h : SameKept w.heap i i') (d : List (Str × Json)) :
    flattenEntries w cfg fl (dictItems w i') i.exclude d = flattenEntries w cfg fl (dictItems w i) i.exclude d := by
  unfold dictItems
  rw [(fields h).2.2.2.1]
  cases i.dictCell with
  | none => exact entries_kept h.attrs.symm d
  | some _ => rfl

theorem foldM_congr {α β : Type} {f g : β → α → P β} : ∀ (ns : List α) (b : β), (∀ k ∈ ns, ∀ b, f b k = g b k) → PyM.foldM f b ns = PyM.foldM g b ns
  | [], _, _ => rfl
  | k :: ns, b, h => by
    simp only [PyM.foldM]
    rw [h k (by simp)]
    congr 1
    funext b
    exact foldM_congr ns b (fun k hk => h k (by simp [hk]))

theorem attrs_kept (h : SameKept w.heap i i') {l l' : List (Str × Val)} (ns : List Str)
    (hl : ∀ k ∈ ns, k ∉ i.exclude → get (slotName i k) l = get (slotName i k) l') (d : List (Str × Json)) :
    flattenObjAttrs w fl i' l' ns d = flattenObjAttrs w fl i l ns d := by
  obtain ⟨f1, f2, _⟩ := fields h
  unfold flattenObjAttrs
  refine foldM_congr ns _ (fun k hk b => ?_)
  rw [f2]
  by_cases hx : i.exclude.contains k = true
  · simp only [hx, if_true]
  · simp only [hx]
    have := hl k hk (by simpa using hx)
    unfold slotName at this
    simp only [f1, dget_eq, this]

theorem slots_kept (h : SameKept w.heap i i') (d : List (Str × Json)) : flattenSlots w fl i' d = flattenSlots w fl i d := by
  unfold flattenSlots
  rw [(fields h).1, attrs_kept h _ h.slots, ← h.dirNames]
  congr 1
  funext r
  rw [attrs_kept h _ h.dir]

theorem rest_kept (ho : Outside w.heap h') (h : SameKept w.heap i i') (a : Addr) (d : List (Str × Json)) :
    flattenRest { w with heap := h' } cfg fl a i' d = flattenRest w cfg fl a i d := by
  rw [ho.rest]
  obtain ⟨f1, f2, f3, f4, f5⟩ := fields h
  unfold flattenRest
  rcases h.base with hb | hb
  · simp only [f1, f2, hb, dict_kept h, slots_kept h]
    have e1 : iterated cfg i' = iterated cfg i := by unfold iterated; rw [h.others]
    have e2 : iterErr cfg i' = iterErr cfg i := by unfold iterErr; rw [h.others]
    have e3 : i'.reduce = i.reduce := by rw [h.others]
    rw [e1, e2, e3]
  · simp only [f1, hb]
    have : flattenDictSub w cfg fl a i' d = flattenDictSub w cfg fl a i d := by
      have e1 : i'.factory = i.factory := by rw [h.others]
      have e2 : i'.exemplar = i.exemplar := by rw [h.others]
      have e3 : i'.errs = i.errs := by rw [h.others]
      unfold flattenDictSub flattenOwnDict dictIdent
      simp only [f1, f2, f4, f5, e1, e2, e3, dict_kept h, entries_kept h.items.symm]
    rw [this]

theorem getstate_kept (ho : Outside w.heap h') (h : SameKept w.heap i i') (a : Addr) (d : List (Str × Json)) :
    flattenGetstate { w with heap := h' } cfg fl a i' d = flattenGetstate w cfg fl a i d := by
  obtain ⟨f1, f2, f3, f4, f5⟩ := fields h
  rw [Outside.getstate_eq, Outside.getstate_eq]
  simp only [rest_kept ho h, ho.excl, ho.truth, f1, f2]
  rcases h.state with hs | ⟨d1, d2, kvs, kvs', h1, h2, h3, h4, h5, h6⟩
  · rw [hs]
    rfl
  · have hex : i.exclude.isEmpty = false := by cases hx : i.exclude with
      | nil => exact absurd hx h6
      | cons _ _ => rfl
    have e : itemsExcl i.exclude kvs = itemsExcl i.exclude kvs' := h5
    simp only [h1, h2, Outside.excludable, h3, h4, hex, Bool.false_eq_true, if_false, flattenFilteredState, e]
    rfl

theorem inst_kept (ho : Outside w.heap h') (h : SameKept w.heap i i') (a : Addr) :
    flattenInst { w with heap := h' } cfg fl a i' = flattenInst w cfg fl a i := by
  obtain ⟨f1, f2, f3, f4, f5⟩ := fields h
  have e1 : i'.reduce = i.reduce := by rw [h.others]
  have e2 : i'.hfields = i.hfields := by rw [h.others]
  have e3 : i'.errs = i.errs := by rw [h.others]
  have e4 : objTag cfg i' = objTag cfg i := by unfold objTag; rw [f3]
  have e5 : ∀ d, flattenNewargs fl i' d = flattenNewargs fl i d := by intro d; rw [h.others]; rfl
  have e6 : ∀ d, flattenInitargs fl i' d = flattenInitargs fl i d := by intro d; rw [h.others]; rfl
  unfold flattenInst flattenReduce reduceSane flattenBody flattenDate
  simp only [getstate_kept ho h, ho.truth, f1, f3, e1, e2, e3, e4, e5, e6]

theorem truthy_kept (hh : All2 (SameCell w.heap) w.heap h') (v : Val) : truthy h' v = truthy w.heap v := by
  cases v <;> simp only [truthy]
  case ref a =>
    rcases cells hh a with h | ⟨i, i', h1, h2, h⟩
    · rw [h]
    · have e : i'.elems = i.elems := by rw [h.others]
      have : i'.items.isEmpty = i.items.isEmpty := by
        have := h.empty
        cases hi : i.items <;> cases hi' : i'.items <;> simp_all
      rw [h1, h2]
      simp only [(fields h).1, e, this]

theorem outside (hh : All2 (SameCell w.heap) w.heap h') : Outside w.heap h' where
  cell a := by
    rcases cells hh a with h | ⟨i, i', h1, h2, h⟩
    · exact .inl h
    · exact .inr ⟨i, i', h1, h2, by rw [(fields h).1]⟩
  truth := truthy_kept hh

/-- If two object graphs differ only in what is excluded, then `encode` does the same for both, under all options: what is excluded is neither
written, nor looked at, nor counted. -/
theorem no_influence (w : World) (h' : Heap) (hh : All2 (SameCell w.heap) w.heap h') (cfg : PCfg) (n : Nat) (v : Val) (reset : Bool) :
    Api.encode { w with heap := h' } cfg n v reset = Api.encode w cfg n v reset := by
  have ho := outside hh
  refine ho.encode (fun a i i' h1 h2 fl => ?_) n v reset
  rcases cells hh a with h | ⟨j, j', h3, h4, h⟩
  · have : i' = i := by
      rw [h1, h2] at h
      cases h
      rfl
    rw [this]
    exact ho.inst a i
  · rw [h1] at h3
    rw [h2] at h4
    cases h3
    cases h4
    exact inst_kept ho h a

/-! ### a state of which everything is excluded -/

/-- the second instance is the first without `__getstate__`; the state of the first is a dict of which every entry is excluded -/
structure Stateless (h : Heap) (i i' : Inst) : Prop where
  others : i' = { i with info := { i.info with ownGetstate := false }, state := i'.state }
  reduces : i.info.reduces = false
  excludes : i.exclude ≠ []
  state : ∃ (d : Addr) (kvs : List (Val × Val)), i.state = .ok (.ref d) ∧ h[d]? = some (.dict kvs) ∧ Kept i.exclude kvs = []

inductive SameOrStateless (h : Heap) : Obj → Obj → Prop
  | same (o : Obj) : SameOrStateless h o o
  | inst (i i' : Inst) : Stateless h i i' → SameOrStateless h (.inst i) (.inst i')

theorem cells' {h0 : Heap} : ∀ {h h' : Heap}, All2 (SameOrStateless h0) h h' → ∀ a : Nat,
    (h[a]? = h'[a]?) ∨ ∃ i i', h[a]? = some (.inst i) ∧ h'[a]? = some (.inst i') ∧ Stateless h0 i i'
  | [], [], _, _ => .inl rfl
  | [], _ :: _, h, _ => h.elim
  | _ :: _, [], h, _ => h.elim
  | o :: _, o' :: _, h, 0 => by
    cases h.1 with
    | same => exact .inl rfl
    | inst i i' hi => exact .inr ⟨i, i', rfl, rfl, hi⟩
  | _ :: _, _ :: _, h, a + 1 => cells' h.2 a

/-- A state dict of which nothing is left after exclusion counts as no state at all: `encode` does what it does without `__getstate__` (classes
with a reduce value apart, for which the existence of `__getstate__` matters in another place). -/
theorem empty_state_ignored (w : World) (h' : Heap) (hh : All2 (SameOrStateless w.heap) w.heap h') (cfg : PCfg) (n : Nat) (v : Val) (reset : Bool) :
    Api.encode { w with heap := h' } cfg n v reset = Api.encode w cfg n v reset := by
  have ho : Outside w.heap h' := by
    constructor
    · intro a
      rcases cells' hh a with h | ⟨i, i', h1, h2, h⟩
      · exact .inl h
      · exact .inr ⟨i, i', h1, h2, by rw [h.others]⟩
    · intro v
      cases v <;> simp only [truthy]
      case ref a =>
        rcases cells' hh a with h | ⟨i, i', h1, h2, h⟩
        · rw [h]
        · rw [h1, h2]
          simp only []
          rw [h.others]
  refine ho.encode (fun a i i' h1 h2 fl => ?_) n v reset
  rcases cells' hh a with h | ⟨j, j', h3, h4, h⟩
  · have : i' = i := by
      rw [h1, h2] at h
      cases h
      rfl
    rw [this]
    exact ho.inst a i
  · rw [h1] at h3
    rw [h2] at h4
    cases h3
    cases h4
    rw [ho.inst]
    obtain ⟨d, kvs, hs, hd, hk⟩ := h.state
    have hrest : ∀ data, flattenRest w cfg fl a i' data = flattenRest w cfg fl a i data := by
      intro data
      rw [h.others]
      rfl
    have hex : i.exclude.isEmpty = false := by cases hx : i.exclude with
      | nil => exact absurd hx h.excludes
      | cons _ _ => rfl
    have hg : ∀ data, flattenGetstate w cfg fl a i' data = flattenGetstate w cfg fl a i data := by
      intro data
      rw [Outside.getstate_eq, Outside.getstate_eq, hrest]
      have e0 : itemsExcl i.exclude kvs = [] := hk
      have e1 : i'.info.ownGetstate = false := by rw [h.others]
      simp only [e1, hs, Outside.excludable, hd, hex, e0, Bool.false_eq_true, if_false, List.isEmpty_nil, if_true]
      split <;> rfl
    have e1 : i'.cls = i.cls := by rw [h.others]
    have e2 : i'.hfields = i.hfields := by rw [h.others]
    have e3 : i'.errs = i.errs := by rw [h.others]
    have e4 : objTag cfg i' = objTag cfg i := by unfold objTag; rw [e1]
    have e5 : ∀ d, flattenNewargs fl i' d = flattenNewargs fl i d := by intro d; rw [h.others]; rfl
    have e6 : ∀ d, flattenInitargs fl i' d = flattenInitargs fl i d := by intro d; rw [h.others]; rfl
    have e7 : i'.info.reduces = false := by rw [h.others]; exact h.reduces
    unfold flattenInst flattenReduce flattenBody flattenDate
    simp only [hg, e1, e2, e3, e4, e5, e6, e7, h.reduces, Bool.and_false, Bool.false_eq_true, if_false]

/-! ### examples -/

/-- an object with the attributes `a` and `b`, and an object whose state is the dict in cell 2 or 3; `a` is excluded of both -/
def heap (x : Val) (st : Addr) : Heap :=
  [.inst { cls := p!"m.C", attrs := [(p!"a", x), (p!"b", .ref 1)], exclude := [p!"a"] },
   .inst { cls := p!"m.D", info := { ownGetstate := true, hasSetstate := true }, state := .ok (.ref st), exclude := [p!"a"] },
   .dict [(.str p!"a", .ref 0), (.str p!"c", .int 1)], .dict [(.str p!"c", .int 1)]]

example : All2 (SameCell (heap (.ref 0) 2)) (heap (.ref 0) 2) (heap (.int 7) 3) :=
  ⟨.inst _ _ ⟨rfl, .inl rfl, rfl, (fun k hk => by cases hk), rfl, (fun k hk => by cases hk), rfl, Iff.rfl, .inl rfl⟩,
   .inst _ _ ⟨rfl, .inl rfl, rfl, (fun k hk => by cases hk), rfl, (fun k hk => by cases hk), rfl, Iff.rfl, .inr ⟨2, 3, _, _, rfl, rfl, rfl, rfl, rfl, by decide⟩⟩,
   .same _, .same _, trivial⟩

example : Sample.res (flattenTop (Sample.world (heap (.ref 0) 2)) {} 5 (.ref 0) true {}) = some (.ok (.obj [(p!"py/object", .str p!"m.C"), (p!"b",
    .obj [(p!"py/object", .str p!"m.D"), (p!"py/state", .obj [(p!"c", .int 1)])])])) := by
  decide +kernel

/-- an object with a state of which everything is excluded, and the same without `__getstate__` -/
def emptied (own : Bool) : Heap :=
  [.inst { cls := p!"m.D", info := { ownGetstate := own }, attrs := [(p!"b", .int 3)], state := .ok (.ref 1), exclude := [p!"a"] },
   .dict [(.str p!"a", .ref 0)]]

example : All2 (SameOrStateless (emptied true)) (emptied true) (emptied false) ∧
    Sample.res (flattenTop (Sample.world (emptied true)) {} 5 (.ref 0) true {}) = some (.ok (.obj [(p!"py/object", .str p!"m.D"), (p!"b", .int 3)])) :=
  ⟨⟨.inst _ _ ⟨rfl, rfl, by decide, 1, _, rfl, rfl, rfl⟩, .same _, trivial⟩, by decide +kernel⟩

end JP.C48
