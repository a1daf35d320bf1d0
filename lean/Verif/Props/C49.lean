import Verif.GraphSpec
import Verif.Sample
import Verif.Proofs.PCongr
/-!
# C49 — precedence of the encoding protocols

A registered handler comes first, then the reduce value, then constructor arguments together with the state, then the contents of the object.
Where a protocol applies, nothing that only later ones would read has any influence on the document.
-/
namespace JP.C49
open JP PyM Pickler

/-- the object in its role as a value of another one: its class, whether it is an enum member, whether it is true -/
def SameFromOutside (i i' : Inst) : Prop :=
  i'.cls = i.cls ∧ i'.info.isEnum = i.info.isEnum ∧ i'.info.base = i.info.base ∧ (i'.items = [] ↔ i.items = []) ∧ (i'.elems = [] ↔ i.elems = [])

/-- `__getstate__` returned something that counts as a state: true, and if it is a dict of which keys are excluded, with a key left -/
def HasState (h : Heap) (i : Inst) : Prop :=
  i.info.ownGetstate = true ∧ ∃ st, i.state = .ok st ∧
    ((∃ d kvs, st = .ref d ∧ h[d]? = some (.dict kvs) ∧ i.exclude ≠ [] ∧
        ∃ kv ∈ kvs, ∀ s, kv.1 = .str s → s ∉ i.exclude) ∨
     ((i.exclude = [] ∨ ∀ d kvs, st = .ref d → h[d]? ≠ some (.dict kvs)) ∧ truthy h st = true))

/-- the reduce tuple `xs` of the object is used: it is not empty, and the class can take back the state in it (it has `__setstate__`, or no
`__getstate__` of its own, or is a dict, or there is no state) -/
def ReduceUsed (h : Heap) (i : Inst) (xs : List Val) : Prop :=
  i.info.reduces = true ∧ i.reduce = .tup xs ∧ xs ≠ [] ∧
    (truthy h (xs.getD 2 .none) = false ∨ i.info.ownGetstate = false ∨ i.info.hasSetstate = true ∨ i.info.base = .dict)

/-- The two instances differ only in what is not read because a protocol of higher precedence applies. -/
inductive SameUpTo (w : World) (cfg : PCfg) (i i' : Inst) : Prop
  /-- a handler is registered for the class: all that matters is what it does -/
  | handler : SameFromOutside i i' → w.handler i.cls ≠ none → i'.hfields = i.hfields → i'.errs.handler = i.errs.handler → SameUpTo w cfg i i'
  /-- there is no handler and there is a reduce tuple: nothing else matters -/
  | reduce (xs : List Val) : SameFromOutside i i' → w.handler i.cls = none → cfg.unpicklable = true →
      ReduceUsed w.heap i xs → ReduceUsed w.heap i' xs → SameUpTo w cfg i i'
  /-- `__getnewargs_ex__` is there: `__getnewargs__` is not called -/
  | newargs (v : Val) (e : Option Exc) : w.handler i.cls = none → i.info.hasNewargsEx = true →
      i' = { i with newargs := v, errs := { i.errs with newargs := e } } → SameUpTo w cfg i i'
  /-- there is a state: the attributes and contents do not matter -/
  | state (attrs dirAttrs : List (Str × Val)) (cell : Option Addr) (items : List (Val × Val)) (elems : List Val) (factory : Option Val) (x : Val) (eq : Bool) :
      w.handler i.cls = none → HasState w.heap i → (items = [] ↔ i.items = []) → (elems = [] ↔ i.elems = []) →
      i' = { i with attrs := attrs, dirAttrs := dirAttrs, dictCell := cell, items := items, elems := elems, factory := factory, exemplar := x, eqOwnDict := eq } →
      SameUpTo w cfg i i'

inductive SameCell (w : World) (cfg : PCfg) : Obj → Obj → Prop
  | same (o : Obj) : SameCell w cfg o o
  | inst (i i' : Inst) : SameUpTo w cfg i i' → SameCell w cfg (.inst i) (.inst i')

theorem cells {w : World} {cfg : PCfg} : ∀ {h h' : Heap}, All2 (SameCell w cfg) h h' → ∀ a : Nat,
    (h[a]? = h'[a]?) ∨ ∃ i i', h[a]? = some (.inst i) ∧ h'[a]? = some (.inst i') ∧ SameUpTo w cfg i i'
  | [], [], _, _ => .inl rfl
  | [], _ :: _, h, _ => h.elim
  | _ :: _, [], h, _ => h.elim
  | o :: _, o' :: _, h, 0 => by
    cases h.1 with
    | same => exact .inl rfl
    | inst i i' hi => exact .inr ⟨i, i', rfl, rfl, hi⟩
  | _ :: _, _ :: _, h, a + 1 => cells h.2 a

theorem fromOutside {w : World} {cfg : PCfg} {i i' : Inst} (h : SameUpTo w cfg i i') : SameFromOutside i i' := by
  cases h with
  | handler h => exact h
  | reduce _ h => exact h
  | newargs v e _ _ h => rw [h]; exact ⟨rfl, rfl, rfl, Iff.rfl, Iff.rfl⟩
  | state _ _ _ _ _ _ _ _ _ _ h1 h2 h => rw [h]; exact ⟨rfl, rfl, rfl, h1, h2⟩

theorem outside {w : World} {cfg : PCfg} {h' : Heap} (hh : All2 (SameCell w cfg) w.heap h') : Outside w.heap h' where
  cell a := by
    rcases cells hh a with h | ⟨i, i', h1, h2, h⟩
    · exact .inl h
    · exact .inr ⟨i, i', h1, h2, (fromOutside h).2.1⟩
  truth v := by
    cases v <;> simp only [truthy]
    case ref a =>
      rcases cells hh a with h | ⟨i, i', h1, h2, h⟩
      · rw [h]
      · obtain ⟨_, _, hb, hi, he⟩ := fromOutside h
        have h3 : i'.items.isEmpty = i.items.isEmpty := by
          cases hx : i.items <;> cases hy : i'.items <;> simp_all
        have h4 : i'.elems.isEmpty = i.elems.isEmpty := by
          cases hx : i.elems <;> cases hy : i'.elems <;> simp_all
        rw [h1, h2]
        simp only [hb, h3, h4]

theorem reduce_used {w : World} {cfg : PCfg} {fl : Val → P Json} {i : Inst} {xs : List Val} (hu : cfg.unpicklable = true)
    (h : ReduceUsed w.heap i xs) (a : Addr) : flattenReduce w cfg fl a i = (do
      let js ← PyM.mapM fl (newobjMark (padReduce xs))
      pure (.obj [(Tags.REDUCE, .arr (trimReduce js))])) := by
  obtain ⟨h1, h2, h3, h4⟩ := h
  have hs : reduceSane w i xs = true := by
    unfold reduceSane
    rcases h4 with h | h | h | h <;> simp only [h] <;> simp
  have he : xs.isEmpty = false := by
    cases xs with
    | nil => exact absurd rfl h3
    | cons _ _ => rfl
  unfold flattenReduce
  simp only [hu, h1, h2, hs, he, Bool.and_self, if_true, Bool.false_eq_true, if_false]

/-- the state is what is written -/
theorem has_state {w : World} {cfg : PCfg} {fl : Val → P Json} {i : Inst} (h : HasState w.heap i) (a : Addr) (data : List (Str × Json)) :
    flattenGetstate w cfg fl a i data = (match i.state with
      | .error e => if e == .typeError then pure .null else PyM.throw e
      | .ok st => match Outside.excludable w.heap i.exclude st with
        | some kvs => do
          let j ← flattenFilteredState w cfg fl a kvs i.exclude
          pure (putState cfg j data)
        | none => do
          let j ← fl st
          pure (putState cfg j data)) := by
  rw [Outside.getstate_eq]
  obtain ⟨h1, st, h2, h3⟩ := h
  simp only [h1, h2, if_true]
  rcases h3 with ⟨d, kvs, rfl, h4, h5, kv, h6, h7⟩ | ⟨h4, h5⟩
  · have hex : i.exclude.isEmpty = false := by cases hx : i.exclude with
      | nil => exact absurd hx h5
      | cons _ _ => rfl
    have hk : (itemsExcl i.exclude kvs).isEmpty = false := by
      have : kv ∈ itemsExcl i.exclude kvs := by
        refine List.mem_filter.2 ⟨h6, ?_⟩
        cases hkv : kv.1 <;> try rfl
        case str s => simpa using h7 s hkv
      cases hx : itemsExcl i.exclude kvs with
      | nil => rw [hx] at this; cases this
      | cons _ _ => rfl
    simp only [Outside.excludable, h4, hex, hk, Bool.false_eq_true, if_false]
  · have hn : Outside.excludable w.heap i.exclude st = none := by
      cases st <;> try rfl
      case ref d =>
        simp only [Outside.excludable]
        rcases h4 with h | h
        · rw [h]
          cases w.heap[d]? with
          | none => rfl
          | some o => cases o <;> rfl
        · cases hc : w.heap[d]? with
          | none => rfl
          | some o =>
            cases o <;> try rfl
            case dict kvs => exact absurd hc (h d kvs rfl)
    simp only [hn, h5, if_true]

/-- If two object graphs differ only in what protocols of lower precedence would read, then `encode` does the same for both. -/
theorem no_influence (w : World) (h' : Heap) (cfg : PCfg) (hh : All2 (SameCell w cfg) w.heap h') (n : Nat) (v : Val) (reset : Bool) :
    Api.encode { w with heap := h' } cfg n v reset = Api.encode w cfg n v reset := by
  have ho := outside hh
  refine ho.encode (fun a i i' h1 h2 fl => ?_) n v reset
  rw [ho.inst]
  rcases cells hh a with h | ⟨j, j', h3, h4, h⟩
  · have : i' = i := by
      rw [h1, h2] at h
      cases h
      rfl
    rw [this]
  · rw [h1] at h3
    rw [h2] at h4
    cases h3
    cases h4
    have hcls := (fromOutside h).1
    have htag : objTag cfg i' = objTag cfg i := by unfold objTag; rw [hcls]
    cases h with
    | handler _ h5 h6 h7 =>
      unfold flattenInst
      rw [hcls, h6, h7, htag]
      cases hc : w.handler i.cls with
      | none => exact absurd hc h5
      | some k =>
        have hd : flattenDate w cfg fl a i' = flattenDate w cfg fl a i := by unfold flattenDate; rw [h6, h7, htag]
        cases k <;> first | rfl | exact hd
    | reduce xs _ h5 h6 h7 h8 =>
      unfold flattenInst
      rw [hcls]
      simp only [h5]
      rw [reduce_used h6 h7, reduce_used h6 h8]
    | newargs v e h5 h6 h7 =>
      have hn : ∀ d, flattenNewargs fl i' d = flattenNewargs fl i d := by
        intro d
        unfold flattenNewargs
        rw [h7]
        simp only [h6, if_true]
      have hb : flattenBody w cfg fl a i' = flattenBody w cfg fl a i := by
        unfold flattenBody
        simp only [hn, htag]
        rw [h7]
        rfl
      unfold flattenInst flattenReduce reduceSane
      rw [hcls]
      simp only [h5, hb]
      rw [h7]
    | state attrs dirAttrs cell items elems factory x eq h5 h6 _ _ h7 =>
      have h6' : HasState w.heap i' := by rw [h7]; exact h6
      have hb : flattenBody w cfg fl a i' = flattenBody w cfg fl a i := by
        unfold flattenBody
        simp only [has_state h6, has_state h6', htag]
        rw [h7]
        rfl
      unfold flattenInst flattenReduce reduceSane
      rw [hcls]
      simp only [h5, hb]
      rw [h7]

/-! ### an example for each case -/

def info : ClassInfo := { ownGetstate := true, hasSetstate := true, reduces := true, hasNewargs := true, hasNewargsEx := true }

/-- four objects that have everything: the first has a handler, the second a reduce tuple, the third and the fourth have no reduce value -/
def heap (x : Val) (attr : Int) (st : Val) (na : Val) : Heap :=
  [.list [.ref 1, .ref 2, .ref 3, .ref 4],
   .inst { cls := p!"m.H", info := info, hfields := [(p!"h", .int 1)], reduce := .tup [x, .tuple 0 []], state := .ok st, attrs := [(p!"a", .int attr)] },
   .inst { cls := p!"m.R", info := info, reduce := .tup [.func p!"m.f", .tuple 0 []], state := .ok st, attrs := [(p!"a", .int attr)] },
   .inst { cls := p!"m.N", info := { info with reduces := false }, newargsEx := (.tuple 0 [], .ref 5), newargs := na, state := .ok (.int 5) },
   .inst { cls := p!"m.S", info := { info with reduces := false, hasNewargsEx := false, hasNewargs := false }, state := .ok (.int 5), attrs := [(p!"a", .int attr)] },
   .dict []]

def world (h : Heap) : World := { Sample.world h with handler := fun c => if c == p!"m.H" then some .record else none }

def w1 : World := world (heap (.func p!"m.g") 1 (.int 5) (.tuple 0 []))

example : All2 (SameCell w1 {}) w1.heap (heap (.func p!"m.k") 2 (.str p!"s") (.tuple 0 [.int 1])) := by
  refine ⟨.same _, .inst _ _ (.handler ⟨rfl, rfl, rfl, Iff.rfl, Iff.rfl⟩ (by decide) rfl rfl), ?_, ?_, ?_, .same _, trivial⟩
  · exact .inst _ _ (.reduce [.func p!"m.f", .tuple 0 []] ⟨rfl, rfl, rfl, Iff.rfl, Iff.rfl⟩ rfl rfl ⟨rfl, rfl, by simp, .inl rfl⟩ ⟨rfl, rfl, by simp, .inl rfl⟩)
  · exact .inst _ _ (.newargs (.tuple 0 [.int 1]) none rfl rfl rfl)
  · exact .inst _ _ (.state [(p!"a", .int 2)] [] none [] [] none .none false rfl ⟨rfl, .int 5, rfl, .inr ⟨.inl rfl, rfl⟩⟩ Iff.rfl Iff.rfl rfl)

example : Sample.res (flattenTop w1 {} 5 (.ref 0) true {}) = some (.ok (.arr [.obj [(p!"py/object", .str p!"m.H"), (p!"h", .int 1)],
    .obj [(p!"py/reduce", .arr [.obj [(p!"py/function", .str p!"m.f")], .obj [(p!"py/tuple", .arr [])]])],
    .obj [(p!"py/object", .str p!"m.N"), (p!"py/newargsex", .arr [.obj [(p!"py/tuple", .arr [])], .obj []]), (p!"py/state", .int 5)],
    .obj [(p!"py/object", .str p!"m.S"), (p!"py/state", .int 5)]])) := by
  decide +kernel

end JP.C49
