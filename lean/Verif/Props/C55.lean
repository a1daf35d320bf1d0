import Verif.Props.C48
import Verif.Props.C54
import Verif.Proofs.RoundTrip
import Verif.SampleCovered
/-!
# C55 — the document of an object with `_jsonpickle_exclude` is that of the object without the excluded attributes

C48 says that what is excluded has no influence.  Here the object is compared with one that lacks the excluded attributes and whose class excludes
nothing; so decoding yields the graph from which the excluded attributes were removed (`round_trip_partial`).
-/
namespace JP.C55
open JP PyM Pickler C48

/-- The second instance is the first without its excluded attributes (in `__dict__` or in slots) and entries (of a dict subclass, but one of the two is
not empty if the other is not), and it excludes nothing.  The instances are not of a list, set or tuple subclass (these ignore `_jsonpickle_exclude`), and
the state that `__getstate__` returns, if the class has one, is not a dict. -/
structure Stripped (h : Heap) (i i' : Inst) : Prop where
  others : i' = { i with attrs := i'.attrs, dirAttrs := i'.dirAttrs, items := i'.items, exclude := [] }
  base : i.info.base = .plain ∨ i.info.base = .dict
  state : i.info.ownGetstate = true → ∀ (d : Addr) (kvs : List (Val × Val)), i.state = .ok (.ref d) → h[d]? ≠ some (.dict kvs)
  dictCell : i.dictCell = none
  attrs : i.info.hasDict = true → asItems i'.attrs = Kept i.exclude (asItems i.attrs)
  slots : i.info.hasDict = false → ∀ k ∈ i.info.slots, get (slotName i k) i'.attrs = if k ∈ i.exclude then none else get (slotName i k) i.attrs
  dirNames : i'.dirAttrs.map (·.1) = (i.dirAttrs.map (·.1)).filter (fun k => k ∉ i.exclude)
  dir : ∀ k ∈ i.dirAttrs.map (·.1), k ∉ i.exclude → get (slotName i k) i'.dirAttrs = get (slotName i k) i.dirAttrs
  items : i'.items = Kept i.exclude i.items
  empty : i'.items = [] → i.items = []

inductive StrippedCell (h : Heap) : Obj → Obj → Prop
  | same (o : Obj) : StrippedCell h o o
  | inst (i i' : Inst) : Stripped h i i' → StrippedCell h (.inst i) (.inst i')

theorem cells {h0 : Heap} : ∀ {h h' : Heap}, All2 (StrippedCell h0) h h' → ∀ a : Nat,
    (h[a]? = h'[a]?) ∨ ∃ i i', h[a]? = some (.inst i) ∧ h'[a]? = some (.inst i') ∧ Stripped h0 i i'
  | [], [], _, _ => .inl rfl
  | [], _ :: _, h, _ => h.elim
  | _ :: _, [], h, _ => h.elim
  | o :: _, o' :: _, h, 0 => by
    cases h.1 with
    | same => exact .inl rfl
    | inst i i' hi => exact .inr ⟨i, i', rfl, rfl, hi⟩
  | _ :: _, _ :: _, h, a + 1 => cells h.2 a

variable {w : World} {h' : Heap} {cfg : PCfg} {fl : Val → P Json} {i i' : Inst}

theorem fields (h : Stripped w.heap i i') : i'.info = i.info ∧ i'.exclude = [] ∧ i'.cls = i.cls ∧ i'.dictCell = i.dictCell ∧ i'.eqOwnDict = i.eqOwnDict := by
  rw [h.others]
  exact ⟨rfl, rfl, rfl, rfl, rfl⟩

theorem kept_nil (kvs : List (Val × Val)) : Kept [] kvs = kvs := by
  unfold Kept
  rw [List.filter_eq_self]
  intro kv _
  cases kv.1 <;> rfl

theorem entries_kept (ex : List Str) (kvs : List (Val × Val)) (d : List (Str × Json)) :
    flattenEntries w cfg fl (Kept ex kvs) [] d = flattenEntries w cfg fl kvs ex d := by
  have e : itemsExcl [] (Kept ex kvs) = itemsExcl ex kvs := kept_nil _
  unfold flattenEntries
  rw [e]

theorem attrs_stripped (h : Stripped w.heap i i') {l l' : List (Str × Val)} : ∀ (ns : List Str) (acc : Bool × List (Str × Json)),
    (∀ k ∈ ns, get (slotName i k) l' = if k ∈ i.exclude then none else get (slotName i k) l) →
    PyM.foldM (fun (acc : Bool × List (Str × Json)) k =>
      PyM.tryCatch (do
        let v ← PyM.ofExcept (match get (slotName i k) l' with
          | some v => .ok v
          | none => .error .attributeError)
        let d ← flattenKeyValuePair w fl (.str k) v acc.2
        pure (true, d)) (· == .attributeError) (fun _ => pure acc)) acc ns =
    PyM.foldM (fun (acc : Bool × List (Str × Json)) k =>
      if i.exclude.contains k then pure acc
      else PyM.tryCatch (do
        let v ← PyM.ofExcept (match get (slotName i k) l with
          | some v => .ok v
          | none => .error .attributeError)
        let d ← flattenKeyValuePair w fl (.str k) v acc.2
        pure (true, d)) (· == .attributeError) (fun _ => pure acc)) acc ns := by
  intro ns acc hl
  refine C48.foldM_congr ns _ (fun k hk b => ?_)
  rw [hl k hk]
  by_cases hx : k ∈ i.exclude
  · simp only [hx, if_true, List.contains_eq_mem, decide_true]
    rfl
  · simp only [hx, if_false, List.contains_eq_mem, decide_false, Bool.false_eq_true]

theorem foldM_filter {α β : Type} {f : β → α → P β} (p : α → Bool) : ∀ (ns : List α) (b : β), (∀ k ∈ ns, p k = false → ∀ b, f b k = pure b) →
    PyM.foldM f b (ns.filter p) = PyM.foldM f b ns
  | [], _, _ => rfl
  | k :: ns, b, h => by
    have ih := fun b => foldM_filter (f := f) p ns b (fun k hk => h k (by simp [hk]))
    by_cases hp : p k = true
    · rw [List.filter_cons_of_pos hp]
      simp only [PyM.foldM]
      congr 1
      funext b
      exact ih b
    · rw [List.filter_cons_of_neg hp, ih]
      simp only [PyM.foldM]
      rw [h k (by simp) (by simpa using hp)]
      rfl

theorem objAttrs_eq (i : Inst) (l : List (Str × Val)) (ns : List Str) (d : List (Str × Json)) :
    flattenObjAttrs w fl i l ns d = PyM.foldM (fun (acc : Bool × List (Str × Json)) k =>
      if i.exclude.contains k then pure acc
      else PyM.tryCatch (do
        let v ← PyM.ofExcept (match get (slotName i k) l with
          | some v => .ok v
          | none => .error .attributeError)
        let d ← flattenKeyValuePair w fl (.str k) v acc.2
        pure (true, d)) (· == .attributeError) (fun _ => pure acc)) (false, d) ns := by
  unfold flattenObjAttrs slotName
  simp only [dget_eq]
  rfl

theorem objAttrs_stripped (h : Stripped w.heap i i') {l l' : List (Str × Val)} (ns : List Str) (d : List (Str × Json))
    (hl : ∀ k ∈ ns, get (slotName i k) l' = if k ∈ i.exclude then none else get (slotName i k) l) :
    flattenObjAttrs w fl i' l' ns d = flattenObjAttrs w fl i l ns d := by
  rw [objAttrs_eq, objAttrs_eq, ← attrs_stripped h ns _ hl, (fields h).2.1]
  have : ∀ k, slotName i' k = slotName i k := fun k => by unfold slotName; rw [(fields h).1]
  simp only [this, List.contains_nil, Bool.false_eq_true, if_false]

theorem dirAttrs_stripped (h : Stripped w.heap i i') (d : List (Str × Json)) :
    flattenObjAttrs w fl i' i'.dirAttrs (i'.dirAttrs.map (·.1)) d = flattenObjAttrs w fl i i.dirAttrs (i.dirAttrs.map (·.1)) d := by
  rw [h.dirNames]
  rw [objAttrs_eq i, ← foldM_filter (fun k => k ∉ i.exclude) (i.dirAttrs.map (·.1)), ← objAttrs_eq i]
  · refine objAttrs_stripped h _ d (fun k hk => ?_)
    rw [List.mem_filter] at hk
    have hx : k ∉ i.exclude := by simpa using hk.2
    rw [if_neg hx]
    exact h.dir k hk.1 hx
  · intro k _ hp b
    have hx : k ∈ i.exclude := by simpa using hp
    simp only [List.contains_eq_mem, hx, decide_true, if_true]

theorem slots_stripped (h : Stripped w.heap i i') (hd : i.info.hasDict = false) (d : List (Str × Json)) : flattenSlots w fl i' d = flattenSlots w fl i d := by
  unfold flattenSlots
  rw [(fields h).1, objAttrs_stripped h _ d (h.slots hd)]
  congr 1
  funext r
  rw [dirAttrs_stripped h]

theorem rest_stripped (ho : Outside w.heap h') (h : Stripped w.heap i i') (a : Addr) (d : List (Str × Json)) :
    flattenRest { w with heap := h' } cfg fl a i' d = flattenRest w cfg fl a i d := by
  rw [ho.rest]
  obtain ⟨f1, f2, f3, f4, f5⟩ := fields h
  have hd : i.info.hasDict = true → ∀ data, flattenEntries w cfg fl (dictItems w i') [] data = flattenEntries w cfg fl (dictItems w i) i.exclude data := by
    intro hd data
    unfold dictItems
    rw [f4, h.dictCell]
    simp only [h.attrs hd, entries_kept]
  unfold flattenRest
  rcases h.base with hb | hb
  · have e1 : iterated cfg i' = iterated cfg i := by unfold iterated; rw [h.others]
    have e2 : iterErr cfg i' = iterErr cfg i := by unfold iterErr; rw [h.others]
    have e3 : i'.reduce = i.reduce := by rw [h.others]
    simp only [f1, f2, hb, e1, e2, e3]
    cases hh : i.info.hasDict with
    | true => simp only [hd hh, if_true]
    | false => simp only [slots_stripped h hh, Bool.false_eq_true, if_false]
  · simp only [f1, hb]
    have : flattenDictSub w cfg fl a i' d = flattenDictSub w cfg fl a i d := by
      have e1 : i'.factory = i.factory := by rw [h.others]
      have e2 : i'.exemplar = i.exemplar := by rw [h.others]
      have e3 : i'.errs = i.errs := by rw [h.others]
      unfold flattenDictSub flattenOwnDict dictIdent
      simp only [f1, f2, f4, f5, e1, e2, e3, h.items, entries_kept]
      cases hh : i.info.hasDict with
      | true => simp only [hd hh]
      | false => simp only [Bool.false_and, Bool.false_eq_true, if_false]
    rw [this]

theorem getstate_stripped (ho : Outside w.heap h') (h : Stripped w.heap i i') (a : Addr) (d : List (Str × Json)) :
    flattenGetstate { w with heap := h' } cfg fl a i' d = flattenGetstate w cfg fl a i d := by
  obtain ⟨f1, f2, f3, f4, f5⟩ := fields h
  have e1 : i'.state = i.state := by rw [h.others]
  rw [Outside.getstate_eq, Outside.getstate_eq]
  simp only [rest_stripped ho h, ho.excl, ho.truth, f1, f2, e1]
  cases hg : i.info.ownGetstate with
  | false => rfl
  | true =>
    simp only [if_true]
    cases hs : i.state with
    | error e => rfl
    | ok st =>
      have : ∀ ex, Outside.excludable w.heap ex st = none := by
        intro ex
        cases st <;> try rfl
        case ref d =>
          simp only [Outside.excludable]
          cases hc : w.heap[d]? with
          | none => rfl
          | some o =>
            cases o with
            | dict kvs => exact absurd hc (h.state hg d kvs hs)
            | _ => rfl
      simp only [this]

theorem inst_stripped (ho : Outside w.heap h') (h : Stripped w.heap i i') (a : Addr) :
    flattenInst { w with heap := h' } cfg fl a i' = flattenInst w cfg fl a i := by
  obtain ⟨f1, f2, f3, f4, f5⟩ := fields h
  have e1 : i'.reduce = i.reduce := by rw [h.others]
  have e2 : i'.hfields = i.hfields := by rw [h.others]
  have e3 : i'.errs = i.errs := by rw [h.others]
  have e4 : objTag cfg i' = objTag cfg i := by unfold objTag; rw [f3]
  have e5 : ∀ d, flattenNewargs fl i' d = flattenNewargs fl i d := by intro d; rw [h.others]; rfl
  have e6 : ∀ d, flattenInitargs fl i' d = flattenInitargs fl i d := by intro d; rw [h.others]; rfl
  unfold flattenInst flattenReduce reduceSane flattenBody flattenDate
  simp only [getstate_stripped ho h, ho.truth, f1, f3, e1, e2, e3, e4, e5, e6]

theorem outside (hh : All2 (StrippedCell w.heap) w.heap h') : Outside w.heap h' where
  cell a := by
    rcases cells hh a with h | ⟨i, i', h1, h2, h⟩
    · exact .inl h
    · exact .inr ⟨i, i', h1, h2, by rw [(fields h).1]⟩
  truth v := by
    cases v <;> simp only [truthy]
    case ref a =>
      rcases cells hh a with h | ⟨i, i', h1, h2, h⟩
      · rw [h]
      · have e : i'.elems = i.elems := by rw [h.others]
        have : i'.items.isEmpty = i.items.isEmpty := by
          have h1 := h.empty
          have h2 := h.items
          cases hi : i.items with
          | nil => rw [h2, hi]; rfl
          | cons x r => cases hi' : i'.items with
            | nil => rw [hi, hi'] at h1; cases h1 rfl
            | cons y r' => rfl
        rw [h1, h2]
        simp only [(fields h).1, e, this]

/-- Encoding an object graph, under all options, does the same as encoding the graph from which the excluded attributes were removed, of classes
that exclude nothing: the same text or the same exception. -/
theorem same_as_stripped (w : World) (h' : Heap) (hh : All2 (StrippedCell w.heap) w.heap h') (cfg : PCfg) (n : Nat) (v : Val) (reset : Bool) :
    Api.encode w cfg n v reset = Api.encode { w with heap := h' } cfg n v reset := by
  have ho := outside hh
  refine (ho.encode (fun a i i' h1 h2 fl => ?_) n v reset).symm
  rcases cells hh a with h | ⟨j, j', h3, h4, h⟩
  · have : i' = i := by
      rw [h1, h2] at h
      cases h
      rfl
    rw [this]
    exact ho.inst a i
  · rw [h1] at h3
    rw [h2] at h4
    cases h3
    cases h4
    exact inst_stripped ho h a

/-- So, if the graph that is left is supported, decoding the text of the whole graph yields the graph that is left.  Both calls succeed (`trip_succeeds_partial`). -/
theorem round_trip_partial (w : World) (h' : Heap) (hh : All2 (StrippedCell w.heap) w.heap h') (cfg : PCfg) (env : UEnv) (v x : Val) (text : Str) (u u' : UState)
    (hc : Covered { w with heap := h' } cfg env v) (he : Encodes w cfg v text) (hd : Decodes env text u x u') :
    SameGraph (writeOrder cfg.keys) (hasHandler w) h' v u'.heap x := by
  have he' : Encodes { w with heap := h' } cfg v text := by
    obtain ⟨n, s, h⟩ := he
    exact ⟨n, s, fun m s hm => by rw [← same_as_stripped w h' hh]; exact h m s hm⟩
  exact hc.graph he' hd

theorem trip_succeeds_partial (w : World) (h' : Heap) (hh : All2 (StrippedCell w.heap) w.heap h') (cfg : PCfg) (env : UEnv) (v : Val) (u : UState)
    (hc : Covered { w with heap := h' } cfg env v) : ∃ text x u', Encodes w cfg v text ∧ Decodes env text u x u' := by
  obtain ⟨text, x, u', ⟨n, s, h⟩, hd⟩ := hc.total u
  exact ⟨text, x, u', ⟨n, s, fun m s hm => by rw [same_as_stripped w h' hh]; exact h m s hm⟩, hd⟩

/-! ### examples -/

/-- the sample graph, with more attributes, all of which are excluded: an attribute that holds a lambda, a slot, and an entry of a dict subclass -/
def full : Heap := ((Sample.graph.set 1
    (.inst { cls := p!"m.C", info := Sample.infoC, attrs := [(p!"x", .ref 0), (p!"secret", .lambda 77), (p!"me", .ref 1)], exclude := [p!"secret"] })).set 3
    (.inst { cls := p!"m.S", info := Sample.infoS, attrs := [(p!"p", .ref 0), (p!"q", .ref 1)], exclude := [p!"q"] })).set 7
    (.inst { cls := p!"m.D", info := Sample.infoD, items := [(.str p!"secret", .ref 0), (.str p!"k", .ref 7)], attrs := [(p!"z", .ref 1), (p!"secret", .ref 1)], factory := some (.type p!"m.C"), exclude := [p!"secret"] })

theorem full_stripped : All2 (StrippedCell full) full Sample.graph :=
  ⟨.same _,
   .inst _ _ ⟨rfl, .inl rfl, (fun h => by cases h), rfl, (fun _ => by decide), (fun h => by cases h), rfl, (fun k hk => by cases hk), rfl, (fun _ => rfl)⟩,
   .same _,
   .inst _ _ ⟨rfl, .inl rfl, (fun h => by cases h), rfl, (fun h => by cases h), (fun _ => by decide), rfl, (fun k hk => by cases hk), rfl, (fun _ => rfl)⟩,
   .same _, .same _, .same _,
   .inst _ _ ⟨rfl, .inr rfl, (fun h => by cases h), rfl, (fun _ => by decide), (fun h => by cases h), rfl, (fun k hk => by cases hk), by decide, (fun h => by cases h)⟩,
   .same _, .same _, .same _, .same _, .same _, .same _, trivial⟩

example (u : UState) : ∃ text x u', Encodes (Sample.program.world full) {} (.ref 0) text ∧ Decodes Sample.program.env text u x u' ∧
    SameGraph id (hasHandler (Sample.program.world full)) Sample.graph (.ref 0) u'.heap x := by
  obtain ⟨text, x, u', h1, h2⟩ := trip_succeeds_partial (Sample.program.world full) Sample.graph full_stripped {} Sample.program.env (.ref 0) u (Sample.covered false)
  exact ⟨text, x, u', h1, h2, round_trip_partial _ _ full_stripped _ _ _ _ _ _ _ (Sample.covered false) h1 h2⟩

/-- Where exclusion is ignored the property does not hold: an instance of a list subclass keeps its excluded attribute. -/
theorem list_keeps : Sample.res (flattenTop (Sample.world [.inst { cls := p!"m.L", info := Sample.infoL, attrs := [(p!"a", .int 1)], exclude := [p!"a"] }]) {} 5 (.ref 0) true {}) =
    some (.ok (.obj [(p!"py/object", .str p!"m.L"), (p!"a", .int 1), (p!"py/seq", .arr [])])) := by decide +kernel

end JP.C55
