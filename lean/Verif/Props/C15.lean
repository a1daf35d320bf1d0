import Verif.Api
import Verif.ApiSpec
import Verif.GraphSpec
import Verif.Sample
import Verif.Proofs.PLevel
/-!
# C15 — `max_iter` bounds how much of an iterator is read
-/
namespace JP.C15
open JP PyM Pickler

/-- an iterator object (not a container that happens to be one) -/
def IsIter (i : Inst) : Prop := i.info.base = .plain ∧ i.info.isIterator = true

/-- the iterator `i` with the items `xs`, after which `__next__` raises `StopIteration`, or `e` -/
def Inst.yields (i : Inst) (xs : List Val) (e : Option Exc) : Inst := { i with elems := xs, errs := { i.errs with iter := e } }

/-- the two objects are the same, or iterators that agree in everything except in what comes after the first `n` items -/
inductive Agree (n : Nat) : Obj → Obj → Prop
  | same (o : Obj) : Agree n o o
  | iter (i : Inst) (xs ys : List Val) (e e' : Option Exc) : IsIter i → xs.take n = ys.take n → n ≤ xs.length → n ≤ ys.length →
      Agree n (.inst (Inst.yields i xs e)) (.inst (Inst.yields i ys e'))

/-! ### the encoder does not look at the rest -/

def cut (n : Nat) (i : Inst) : Inst :=
  match i.info.base, i.info.isIterator with
  | .plain, true => if n ≤ i.elems.length then Inst.yields i (i.elems.take n) none else i
  | _, _ => i

def cutObj (n : Nat) : Obj → Obj
  | .inst i => .inst (cut n i)
  | o => o

def cutW (n : Nat) (w : World) : World := { w with heap := w.heap.map (cutObj n) }

theorem cut_or (n : Nat) (i : Inst) : cut n i = i ∨ (IsIter i ∧ n ≤ i.elems.length) ∧ cut n i = Inst.yields i (i.elems.take n) none := by
  unfold cut IsIter
  by_cases hn : n ≤ i.elems.length
  · cases hb : i.info.base <;> cases hi : i.info.isIterator <;> simp [hn]
  · cases hb : i.info.base <;> cases hi : i.info.isIterator <;> simp [hn]

theorem heap_cut {n : Nat} {w : World} (a : Nat) : (cutW n w).heap[a]? = w.heap[a]?.map (cutObj n) := by
  simp [cutW]

variable {n : Nat} {w : World} {cfg : PCfg} {fl : Val → P Json}

theorem truthy_cut (v : Val) : truthy (cutW n w).heap v = truthy w.heap v := by
  cases v <;> simp only [truthy]
  case ref a =>
    rw [heap_cut]
    cases w.heap[a]? with
    | none => rfl
    | some o =>
      cases o with
      | inst i =>
        rcases cut_or n i with h | ⟨h, h'⟩
        · simp only [Option.map_some, cutObj, h]
        · simp only [Option.map_some, cutObj, h', Inst.yields, h.1.1]
      | _ => rfl

theorem dictItems_cut (i : Inst) : dictItems (cutW n w) i = dictItems w i := by
  unfold dictItems
  cases i.dictCell with
  | none => rfl
  | some d =>
    simp only []
    rw [heap_cut]
    cases w.heap[d]? with
    | none => rfl
    | some o => cases o <;> rfl

theorem flattenRest_cut (hn : cfg.maxIter = some n) (a : Addr) (i : Inst) (d : List (Str × Json)) :
    flattenRest (cutW n w) cfg fl a (cut n i) d = flattenRest w cfg fl a i d := by
  have hsame : flattenRest (cutW n w) cfg fl a i d = flattenRest w cfg fl a i d := by
    unfold flattenRest flattenDictSub flattenOwnDict flattenSequence flattenSeqAttrs
    simp only [dictItems_cut, truthy_cut]
    rfl
  rcases cut_or n i with h | ⟨h, h'⟩
  · rw [h, hsame]
  · rw [h', ← hsame]
    unfold flattenRest
    simp only [Inst.yields, h.1.1, h.1.2, iterated, iterErr, hn, List.take_take, Nat.min_self, if_true, List.length_take, h.2, Nat.min_eq_left]
    simp

theorem flattenGetstate_cut (hn : cfg.maxIter = some n) (a : Addr) (i : Inst) (d : List (Str × Json)) :
    flattenGetstate (cutW n w) cfg fl a (cut n i) d = flattenGetstate w cfg fl a i d := by
  have hr := flattenRest_cut (w := w) (fl := fl) hn a i
  have key : ∀ i' : Inst, (∀ d, flattenRest (cutW n w) cfg fl a i' d = flattenRest w cfg fl a i d) → i'.info = i.info → i'.state = i.state → i'.exclude = i.exclude →
      flattenGetstate (cutW n w) cfg fl a i' d = flattenGetstate w cfg fl a i d := by
    intro i' hr h1 h2 h3
    unfold flattenGetstate
    simp only [hr, h1, h2, h3]
    cases i.state with
    | error e => rfl
    | ok st =>
      cases st <;> simp only [truthy_cut]
      case ref b =>
        rw [heap_cut]
        cases w.heap[b]? with
        | none => rfl
        | some o => cases o <;> rfl
  refine key _ hr ?_ ?_ ?_
  all_goals rcases cut_or n i with h | ⟨h, h'⟩
  all_goals first | rw [h] | (rw [h']; rfl)

theorem flattenBody_cut (hn : cfg.maxIter = some n) (a : Addr) (i : Inst) : flattenBody (cutW n w) cfg fl a (cut n i) = flattenBody w cfg fl a i := by
  have hg := flattenGetstate_cut (w := w) (fl := fl) hn a i
  unfold flattenBody
  simp only [hg]
  rcases cut_or n i with h | ⟨h, h'⟩
  · rw [h]
  · rw [h']; rfl

theorem flattenInst_cut (hn : cfg.maxIter = some n) (a : Addr) (i : Inst) : flattenInst (cutW n w) cfg fl a (cut n i) = flattenInst w cfg fl a i := by
  have hb := flattenBody_cut (w := w) (fl := fl) hn a i
  unfold flattenInst flattenReduce reduceSane
  simp only [hb, truthy_cut]
  rcases cut_or n i with h | ⟨h, h'⟩
  · rw [h]; rfl
  · rw [h']; rfl

theorem cut_isEnum (i : Inst) : (cut n i).info = i.info := by
  rcases cut_or n i with h | ⟨h, h'⟩
  · rw [h]
  · rw [h']; rfl

theorem flattenBy_cut (hn : cfg.maxIter = some n) (v : Val) : flattenBy (cutW n w) cfg fl v = flattenBy w cfg fl v := by
  cases v <;> try rfl
  case ref a =>
    simp only [flattenBy]
    rw [heap_cut]
    cases w.heap[a]? with
    | none => rfl
    | some o =>
      cases o with
      | inst i => simp only [Option.map_some, cutObj, flattenInst_cut hn, cut_isEnum]
      | _ => rfl

theorem isEnumV_cut (v : Val) : isEnumV (cutW n w) v = isEnumV w v := by
  cases v <;> try rfl
  case ref a =>
    simp only [isEnumV]
    rw [heap_cut]
    cases w.heap[a]? with
    | none => rfl
    | some o =>
      cases o with
      | inst i => simp only [Option.map_some, cutObj, cut_isEnum]
      | _ => rfl

theorem flatten_cut (hn : cfg.maxIter = some n) : ∀ (m : Nat) (v : Val), flatten (cutW n w) cfg m v = flatten w cfg m v
  | 0, _ => rfl
  | m + 1, v => by
    have ih : flatten (cutW n w) cfg m = flatten w cfg m := funext (flatten_cut hn m)
    have ho : ∀ v, flattenObj (cutW n w) cfg (flatten w cfg m) v = flattenObj w cfg (flatten w cfg m) v := by
      intro v
      unfold flattenObj
      rw [flattenBy_cut hn, isEnumV_cut]
      rfl
    simp only [flatten, flattenStep, flattenImpl, ih, ho]

theorem agree_cut {o o' : Obj} (h : Agree n o o') : cutObj n o = cutObj n o' := by
  cases h with
  | same => rfl
  | iter i xs ys e e' hi h h1 h2 =>
    simp only [cutObj, cut, Inst.yields, hi.1, hi.2, h, h1, h2, if_true]

theorem map_cut : ∀ {h h' : Heap}, All2 (Agree n) h h' → h.map (cutObj n) = h'.map (cutObj n)
  | [], [], _ => rfl
  | [], _ :: _, h => h.elim
  | _ :: _, [], h => h.elim
  | _ :: _, _ :: _, h => by rw [List.map_cons, List.map_cons, agree_cut h.1, map_cut h.2]

/-- With `max_iter=n` nothing after the first `n` items of an iterator has any influence on the encoding of any object graph,
whatever the other options are: graphs that differ only in what their iterators would yield after `n` items have the same encodings
(the same text, exception or non-termination). -/
theorem reads_at_most (w w' : World) (cfg : PCfg) (n : Nat) (hn : cfg.maxIter = some n) (hh : All2 (Agree n) w.heap w'.heap)
    (hr : w.repr = w'.repr) (hs : w.pystr = w'.pystr) (hd : w.dumps = w'.dumps) (hc : w.handler = w'.handler) (m : Nat) (v : Val) (reset : Bool) :
    Api.encode w cfg m v reset = Api.encode w' cfg m v reset := by
  have e : cutW n w = cutW n w' := by
    cases w; cases w'
    simp only at hr hs hd hc hh
    simp only [cutW, hr, hs, hd, hc, map_cut hh]
  have hf : flatten w cfg m v = flatten w' cfg m v := by rw [← flatten_cut hn, e, flatten_cut hn]
  unfold Api.encode flattenTop
  rw [hf, hd]

/-! ### what is written -/

/-- the iterator is written by its items: no handler is registered for it, no reduce value is used, and there is no (true) state -/
structure ByItems (w : World) (cfg : PCfg) (i : Inst) : Prop where
  iter : IsIter i
  handler : w.handler i.cls = none
  reduces : cfg.unpicklable = true → i.info.reduces = true → i.reduce = .nothing ∨ i.reduce = .raise .typeError ∨ i.reduce = .str none ∨ i.reduce = .tup []
  state : i.info.ownGetstate = true → ∃ v, i.state = .ok v ∧ truthy w.heap v = false

theorem dset_last {k : Str} {j : Json} {d : List (Str × Json)} (h : k ∉ d.map (·.1)) : dset k j d = d ++ [(k, j)] := by
  induction d with
  | nil => rfl
  | cons p d ih =>
    obtain ⟨k', j'⟩ := p
    simp only [List.map_cons, List.mem_cons, not_or] at h
    simp only [dset, List.cons_append, ih h.2, if_neg (Ne.symm h.1)]

/-- what comes before the items -/
def Head (d : List (Str × Json)) : Prop := ∀ k ∈ d.map (·.1), k ∈ [p!"py/object", p!"py/newargs", p!"py/newargsex", p!"py/initargs"]

theorem Head.dset {d : List (Str × Json)} {k : Str} {j : Json} (h : Head d) (hk : k ∈ [p!"py/object", p!"py/newargs", p!"py/newargsex", p!"py/initargs"]) : Head (dset k j d) := by
  intro k' hk'
  rw [dset_keys] at hk'
  split at hk'
  · exact h k' hk'
  · rcases List.mem_append.1 hk' with h' | h'
    · exact h k' h'
    · rw [List.mem_singleton.1 h']; exact hk

theorem newargs_head {i : Inst} {d d' : List (Str × Json)} {s s' : PState} (h : flattenNewargs fl i d s = some (.ok d', s')) (hd : Head d) : Head d' := by
  unfold flattenNewargs at h
  split at h
  · obtain ⟨_, _, _, h2⟩ := bind_eq_ok.1 h
    obtain ⟨_, _, _, h3⟩ := bind_eq_ok.1 h2
    obtain ⟨_, _, _, h4⟩ := bind_eq_ok.1 h3
    cases h4
    exact hd.dset (by decide)
  · split at h
    · obtain ⟨_, _, _, h2⟩ := bind_eq_ok.1 h
      obtain ⟨_, _, _, h3⟩ := bind_eq_ok.1 h2
      cases h3
      exact hd.dset (by decide)
    · cases h; exact hd

theorem initargs_head {i : Inst} {d d' : List (Str × Json)} {s s' : PState} (h : flattenInitargs fl i d s = some (.ok d', s')) (hd : Head d) : Head d' := by
  unfold flattenInitargs at h
  split at h
  · obtain ⟨_, _, _, h2⟩ := bind_eq_ok.1 h
    obtain ⟨_, _, _, h3⟩ := bind_eq_ok.1 h2
    cases h3
    exact hd.dset (by decide)
  · cases h; exact hd

theorem getstate_byItems {i : Inst} (hi : ByItems w cfg i) (a : Addr) (d : List (Str × Json)) : flattenGetstate w cfg fl a i d = flattenRest w cfg fl a i d := by
  unfold flattenGetstate
  split
  · next h =>
    obtain ⟨v, h1, h2⟩ := hi.state h
    rw [h1]
    simp only []
    split
    · next kvs hk =>
      cases v with
      | ref b =>
        simp only at hk
        simp only [truthy] at h2
        cases hb : w.heap[b]? with
        | none => rw [hb] at hk; cases hk
        | some o =>
          rw [hb] at hk h2
          cases o with
          | dict kvs' =>
            simp only at hk h2
            split at hk
            · cases hk
            · cases hk
              have : kvs = [] := by cases kvs with
                | nil => rfl
                | cons _ _ => cases h2
              subst this
              rfl
          | _ => cases hk
      | _ => cases hk
    · rw [h2]; rfl
  · rfl

theorem inst_byItems {i : Inst} (hi : ByItems w cfg i) (a : Addr) : flattenInst w cfg fl a i = flattenBody w cfg fl a i := by
  unfold flattenInst flattenReduce
  rw [hi.handler]
  simp only []
  by_cases h : (cfg.unpicklable && i.info.reduces) = true
  · rw [if_pos h]
    simp only [Bool.and_eq_true] at h
    rcases hi.reduces h.1 h.2 with e | e | e | e <;> rw [e] <;> rfl
  · rw [if_neg h]

/-- With `max_iter=n`, an iterator that is met for the first time (and not cut off by `max_depth`) is written as its first `n` items: the array under `py/iterator`
holds what these became, encoded one after the other.  This is for any items, in any state of the encoder and with any options; with `fail_safe`
the whole object may be replaced by what the callback returned. -/
theorem first_items (w : World) (cfg : PCfg) (n : Nat) (hn : cfg.maxIter = some n)
    (a : Addr) (i : Inst) (ha : w.heap[a]? = some (.inst i)) (hi : ByItems w cfg i)
    (m : Nat) (s s' : PState) (hs : New a s) (hd : cfg.maxDepth ≠ some (s.depth + 1)) (j : Json)
    (h : flatten w cfg (m + 1) (.ref a) s = some (.ok j, s')) :
    (∃ (d : List (Str × Json)) (js : List Json), j = .obj (d ++ [(p!"py/iterator", .arr js)]) ∧ Head d ∧
      ∃ s1 s2, InTurn (flatten w cfg m) s1 (i.elems.take n) js s2) ∨ Replaced cfg j := by
  refine (level_inst ha hs hd h).imp (fun ⟨s2, h1⟩ => ?_) id
  rw [inst_byItems hi] at h1
  unfold flattenBody at h1
  obtain ⟨d1, s3, h2, h3⟩ := bind_eq_ok.1 h1
  obtain ⟨d2, s4, h4, h5⟩ := bind_eq_ok.1 h3
  rw [getstate_byItems hi] at h5
  have hd0 : Head (objTag cfg i) := by
    unfold objTag
    split
    · intro k hk
      simp only [List.map_cons, List.map_nil, List.mem_singleton] at hk
      subst hk
      decide
    · intro k hk; cases hk
  have hd2 := initargs_head h4 (newargs_head h2 hd0)
  unfold flattenRest at h5
  simp only [hi.iter.1, hi.iter.2, if_true] at h5
  obtain ⟨js, s5, h6, h7⟩ := bind_eq_ok.1 h5
  obtain ⟨_, s6, h8, h9⟩ := bind_eq_ok.1 h7
  cases h9
  refine ⟨d2, js, ?_, hd2, s4, s5, ?_⟩
  · rw [dset_last]
    · rfl
    · intro hk
      exact absurd (hd2 _ hk) (by decide)
  · have := mapM_inTurn h6
    simpa only [iterated, hn] using this

/-! ### examples -/

/-- an iterator with the remaining items `[1, [2], 3]` -/
def heap (rest : List Val) : Heap := [.inst { cls := p!"m.It", info := { isIterator := true, hasDict := false }, elems := [.int 1, .ref 1] ++ rest }, .list [.int 2]]

example : Sample.res (flattenTop (Sample.world (heap [.int 3])) { maxIter := some 2 } 9 (.ref 0) true {}) =
    some (.ok (.obj [(p!"py/object", .str p!"m.It"), (p!"py/iterator", .arr [.int 1, .arr [.int 2]])])) := by decide +kernel

example : All2 (Agree 2) (heap [.int 3]) (heap [.ref 0, .str p!"x"]) :=
  ⟨.iter { cls := p!"m.It", info := { isIterator := true, hasDict := false } } _ _ none none ⟨rfl, rfl⟩ rfl (by decide) (by decide), .same _, trivial⟩

example : ByItems (Sample.world (heap [.int 3])) { maxIter := some 2 } { cls := p!"m.It", info := { isIterator := true, hasDict := false }, elems := [.int 1, .ref 1, .int 3] } :=
  ⟨⟨rfl, rfl⟩, rfl, (fun _ h => by cases h), (fun h => by cases h)⟩

example : New 0 {} ∧ ({} : PCfg).maxDepth ≠ some (({} : PState).depth + 1) := ⟨⟨by simp, fun p hp => by cases hp⟩, by decide⟩

end JP.C15
