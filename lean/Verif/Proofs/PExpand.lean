import Verif.ExpandSpec
import Verif.Proofs.PLogic
/-!
# The encoder without references writes the expansion
-/
namespace JP.Expand
open JP PyM Pickler

/-- from a state with `I` the computation returns `r` and leaves a state with `J` -/
def Runs {α : Type} (I : PState → Prop) (x : P α) (r : α) (J : PState → Prop) : Prop := ∀ s, I s → ∃ s', x s = some (.ok r, s') ∧ J s'

abbrev Gives {α : Type} (I : PState → Prop) (x : P α) (r : α) : Prop := Runs I x r I

section
variable {I J K : PState → Prop}

theorem Runs.bind {α β : Type} {x : P α} {f : α → P β} {a : α} {b : β} (h : Runs I x a J) (h' : Runs J (f a) b K) : Runs I (x >>= f) b K := by
  intro s hs
  obtain ⟨s1, e1, h1⟩ := h s hs
  obtain ⟨s2, e2, h2⟩ := h' s1 h1
  exact ⟨s2, by rw [bind_ok e1]; exact e2, h2⟩

theorem Runs.pure {α : Type} (a : α) : Gives I (pure a : P α) a := fun s hs => ⟨s, rfl, hs⟩

theorem Runs.ofExcept {α : Type} {r : Except Exc α} {a : α} (h : r = .ok a) : Gives I (PyM.ofExcept r : P α) a := by
  subst h; exact fun s hs => ⟨s, rfl, hs⟩

theorem Runs.mapM {α β : Type} {f : α → P β} {g : α → β} : ∀ (xs : List α), (∀ x ∈ xs, Gives I (f x) (g x)) → Gives I (PyM.mapM f xs) (xs.map g)
  | [], _ => Runs.pure _
  | x :: xs, h => by
    rw [mapM_cons]
    refine Runs.bind (h x (by simp)) (Runs.bind (Runs.mapM xs (fun y hy => h y (by simp [hy]))) (Runs.pure _))

theorem Runs.foldM {α β : Type} {f : β → α → P β} {g : β → α → β} : ∀ (xs : List α) (b : β), (∀ b, ∀ x ∈ xs, Gives I (f b x) (g b x)) →
    Gives I (PyM.foldM f b xs) (xs.foldl g b)
  | [], _, _ => Runs.pure _
  | x :: xs, b, h => by
    rw [foldM_cons]
    exact Runs.bind (h b x (by simp)) (Runs.foldM xs _ (fun b y hy => h b y (by simp [hy])))

theorem Runs.tryCatch {α : Type} {x : P α} {p : Exc → Bool} {h : Exc → P α} {a : α} (hx : Runs I x a J) : Runs I (PyM.tryCatch x p h) a J := by
  intro s hs
  obtain ⟨s1, e1, h1⟩ := hx s hs
  exact ⟨s1, by unfold PyM.tryCatch; rw [e1], h1⟩
end

theorem put_append (l l' : List (Str × Json)) : ∀ d, put d (l ++ l') = put (put d l) l' := by
  induction l with
  | nil => intro d; rfl
  | cons x r ih => intro d; obtain ⟨k, j⟩ := x; exact ih _

theorem foldl_put {α : Type} (f : α → Option (Str × Json)) : ∀ (xs : List α) (d : List (Str × Json)),
    xs.foldl (fun d x => put d (f x).toList) d = put d (xs.filterMap f)
  | [], _ => rfl
  | x :: xs, d => by
    simp only [List.foldl_cons, List.filterMap_cons]
    rw [foldl_put f xs]
    cases f x with
    | none => rfl
    | some y => simp [put, Option.toList]

section
variable {w : World} {cfg : PCfg} {fl : Val → P Json} {ex : Val → Json} {I : PState → Prop} {R : Val → Prop}

theorem reprKey_eq (hr : ∀ v, ∃ s, w.repr v = .ok s) (k : Val) : reprKey w k = .ok (keyText w k) := by
  obtain ⟨s, hs⟩ := hr k
  unfold reprKey keyText
  cases k <;> simp [hs]

theorem picklable_iff (k v : Val) : isPicklable k v = (!isLambda v && (match k with | .str s => !Tags.RESERVED.contains s | _ => true)) := by
  unfold isPicklable isLambda Tags.isReserved
  cases k <;> cases v <;> simp

variable (hfl : ∀ y, R y → Gives I (fl y) (ex y)) (hr : ∀ v, ∃ s, w.repr v = .ok s)
include hfl hr

theorem keyValue {k v : Val} (hv : R v) (d : List (Str × Json)) : Gives I (flattenKeyValuePair w fl k v d) (put d (plainEntry w ex (k, v)).toList) := by
  unfold flattenKeyValuePair plainEntry
  rw [picklable_iff, reprKey_eq hr]
  by_cases hl : isLambda v = true
  · simp only [hl, Bool.not_true, Bool.false_and, Bool.false_eq_true, if_false, if_true]
    exact Runs.pure _
  · simp only [hl, Bool.not_false, Bool.true_and, Bool.false_eq_true, if_false]
    by_cases hk : (match k with | .str s => !Tags.RESERVED.contains s | _ => true) = true
    · rw [if_pos hk]
      refine Runs.bind (Runs.ofExcept rfl) (Runs.bind (hfl v hv) ?_)
      cases k <;> simp only [put, Option.toList, keyText] at hk ⊢ <;> try exact Runs.pure _
      simp only [Bool.not_eq_true'] at hk
      simp only [hk, Bool.false_eq_true, if_false, put]
      exact Runs.pure _
    · rw [if_neg hk]
      cases k <;> simp at hk
      simp [hk, put]
      exact Runs.pure _

theorem escape {k : Val} (hk : R k) : Gives I (escapeKey w fl k) (quoted w ex k) :=
  Runs.bind (hfl k hk) (Runs.pure _)

theorem nonString {k v : Val} (hk : R k) (hv : R v) (hc : cfg.keys = true) (d : List (Str × Json)) :
    Gives I (flattenNonString w cfg fl k v d) (put d (otherEntry w ex (k, v)).toList) := by
  unfold flattenNonString otherEntry
  rw [picklable_iff]
  by_cases hl : isLambda v = true
  · simp only [hl, Bool.not_true, Bool.false_and, Bool.false_eq_true, if_false, if_true]
    cases k <;> exact Runs.pure _
  · simp only [hl, Bool.not_false, Bool.true_and, Bool.false_eq_true, if_false, hc, if_true]
    have key : Gives I (do let k' ← escapeKey w fl k; let j ← fl v; pure (dset k' j d)) (dset (quoted w ex k) (ex v) d) :=
      Runs.bind (escape hfl hr hk) (Runs.bind (hfl v hv) (Runs.pure _))
    cases k <;> try exact key
    next s =>
    cases hb : (!Tags.RESERVED.contains s) <;> simp only [hb, Bool.false_eq_true, if_false, if_true] <;> exact Runs.pure _

theorem string {k v : Val} (hk : R k) (hv : R v) (hc : cfg.keys = true) (d : List (Str × Json)) :
    Gives I (flattenString w cfg fl k v d) (put d (stringEntry w ex (k, v)).toList) := by
  unfold flattenString stringEntry
  cases k <;> try (simp only [flattenStringTail, picklable_iff, hc, if_true, Bool.and_true]; split <;> exact Runs.pure _)
  next s =>
  simp only [hc, Bool.and_true]
  have e : needsEscape s = special s := by unfold needsEscape special Tags.isReserved; rfl
  rw [e]
  by_cases hs : special s = true
  · simp only [hs, if_true]
    exact Runs.bind (hfl v hv) (Runs.bind (escape hfl hr hk) (Runs.pure _))
  · have hres : Tags.RESERVED.contains s = false := by
      unfold special at hs
      simp only [Bool.or_eq_true, not_or] at hs
      simpa using hs.2
    simp only [hs, Bool.false_eq_true, if_false, flattenStringTail, picklable_iff, hres, Bool.not_false, Bool.and_true, hc, if_true]
    by_cases hl : isLambda v = true
    · simp only [hl, Bool.not_true, Bool.false_eq_true, if_false, if_true]
      exact Runs.pure _
    · simp only [hl, Bool.not_false, if_true, Bool.false_eq_true, if_false]
      exact Runs.bind (hfl v hv) (Runs.pure _)

theorem entries_gives {kvs : List (Val × Val)} (hk : ∀ k v, (k, v) ∈ kvs → R k ∧ R v) (excl : List Str) (d : List (Str × Json)) :
    Gives I (flattenEntries w cfg fl kvs excl d) (put d (entries w cfg ex (kept excl kvs))) := by
  have hm : ∀ k v, (k, v) ∈ kept excl kvs → R k ∧ R v := fun k v h => hk k v (List.mem_filter.1 h).1
  have hi : itemsExcl excl kvs = kept excl kvs := rfl
  unfold flattenEntries entries
  rw [hi]
  by_cases hc : cfg.keys = true
  · simp only [hc, if_true]
    rw [put_append]
    refine Runs.bind (J := I) (a := put d ((kept excl kvs).filterMap (stringEntry w ex))) ?_ ?_
    · rw [← foldl_put]
      exact Runs.foldM _ _ (fun d (kv : Val × Val) h => string hfl hr (hm kv.1 kv.2 h).1 (hm kv.1 kv.2 h).2 hc d)
    · rw [← foldl_put (otherEntry w ex)]
      exact Runs.foldM _ _ (fun d (kv : Val × Val) h => nonString hfl hr (hm kv.1 kv.2 h).1 (hm kv.1 kv.2 h).2 hc d)
  · simp only [hc, Bool.false_eq_true, if_false]
    rw [← foldl_put]
    exact Runs.foldM _ _ (fun d (kv : Val × Val) h => keyValue hfl hr (hm kv.1 kv.2 h).2 d)

theorem attrs_gives {i : Inst} {lookup : List (Str × Val)} (hv : ∀ k v, (k, v) ∈ lookup → R v) : ∀ (names : List Str) (b : Bool) (d : List (Str × Json)),
    Gives I (PyM.foldM (fun (acc : Bool × List (Str × Json)) k =>
    if i.exclude.contains k then pure acc
    else
      PyM.tryCatch (do
        let name := if startsWith k p!"__" then p!"_" ++ i.info.shortName ++ k else k
        let v ← PyM.ofExcept (match dget name lookup with
          | some v => .ok v
          | none => .error .attributeError)
        let d ← flattenKeyValuePair w fl (.str k) v acc.2
        pure (true, d))
        (· == .attributeError)
        (fun _ => pure acc)) (b, d) names)
      (b || !(present i lookup names).isEmpty, put d ((present i lookup names).filterMap (plainEntry w ex)))
  | [], b, d => by simpa [present, put] using Runs.pure (I := I) (b, d)
  | k :: names, b, d => by
    rw [foldM_cons]
    by_cases he : i.exclude.contains k = true
    · refine Runs.bind (a := (b, d)) (by rw [if_pos he]; exact Runs.pure _) ?_
      have := attrs_gives (i := i) hv names b d
      simp only [present, List.filterMap_cons, he, if_true]
      exact this
    · cases hg : dget (if startsWith k p!"__" then p!"_" ++ i.info.shortName ++ k else k) lookup with
      | none =>
        refine Runs.bind (J := I) (a := (b, d)) ?_ ?_
        · rw [if_neg he]
          intro s hs
          refine ⟨s, ?_, hs⟩
          simp only [hg]
          rfl
        · have := attrs_gives (i := i) hv names b d
          simp only [present, List.filterMap_cons, he, hg, Bool.false_eq_true, if_false, Option.map_none]
          exact this
      | some v =>
        have hin := hv _ _ (dget_mem hg)
        refine Runs.bind (J := I) (a := (true, put d (plainEntry w ex (.str k, v)).toList)) ?_ ?_
        · rw [if_neg he]
          refine Runs.tryCatch ?_
          simp only [hg]
          exact Runs.bind (Runs.ofExcept rfl) (Runs.bind (keyValue hfl hr hin d) (Runs.pure _))
        · have := attrs_gives (i := i) hv names true (put d (plainEntry w ex (.str k, v)).toList)
          simp only [present, List.filterMap_cons, he, hg, Bool.false_eq_true, if_false, Option.map_some] at this ⊢
          have e : ∀ l : List (Str × Json), put (put d (plainEntry w ex (.str k, v)).toList) l =
              put d ((plainEntry w ex (.str k, v)).toList ++ l) := fun l => (put_append _ _ _).symm
          rw [e] at this
          cases hp : plainEntry w ex (.str k, v) with
          | none => rw [hp] at this; simpa using this
          | some y => rw [hp] at this; simpa using this

theorem slots_gives {i : Inst} (h1 : ∀ k v, (k, v) ∈ i.attrs → R v) (h2 : ∀ k v, (k, v) ∈ i.dirAttrs → R v) (d : List (Str × Json)) :
    Gives I (flattenSlots w fl i d) (.obj (put d (slotEntries w ex i))) := by
  unfold flattenSlots flattenObjAttrs slotEntries
  refine Runs.bind (attrs_gives hfl hr h1 _ _ _) ?_
  cases he : (present i i.attrs i.info.slots).isEmpty with
  | true =>
    simp only [Bool.not_true, Bool.or_false, Bool.false_eq_true, if_false, if_true]
    refine Runs.bind (attrs_gives hfl hr h2 _ _ _) ?_
    rw [if_pos he]
    have : (present i i.attrs i.info.slots).filterMap (plainEntry w ex) = [] := by
      cases hp : present i i.attrs i.info.slots with
      | nil => rfl
      | cons a b => rw [hp] at he; cases he
    rw [this]
    exact Runs.pure _
  | false =>
    simp only [Bool.not_false, Bool.or_true, if_true, Bool.false_eq_true, if_false, he]
    exact Runs.pure _

omit hfl hr in
theorem dictItems_eq (i : Inst) : dictItems w i = dictOf w i := rfl

theorem sequence_gives {i : Inst} (h1 : ∀ k v, (k, v) ∈ dictOf w i → R k ∧ R v) (h2 : ∀ x ∈ i.elems, R x) (d : List (Str × Json)) :
    Gives I (flattenSequence w cfg fl i d) (if cfg.unpicklable then
      .obj (put (if i.info.hasDict then put d (entries w cfg ex (dictOf w i)) else d) [(Tags.SEQ, .arr (i.elems.map ex))])
    else .arr (i.elems.map ex)) := by
  unfold flattenSequence flattenSeqAttrs
  refine Runs.bind (a := if i.info.hasDict then put d (entries w cfg ex (dictOf w i)) else d) (J := I) ?_ ?_
  · split
    · have := entries_gives (cfg := cfg) hfl hr h1 [] d
      have hk : kept [] (dictOf w i) = dictOf w i := by
        unfold kept
        refine List.filter_eq_self.2 ?_
        rintro ⟨k, v⟩ _
        cases k <;> rfl
      rw [hk] at this
      exact this
    · exact Runs.pure _
  · refine Runs.bind (Runs.mapM _ (fun x hx => hfl x (h2 x hx))) ?_
    by_cases hu : cfg.unpicklable = true
    · simp only [hu, if_true]; exact Runs.pure _
    · simp only [hu, Bool.false_eq_true, if_false]; exact Runs.pure _

/-- The values the encoder looks at for an instance. -/
def Parts (w : World) (R : Val → Prop) (i : Inst) : Prop := (∀ x, Holds w.heap i x → R x) ∧ (∀ x, Scalar x → R x)

omit hfl hr in
theorem Parts.dict {i : Inst} (h : Parts w R i) : ∀ k v, (k, v) ∈ dictOf w i → R k ∧ R v := by
  intro k v hm
  unfold dictOf at hm
  cases hd : i.dictCell with
  | none =>
    rw [hd] at hm
    simp only [List.mem_map] at hm
    obtain ⟨⟨k', v'⟩, hm, he⟩ := hm
    cases he
    exact ⟨h.1 _ (.attrName hm), h.1 _ (.attr hm)⟩
  | some d =>
    rw [hd] at hm
    simp only at hm
    split at hm
    · next kvs hk => exact ⟨h.1 _ (.dictKey hd hk hm), h.1 _ (.dictVal hd hk hm)⟩
    · cases hm

theorem dictSub_gives {a : Addr} {i : Inst} (hp : Parts w R i) (hc : Calm cfg i) (hb : i.info.base = .dict)
    (hown : Gives I (Pickler.mkref cfg (.dictOf a)) true) (d : List (Str × Json)) :
    Runs I (flattenDictSub w cfg fl a i d >>= fun d => pure (.obj d)) (members w cfg ex i d) I := by
  unfold flattenDictSub members
  rw [hb]
  simp only
  have last : ∀ {x : P (List (Str × Json))} {r}, Gives I x r → Gives I (x >>= fun d => pure (Json.obj d)) (.obj r) := fun h => Runs.bind h (Runs.pure _)
  refine last ?_
  refine Runs.bind (entries_gives hfl hr (fun k v h => ⟨hp.1 _ (.itemKey h), hp.1 _ (.itemVal h)⟩) _ _) ?_
  refine Runs.bind (J := I) (a := put (put d (entries w cfg ex (kept i.exclude i.items))) (factoryEntry (put d (entries w cfg ex (kept i.exclude i.items))) i)) ?_ ?_
  · unfold flattenDefault factoryEntry
    cases hf : i.factory with
    | none => exact Runs.pure _
    | some f =>
      obtain ⟨n, rfl⟩ := hc.factory f hf
      exact Runs.bind (Runs.pure _) (Runs.pure _)
  · generalize put (put d (entries w cfg ex (kept i.exclude i.items))) (factoryEntry (put d (entries w cfg ex (kept i.exclude i.items))) i) = d'
    unfold flattenOwnDict
    by_cases h : (i.info.hasDict && cfg.unpicklable && !i.eqOwnDict) = true
    · have hu : cfg.unpicklable = true := by simp only [Bool.and_eq_true] at h; exact h.1.2
      have hd : dictIdent a i = .dictOf a := by unfold dictIdent; rw [hc.ownDict hb hu]
      rw [if_pos h, if_pos h, hd]
      refine Runs.bind hown ?_
      simp only [if_true]
      refine Runs.bind (entries_gives hfl hr hp.dict _ _) (Runs.pure _)
    · rw [if_neg h, if_neg h]
      exact Runs.pure _

theorem rest_gives {a : Addr} {i : Inst} (hp : Parts w R i) (hc : Calm cfg i)
    (hown : Gives I (Pickler.mkref cfg (.dictOf a)) true) (d : List (Str × Json)) :
    Gives I (flattenRest w cfg fl a i d) (members w cfg ex i d) := by
  cases hb : i.info.base with
  | dict =>
    have := dictSub_gives hfl hr hp hc hb hown d
    unfold flattenRest
    rw [hb]
    exact this
  | list | set | tuple =>
    have := sequence_gives (cfg := cfg) hfl hr hp.dict (fun x h => hp.1 _ (.elem h)) d
    unfold flattenRest members
    rw [hb]
    exact this
  | plain =>
    unfold flattenRest members
    rw [hb]
    simp only
    by_cases hit : i.info.isIterator = true
    · simp only [hit, if_true]
      refine Runs.bind (Runs.mapM _ (fun x hx => hfl x (hp.1 _ (.elem ?_)))) (Runs.bind (a := ()) ?_ (Runs.pure _))
      · unfold iterated at hx
        split at hx
        · exact hx
        · exact List.mem_of_mem_take hx
      · refine Runs.ofExcept ?_
        unfold iterErr outcome
        rw [hc.errs]
        cases cfg.maxIter with
        | none => rfl
        | some n =>
          have : (if n ≤ i.elems.length then (none : Option Exc) else none) = none := by split <;> rfl
          simp only [this]
    · simp only [hit, Bool.false_eq_true, if_false]
      by_cases hd : i.info.hasDict = true
      · simp only [hd, if_true]
        exact Runs.bind (entries_gives hfl hr hp.dict _ _) (Runs.pure _)
      · simp only [hd, Bool.false_eq_true, if_false]
        by_cases hs : i.info.hasSlots = true
        · simp only [hs, if_true]
          exact slots_gives hfl hr (fun k v h => hp.1 _ (.attr h)) (fun k v h => hp.1 _ (.dirAttr h)) d
        · simp only [hs, Bool.false_eq_true, if_false]
          by_cases hne : (!d.isEmpty) = true
          · simp only [hne, if_true]; exact Runs.pure _
          · simp only [hne, Bool.false_eq_true, if_false]
            by_cases hu : cfg.unpicklable = true
            · simp only [hu, if_true]; exact Runs.pure _
            · simp only [hu, Bool.false_eq_true, if_false]
              by_cases hred : i.info.reduces = true
              · simp only [hred, if_true]
                cases hrd : i.reduce with
                | nothing => exact Runs.pure _
                | str t => exact Runs.pure _
                | «raise» e =>
                  have := hc.reduce e hrd
                  subst this
                  exact Runs.pure _
                | tup xs =>
                  have hx : ∀ n, R (xs.getD n .none) := by
                    intro n
                    rw [List.getD_eq_getElem?_getD]
                    cases hg : xs[n]? with
                    | none => exact hp.2 _ trivial
                    | some x => exact hp.1 _ (.reduceElem hrd (List.mem_of_getElem? hg))
                  simp only
                  split
                  · exact hfl _ (hx 2)
                  · split
                    · exact hfl _ (hx 1)
                    · exact Runs.pure _
              · simp only [hred, Bool.false_eq_true, if_false]
                exact Runs.pure _

omit hfl hr in
theorem getstate_unfiltered {a : Addr} {i : Inst} {d : List (Str × Json)} {st : Val} (hex : i.exclude = []) (ho : i.info.ownGetstate = true) (hst : i.state = .ok st) :
    flattenGetstate w cfg fl a i d = (if truthy w.heap st then do
          let j ← fl st
          pure (putState cfg j d)
        else flattenRest w cfg fl a i d) := by
  unfold flattenGetstate
  rw [hst, hex, ho]
  simp only [if_true]
  cases st <;> try rfl
  next b =>
    simp only
    cases w.heap[b]? with
    | none => rfl
    | some o => cases o <;> rfl

theorem getstate_gives {a : Addr} {i : Inst} (hp : Parts w R i) (hc : Calm cfg i)
    (hown : Gives I (Pickler.mkref cfg (.dictOf a)) true) (d : List (Str × Json)) :
    Gives I (flattenGetstate w cfg fl a i d) (if i.info.ownGetstate then
      match i.state with
      | .error _ => .null
      | .ok st =>
        if truthy w.heap st then
          if cfg.unpicklable then .obj (put d [(Tags.STATE, ex st)]) else ex st
        else members w cfg ex i d
      else members w cfg ex i d) := by
  by_cases ho : i.info.ownGetstate = true
  · cases hst : i.state with
    | error e =>
      have := hc.state e hst
      subst this
      unfold flattenGetstate
      simp only [ho, if_true, hst]
      exact Runs.pure _
    | ok st =>
      have hex : i.exclude = [] := by
        rcases hc.exclude with h | h
        · exact h
        · rw [ho] at h; cases h
      rw [getstate_unfiltered hex ho hst]
      simp only [ho, if_true]
      by_cases ht : truthy w.heap st = true
      · simp only [ht, if_true]
        refine Runs.bind (hfl st (hp.1 _ (.state hst))) ?_
        unfold putState
        by_cases hu : cfg.unpicklable = true
        · simp only [hu, if_true]; exact Runs.pure _
        · simp only [hu, Bool.false_eq_true, if_false]; exact Runs.pure _
      · simp only [ht, Bool.false_eq_true, if_false]
        exact rest_gives hfl hr hp hc hown d
  · unfold flattenGetstate
    simp only [ho, Bool.false_eq_true, if_false]
    exact rest_gives hfl hr hp hc hown d

theorem body_gives {a : Addr} {i : Inst} (hp : Parts w R i) (hc : Calm cfg i)
    (hown : Gives I (Pickler.mkref cfg (.dictOf a)) true) : Gives I (flattenBody w cfg fl a i) (byState w cfg ex i) := by
  unfold flattenBody byState args
  rw [put_append]
  have hk : objTag cfg i = classTag cfg i := rfl
  rw [hk]
  refine Runs.bind (J := I) (a := put (classTag cfg i) (if i.info.hasNewargsEx then [(Tags.NEWARGSEX, .arr [ex i.newargsEx.1, ex i.newargsEx.2])]
   else if i.info.hasNewargs then [(Tags.NEWARGS, ex i.newargs)] else [])) ?_ ?_
  · unfold flattenNewargs
    rw [hc.errs]
    by_cases h1 : i.info.hasNewargsEx = true
    · simp only [h1, if_true]
      exact Runs.bind (Runs.ofExcept rfl) (Runs.bind (hfl _ (hp.1 _ .newargsEx1)) (Runs.bind (hfl _ (hp.1 _ .newargsEx2)) (Runs.pure _)))
    · simp only [h1, Bool.false_eq_true, if_false]
      by_cases h2 : i.info.hasNewargs = true
      · simp only [h2, if_true]
        exact Runs.bind (Runs.ofExcept rfl) (Runs.bind (hfl _ (hp.1 _ .newargs)) (Runs.pure _))
      · simp only [h2, Bool.false_eq_true, if_false]
        exact Runs.pure _
  · generalize put (classTag cfg i) (if i.info.hasNewargsEx then [(Tags.NEWARGSEX, .arr [ex i.newargsEx.1, ex i.newargsEx.2])]
      else if i.info.hasNewargs then [(Tags.NEWARGS, ex i.newargs)] else []) = d
    refine Runs.bind (J := I) (a := put d (if i.info.hasInitargs then [(Tags.INITARGS, ex i.initargs)] else [])) ?_ ?_
    · unfold flattenInitargs
      rw [hc.errs]
      by_cases h2 : i.info.hasInitargs = true
      · simp only [h2, if_true]
        exact Runs.bind (Runs.ofExcept rfl) (Runs.bind (hfl _ (hp.1 _ .initargs)) (Runs.pure _))
      · simp only [h2, Bool.false_eq_true, if_false]
        exact Runs.pure _
    · exact getstate_gives hfl hr hp hc hown _

omit hfl hr in
theorem marked_eq (xs : List Val) : newobjMark (padReduce xs) = (match (xs ++ List.replicate (6 - xs.length) .none : List Val) with
    | .func n :: r => (if Pickler.shortOf n == p!"__newobj__" then .str Tags.NEWOBJ else .func n) :: r
    | .type n :: r => (if Pickler.shortOf n == p!"__newobj__" then .str Tags.NEWOBJ else .type n) :: r
    | xs => xs) := by
  unfold newobjMark padReduce
  rfl

omit hfl hr in
theorem mem_marked {xs : List Val} {x : Val} (h : x ∈ newobjMark (padReduce xs)) : x ∈ xs ∨ Scalar x := by
  have hpad : ∀ y ∈ padReduce xs, y ∈ xs ∨ Scalar y := by
    intro y hy
    simp only [padReduce, List.mem_append, List.mem_replicate] at hy
    rcases hy with h | h
    · exact .inl h
    · rw [h.2]; exact .inr trivial
  unfold newobjMark at h
  split at h
  · next n r he =>
    rcases List.mem_cons.1 h with h | h
    · split at h
      · rw [h]; exact .inr trivial
      · rw [h]; exact hpad _ (by rw [he]; simp)
    · exact hpad _ (by rw [he]; simp [h])
  · next n r he =>
    rcases List.mem_cons.1 h with h | h
    · split at h
      · rw [h]; exact .inr trivial
      · rw [h]; exact hpad _ (by rw [he]; simp)
    · exact hpad _ (by rw [he]; simp [h])
  · exact hpad _ h

theorem reduce_gives {a : Addr} {i : Inst} (hp : Parts w R i) (hc : Calm cfg i)
    (hown : Gives I (Pickler.mkref cfg (.dictOf a)) true) : Gives I (flattenReduce w cfg fl a i)
      (if cfg.unpicklable && i.info.reduces then
      match i.reduce with
      | .str (some v) => ex v
      | .tup xs => if usesReduce w i xs then recipe ex xs else byState w cfg ex i
      | _ => byState w cfg ex i
      else byState w cfg ex i) := by
  have hb := body_gives (cfg := cfg) hfl hr hp hc hown
  unfold flattenReduce
  by_cases h : (cfg.unpicklable && i.info.reduces) = true
  · simp only [h, if_true]
    cases hrd : i.reduce with
    | nothing => exact hb
    | «raise» e =>
      have := hc.reduce e hrd
      subst this
      exact hb
    | str t =>
      cases t with
      | none => exact hb
      | some v => exact Runs.tryCatch (hfl v (hp.1 _ (.reduceTarget hrd)))
    | tup xs =>
      simp only [usesReduce]
      by_cases he : xs.isEmpty = true
      · simp only [he, if_true, Bool.not_true, Bool.false_and, Bool.false_eq_true, if_false]
        exact hb
      · simp only [he, Bool.false_eq_true, if_false, Bool.not_false, Bool.true_and]
        have hs : reduceSane w i xs = !(truthy w.heap (xs.getD 2 .none) && i.info.ownGetstate && !i.info.hasSetstate && i.info.base != .dict) := rfl
        rw [hs]
        split
        · refine Runs.bind (Runs.mapM _ (fun x hx => hfl x ?_)) ?_
          · rcases mem_marked hx with h | h
            · exact hp.1 _ (.reduceElem hrd h)
            · exact hp.2 _ h
          · exact Runs.pure _
        · exact hb
  · simp only [h, Bool.false_eq_true, if_false]
    exact hb

theorem inst_gives {a : Addr} {i : Inst} (hps : ∀ v, ∃ s, w.pystr v = .ok s) (hp : Parts w R i) (hc : Calm cfg i)
    (hown : Gives I (Pickler.mkref cfg (.dictOf a)) true) : Gives I (flattenInst w cfg fl a i) (inst w cfg ex a i) := by
  unfold flattenInst inst
  rw [hc.errs]
  cases hh : w.handler i.cls with
  | none => exact reduce_gives hfl hr hp hc hown
  | some k =>
    cases k with
    | «opaque» => exact Runs.bind (Runs.ofExcept rfl) (Runs.pure _)
    | drop => exact Runs.bind (Runs.ofExcept rfl) (Runs.pure _)
    | datetime =>
      unfold flattenDate
      rw [hc.errs]
      simp only
      split
      · refine Runs.bind (Runs.mapM (g := ex) _ (fun x hx => ?_)) (Runs.bind (Runs.ofExcept rfl) ?_)
        · obtain ⟨kv, hkv, rfl⟩ := List.mem_map.1 hx
          exact hfl _ (hp.1 _ (.hfield (k := kv.1) (List.mem_of_mem_tail hkv)))
        · rw [List.map_map]
          exact Runs.pure _
      · obtain ⟨t, ht⟩ := hps (.ref a)
        rw [ht]
        exact Runs.bind (Runs.ofExcept rfl) (Runs.bind (Runs.ofExcept rfl) (Runs.pure _))
    | record =>
      simp only
      refine Runs.bind (J := I) (a := put (classTag cfg i) (i.hfields.map (fun kv => (kv.1, ex kv.2)))) ?_ (Runs.bind (Runs.ofExcept rfl) (Runs.pure _))
      have hk : objTag cfg i = classTag cfg i := rfl
      rw [hk]
      have e : ∀ (l : List (Str × Val)) d, put d (l.map (fun kv => (kv.1, ex kv.2))) = l.foldl (fun d kv => dset kv.1 (ex kv.2) d) d := by
        intro l
        induction l with
        | nil => intro d; rfl
        | cons x r ih => intro d; simp only [List.map_cons, put, List.foldl_cons, ih]
      rw [e]
      exact Runs.foldM _ _ (fun d kv h => Runs.bind (hfl _ (hp.1 _ (.hfield h))) (Runs.pure _))

end

/-! ### one level depends only on the values it refers to -/

section
variable {w : World} {cfg : PCfg} {root : Val}

theorem Runs.unique {α : Type} {x : P α} {r r' : α} {I J J' : PState → Prop} {s : PState} (hs : I s) (h : Runs I x r J) (h' : Runs I x r' J') : r = r' := by
  obtain ⟨s1, e1, _⟩ := h s hs
  obtain ⟨s2, e2, _⟩ := h' s hs
  rw [e1] at e2
  injection e2 with e2
  injection e2 with e2 _
  injection e2

theorem mkref_run (href : (cfg.unpicklable && cfg.makeRefs) = false) (id : Ident) (s : PState) : ∃ s', Pickler.mkref cfg id s = some (.ok true, s') ∧
    s' = { s with objs := if s.objs.contains id then s.objs else s.objs ++ [id] } := by
  have hb : (!cfg.unpicklable || !cfg.makeRefs) = true := by
    rw [Bool.and_eq_false_iff] at href
    rcases href with h | h <;> simp [h]
  unfold Pickler.mkref
  by_cases hc : s.objs.contains id = true
  · refine ⟨s, ?_, by rw [if_pos hc]⟩
    rw [bind_ok (a := false) (s' := s) (by unfold logRef; rw [if_pos hc])]
    rw [hb]; rfl
  · refine ⟨{ s with objs := s.objs ++ [id] }, ?_, by rw [if_neg hc]⟩
    rw [bind_ok (a := true) (s' := { s with objs := s.objs ++ [id] }) (by unfold logRef; rw [if_neg hc])]
    rw [hb]; rfl

theorem level_congr (href : (cfg.unpicklable && cfg.makeRefs) = false) (g : Shape w cfg root) {x : Val} (hx : Within w.heap root x) {f f' : Val → Json}
    (h : ∀ y, Touches w.heap x y ∨ Scalar y → f y = f' y) : level w cfg f x = level w cfg f' x := by
  have hf : ∀ y, Touches w.heap x y ∨ Scalar y → Gives (fun _ => True) (pure (f y) : P Json) (f y) := fun y _ => Runs.pure _
  have hf' : ∀ y, Touches w.heap x y ∨ Scalar y → Gives (fun _ => True) (pure (f y) : P Json) (f' y) := fun y hy => by rw [← h y hy]; exact Runs.pure _
  cases x with
  | tuple i xs =>
    have : xs.map f = xs.map f' := List.map_congr_left (fun y hy => h y (.inl (.tuple hy)))
    unfold level; simp only [this]
  | set i xs =>
    have : xs.map f = xs.map f' := List.map_congr_left (fun y hy => h y (.inl (.set hy)))
    unfold level; simp only [this]
  | ref a =>
    obtain ⟨o, ho, hk⟩ := g.cells a hx
    unfold level
    simp only [ho]
    rcases hk with ⟨xs, rfl⟩ | ⟨kvs, rfl⟩ | ⟨i, rfl⟩
    · have : xs.map f = xs.map f' := List.map_congr_left (fun y hy => h y (.inl (.list ho hy)))
      simp only [this]
    · have hm : ∀ k v, (k, v) ∈ kvs → (Touches w.heap (.ref a) k ∨ Scalar k) ∧ (Touches w.heap (.ref a) v ∨ Scalar v) :=
        fun k v hkv => ⟨.inl (.dictKey ho hkv), .inl (.dictVal ho hkv)⟩
      have hk : kept [] kvs = kvs := by
        unfold kept
        refine List.filter_eq_self.2 ?_
        rintro ⟨k, v⟩ _
        cases k <;> rfl
      have e1 := entries_gives (cfg := cfg) hf g.repr hm [] []
      have e2 := entries_gives (cfg := cfg) hf' g.repr hm [] []
      rw [hk] at e1 e2
      have := Runs.unique (s := {}) trivial e1 e2
      simp only [this]
    · have hp : Parts w (fun y => Touches w.heap (.ref a) y ∨ Scalar y) i := ⟨fun y hy => .inl (.inst ho hy), fun y hy => .inr hy⟩
      have hc := g.calm a i hx ho
      have hown : Gives (fun _ => True) (Pickler.mkref cfg (.dictOf a)) true := fun s _ => by
        obtain ⟨s', e, _⟩ := mkref_run href (.dictOf a) s
        exact ⟨s', e, trivial⟩
      exact Runs.unique (s := {}) trivial (inst_gives hf g.repr g.pystr hp hc hown) (inst_gives hf' g.repr g.pystr hp hc hown)
  | _ => rfl

theorem Below.touch {h : Heap} {n : Nat} {x y : Val} (hb : Below h (n + 1) x) (ht : Touches h x y) : Below h n y := hb y ht

theorem Below.mono {h : Heap} : ∀ {n : Nat} {x : Val}, Below h n x → ∀ {m : Nat}, n ≤ m → Below h m x
  | 0, _, hb, _, _ => by cases hb
  | n + 1, x, hb, m, hm => by
    cases m with
    | zero => omega
    | succ m => exact fun y hy => Below.mono (hb y hy) (by omega)

theorem Below.within {h : Heap} {n : Nat} {x y : Val} (hb : Below h n x) (hw : Within h x y) : Below h n y := by
  induction hw with
  | self => exact hb
  | step _ ht ih =>
    cases n with
    | zero => cases ih
    | succ n => exact Below.mono (ih _ ht) (by omega)

theorem Below.acyclic {h : Heap} : ∀ {n : Nat} {x : Val}, Below h n x → ¬ Relation.TransGen (Touches h) x x
  | 0, _, hb, _ => hb
  | n + 1, x, hb, hc => by
    obtain ⟨y, hy, hr⟩ : ∃ y, Touches h x y ∧ Relation.TransGen (Touches h) y y := by
      have : ∀ {z}, Relation.TransGen (Touches h) x z → ∃ y, Touches h x y ∧ (y = z ∨ Relation.TransGen (Touches h) y z) := by
        intro z hz
        induction hz with
        | single h => exact ⟨_, h, .inl rfl⟩
        | tail _ h' ih =>
          obtain ⟨y, h1, h2 | h2⟩ := ih
          · subst h2; exact ⟨_, h1, .inr (.single h')⟩
          · exact ⟨y, h1, .inr (.tail h2 h')⟩
      obtain ⟨y, h1, h2 | h2⟩ := this hc
      · subst h2; exact ⟨_, h1, .single h1⟩
      · exact ⟨y, h1, .tail h2 h1⟩
    exact Below.acyclic (hb y hy) hr

theorem scalar_level {f f' : Val → Json} {x : Val} (hx : Scalar x) : level w cfg f x = level w cfg f' x := by
  cases x <;> first | rfl | cases hx

/-- more levels change nothing -/
theorem doc_stable (href : (cfg.unpicklable && cfg.makeRefs) = false) (g : Shape w cfg root) : ∀ {n : Nat} {x : Val}, Within w.heap root x → Below w.heap n x →
    ∀ {m : Nat}, n < m → doc w cfg m x = level w cfg (doc w cfg m) x
  | 0, _, _, hb, _, _ => by cases hb
  | n + 1, x, hx, hb, m, hm => by
    obtain ⟨m, rfl⟩ : ∃ k, m = k + 1 := ⟨m - 1, by omega⟩
    show level w cfg (doc w cfg m) x = _
    refine level_congr href g hx ?_
    rintro y (hy | hy)
    · rw [doc_stable href g (.step hx hy) (hb y hy) (by omega : n < m)]
      rfl
    · obtain ⟨m, rfl⟩ : ∃ k, m = k + 1 := ⟨m - 1, by omega⟩
      exact scalar_level hy

end

/-! ### tables and cache -/

section
variable {w : World} {cfg : PCfg} {root : Val} {E : Val → Json}

/-- what holds of the encoder's state inside the objects with the identities `op` -/
structure Inv (w : World) (root : Val) (E : Val → Json) (d : Int) (op : List Ident) (s : PState) : Prop where
  depth : s.depth = d
  cache : ∀ p ∈ s.flattened, ∀ x, Within w.heap root x → ¬ Scalar x → x.ident = p.1 → p.2 = E x
  objs : ∀ id ∈ s.objs, (∃ j, (id, j) ∈ s.flattened) ∨ id ∈ op ∨ (∀ x, Within w.heap root x → ¬ Scalar x → x.ident ≠ id)

theorem Inv.more {d : Int} {op : List Ident} {id : Ident} {s : PState} (h : Inv w root E d op s) : Inv w root E d (id :: op) s :=
  ⟨h.depth, h.cache, fun i hi => by
    rcases h.objs i hi with h | h | h
    · exact .inl h
    · exact .inr (.inl (List.mem_cons_of_mem _ h))
    · exact .inr (.inr h)⟩

theorem Inv.mark {d : Int} {op : List Ident} {id : Ident} {s : PState} (h : Inv w root E d op s)
    (hid : id ∈ op ∨ (∀ x, Within w.heap root x → ¬ Scalar x → x.ident ≠ id)) :
    Inv w root E d op { s with objs := if s.objs.contains id then s.objs else s.objs ++ [id] } := by
  refine ⟨h.depth, h.cache, ?_⟩
  intro i hi
  simp only at hi ⊢
  split at hi
  · exact h.objs i hi
  · rcases List.mem_append.1 hi with hi | hi
    · exact h.objs i hi
    · rw [List.mem_singleton] at hi
      subst hi
      exact .inr hid

/-- inside a body: the object is not registered yet, and what it refers to is written correctly -/
theorem by_gives (href : (cfg.unpicklable && cfg.makeRefs) = false) (hmax : cfg.maxDepth = none) (g : Shape w cfg root) {fl : Val → P Json} {x : Val} (hx : Within w.heap root x)
    (hns : ¬ Scalar x) (hnb : ∀ i b, x ≠ .bytes i b ∧ x ≠ .bytearray i b) {d : Int} {op : List Ident}
    (hfl : ∀ y, Touches w.heap x y ∨ Scalar y → Gives (Inv w root E d (x.ident :: op)) (fl y) (E y)) {s : PState}
    (hs : Inv w root E d op s) (hnew : s.objs.contains x.ident = false) :
    ∃ s', flattenBy w cfg fl x s = some (.ok (level w cfg E x), s') ∧ Inv w root E d (x.ident :: op) s' := by
  have hs' := hs.more (id := x.ident)
  have hmark : ∀ id, x.ident = id → ∃ s', Pickler.mkref cfg id s = some (.ok true, s') ∧ Inv w root E d (x.ident :: op) s' := by
    rintro id rfl
    obtain ⟨s', e, he⟩ := mkref_run href x.ident s
    exact ⟨s', e, he ▸ hs'.mark (.inl (by simp))⟩
  have href' : ∀ (id : Ident) (isEnum : Bool) (body : P Json) (r : Json), x.ident = id → Gives (Inv w root E d (x.ident :: op)) body r →
      ∃ s', refObjInstance cfg id isEnum body s = some (.ok r, s') ∧ Inv w root E d (x.ident :: op) s' := by
    intro id isEnum body r hid hb
    obtain ⟨s1, e1, h1⟩ := hmark id hid
    obtain ⟨s2, e2, h2⟩ := hb s1 h1
    refine ⟨s2, ?_, h2⟩
    unfold refObjInstance
    by_cases hu : cfg.unpicklable = true
    · rw [if_pos hu, bind_ok e1]
      exact e2
    · rw [if_neg hu]
      have em : maxReached cfg s = some (.ok false, s) := by
        unfold maxReached; rw [hmax]; rfl
      rw [bind_ok em]
      have ec : inCycle id isEnum false false s = some (.ok false, s) := by
        unfold inCycle
        rw [← hid, hnew]
        rfl
      rw [bind_ok ec]
      simp only [Bool.false_eq_true, if_false]
      rw [bind_ok e1]
      exact e2
  have hmap : ∀ xs : List Val, (∀ y ∈ xs, Touches w.heap x y ∨ Scalar y) → Gives (Inv w root E d (x.ident :: op)) (PyM.mapM fl xs) (xs.map E) :=
    fun xs h => Runs.mapM _ (fun y hy => hfl y (h y hy))
  cases x with
  | none | bool | int | float | str => exact absurd trivial hns
  | bytes i b => exact absurd rfl (hnb i b).1
  | bytearray i b => exact absurd rfl (hnb i b).2
  | lambda i => exact ⟨s, rfl, hs'⟩
  | func n => exact ⟨s, rfl, hs'⟩
  | type n => exact ⟨s, rfl, hs'⟩
  | module n =>
    refine href' (.mod n) false _ _ rfl ?_
    unfold flattenModule
    by_cases hu : cfg.unpicklable = true
    · simp only [hu, if_true, level]; exact Runs.pure _
    · obtain ⟨t, ht⟩ := g.pystr (.module n)
      simp only [hu, Bool.false_eq_true, if_false, level, ht]
      exact Runs.bind (Runs.ofExcept rfl) (Runs.pure _)
  | tuple i xs =>
    obtain ⟨s2, e2, h2⟩ := hmap xs (fun y hy => .inl (.tuple hy)) s hs'
    refine ⟨s2, ?_, h2⟩
    unfold flattenBy level
    simp only
    rw [bind_ok e2]
    rfl
  | set i xs =>
    obtain ⟨s2, e2, h2⟩ := hmap xs (fun y hy => .inl (.set hy)) s hs'
    refine ⟨s2, ?_, h2⟩
    unfold flattenBy level
    simp only
    rw [bind_ok e2]
    rfl
  | ref a =>
    obtain ⟨o, ho, hk⟩ := g.cells a hx
    unfold flattenBy level
    simp only [ho]
    obtain ⟨s1, e1, h1⟩ := hmark (.addr a) rfl
    rcases hk with ⟨xs, rfl⟩ | ⟨kvs, rfl⟩ | ⟨i, rfl⟩
    · obtain ⟨s2, e2, h2⟩ := hmap xs (fun y hy => .inl (.list ho hy)) s1 h1
      refine ⟨s2, ?_, h2⟩
      simp only
      rw [bind_ok e1]
      simp only [if_true]
      rw [bind_ok e2]
      rfl
    · have hm : ∀ k v, (k, v) ∈ kvs → (Touches w.heap (.ref a) k ∨ Scalar k) ∧ (Touches w.heap (.ref a) v ∨ Scalar v) :=
        fun k v hkv => ⟨.inl (.dictKey ho hkv), .inl (.dictVal ho hkv)⟩
      have hk : kept [] kvs = kvs := by
        unfold kept
        refine List.filter_eq_self.2 ?_
        rintro ⟨k, v⟩ _
        cases k <;> rfl
      have e := entries_gives (cfg := cfg) hfl g.repr hm [] []
      rw [hk] at e
      obtain ⟨s2, e2, h2⟩ := e s1 h1
      refine ⟨s2, ?_, h2⟩
      simp only
      rw [bind_ok e1]
      simp only [if_true]
      rw [bind_ok e2]
      rfl
    · have hp : Parts w (fun y => Touches w.heap (.ref a) y ∨ Scalar y) i := ⟨fun y hy => .inl (.inst ho hy), fun y hy => .inr hy⟩
      have hc := g.calm a i hx ho
      refine href' (.addr a) i.info.isEnum _ _ rfl (inst_gives hfl g.repr g.pystr hp hc ?_)
      intro s hs
      obtain ⟨s', e, he⟩ := mkref_run href (.dictOf a) s
      exact ⟨s', e, he ▸ hs.mark (.inr (fun y _ _ => by cases y <;> simp [Val.ident]))⟩

/-- the encoder on an object that is not registered, before the result is cached -/
theorem impl_gives (href : (cfg.unpicklable && cfg.makeRefs) = false) (hmax : cfg.maxDepth = none) (g : Shape w cfg root) {fl : Val → P Json} {x : Val} (hx : Within w.heap root x)
    (hns : ¬ Scalar x) {d : Int} {op : List Ident}
    (hfl : ∀ y, Touches w.heap x y ∨ Scalar y → Gives (Inv w root E (d + 1) (x.ident :: op)) (fl y) (E y)) {s : PState}
    (hs : Inv w root E d op s) (hnew : s.objs.contains x.ident = false) :
    ∃ s', flattenImpl w cfg fl x s = some (.ok (level w cfg E x), s') ∧
      (d = -1 → s = {} → s' = {}) ∧ (d ≠ -1 → Inv w root E d (x.ident :: op) s') := by
  by_cases hb : (∃ i b, x = .bytes i b) ∨ ∃ i b, x = .bytearray i b
  · rcases hb with ⟨i, b, rfl⟩ | ⟨i, b, rfl⟩ <;> exact ⟨s, rfl, fun _ h => h, fun _ => hs.more⟩
  · have hnb : ∀ i b, x ≠ .bytes i b ∧ x ≠ .bytearray i b := fun i b => ⟨fun h => hb (.inl ⟨i, b, h⟩), fun h => hb (.inr ⟨i, b, h⟩)⟩
    have e : flattenImpl w cfg fl x = (do push; let j ← flattenObj w cfg fl x; pop j) := by
      cases x <;> first | rfl | exact absurd trivial hns | exact absurd rfl (hnb _ _).1 | exact absurd rfl (hnb _ _).2
    let s1 : PState := { s with depth := s.depth + 1 }
    let s2 : PState := { s1 with seen := s1.seen ++ [x] }
    have h2 : Inv w root E (d + 1) op s2 := ⟨by show s.depth + 1 = d + 1; rw [hs.depth], hs.cache, hs.objs⟩
    obtain ⟨s3, e3, h3⟩ := by_gives href hmax g hx hns hnb hfl h2 hnew
    have eo : flattenObj w cfg fl x s1 = some (.ok (level w cfg E x), s3) := by
      unfold flattenObj flattenObjWith
      rw [bind_ok (a := ()) (s' := s2) rfl]
      have em : maxReached cfg s2 = some (.ok false, s2) := by
        unfold maxReached; rw [hmax]; rfl
      rw [bind_ok em]
      have ec : inCycle x.ident (isEnumV w x) false cfg.makeRefs s2 = some (.ok false, s2) := by
        have : s2.objs.contains x.ident = false := hnew
        unfold inCycle
        rw [this]
        simp
      unfold PyM.tryCatch
      rw [bind_ok ec]
      simp only [Bool.false_eq_true, if_false]
      rw [e3]
    rw [e, bind_ok (a := ()) (s' := s1) rfl, bind_ok eo]
    have hd : s3.depth - 1 = d := by rw [h3.depth]; omega
    unfold pop
    by_cases hm : d = -1
    · refine ⟨{}, ?_, fun _ _ => rfl, fun h => absurd hm h⟩
      simp only [hd, hm]
      rfl
    · refine ⟨{ s3 with depth := s3.depth - 1 }, ?_, fun h => absurd h hm, fun _ => ⟨hd, h3.cache, h3.objs⟩⟩
      have : (s3.depth - 1 == -1) = false := by rw [hd]; simpa using hm
      simp only [this, Bool.false_eq_true, if_false]

theorem step_eq {fl : Val → P Json} {x : Val} (hns : ¬ Scalar x) : flattenStep w cfg fl x = cached cfg x.ident (flattenImpl w cfg fl x) := by
  cases x <;> first | rfl | exact absurd trivial hns

theorem step_gives (href : (cfg.unpicklable && cfg.makeRefs) = false) (hmax : cfg.maxDepth = none) (g : Shape w cfg root) {fl : Val → P Json} {x : Val} (hx : Within w.heap root x)
    (hE : E x = level w cfg E x) {d : Int} (hd : d ≠ -1) {op : List Ident} (hop : ¬ Scalar x → x.ident ∉ op)
    (hfl : ¬ Scalar x → ∀ y, Touches w.heap x y ∨ Scalar y → Gives (Inv w root E (d + 1) (x.ident :: op)) (fl y) (E y)) :
    Gives (Inv w root E d op) (flattenStep w cfg fl x) (E x) := by
  by_cases hns : Scalar x
  · rw [hE]
    intro s hs
    refine ⟨s, ?_, hs⟩
    cases x <;> first | rfl | cases hns
  · intro s hs
    rw [step_eq hns]
    unfold cached
    rw [if_neg (by rw [href]; simp), bind_ok (a := s) (s' := s) rfl]
    cases hf : s.flattened.find? (fun p => p.1 == x.ident) with
    | some p =>
      have h1 := List.mem_of_find?_eq_some hf
      have h2 := List.find?_some hf
      simp only [beq_iff_eq] at h2
      exact ⟨s, by simp only; rw [hs.cache p h1 x hx hns h2.symm]; rfl, hs⟩
    | none =>
      have hnew : s.objs.contains x.ident = false := by
        cases hc : s.objs.contains x.ident with
        | false => rfl
        | true =>
          rw [List.contains_iff_mem] at hc
          rcases hs.objs _ hc with ⟨j, hj⟩ | h | h
          · have := List.find?_eq_none.1 hf _ hj
            simp at this
          · exact absurd h (hop hns)
          · exact absurd rfl (h x hx hns)
      obtain ⟨s1, e1, _, h1⟩ := impl_gives href hmax g hx hns (hfl hns) hs hnew
      have h1 := h1 hd
      refine ⟨{ s1 with flattened := (x.ident, level w cfg E x) :: s1.flattened }, ?_, h1.depth, ?_, ?_⟩
      · simp only
        rw [bind_ok e1, hE]
        rfl
      · intro p hp y hy hys hi
        rcases List.mem_cons.1 hp with rfl | hp
        · rw [g.ids y x hy hx hys hi]
          exact hE.symm
        · exact h1.cache p hp y hy hys hi
      · intro id hi
        rcases h1.objs id hi with ⟨j, hj⟩ | h | h
        · exact .inl ⟨j, List.mem_cons_of_mem _ hj⟩
        · rcases List.mem_cons.1 h with rfl | h
          · exact .inl ⟨level w cfg E x, List.mem_cons_self ..⟩
          · exact .inr (.inl h)
        · exact .inr (.inr h)

/-- the objects with these identities contain `x` -/
def Around (w : World) (root : Val) (op : List Ident) (x : Val) : Prop :=
  ∀ id ∈ op, ∃ z, Within w.heap root z ∧ ¬ Scalar z ∧ z.ident = id ∧ Relation.TransGen (Touches w.heap) z x

theorem Around.child {op : List Ident} {x y : Val} (hx : Within w.heap root x) (hns : ¬ Scalar x) (h : Around w root op x) (hy : Touches w.heap x y) :
    Around w root (x.ident :: op) y := by
  intro id hid
  rcases List.mem_cons.1 hid with rfl | hid
  · exact ⟨x, hx, hns, rfl, .single hy⟩
  · obtain ⟨z, h1, h2, h3, h4⟩ := h id hid
    exact ⟨z, h1, h2, h3, .tail h4 hy⟩

theorem Around.notin (g : Shape w cfg root) {op : List Ident} {x : Val} {n : Nat} (hx : Within w.heap root x) (hb : Below w.heap n x)
    (h : Around w root op x) : x.ident ∉ op := by
  intro hid
  obtain ⟨z, h1, h2, h3, h4⟩ := h _ hid
  have := g.ids z x h1 hx h2 h3
  subst this
  exact hb.acyclic h4

theorem scalar_gives {I : PState → Prop} {m : Nat} {y : Val} (hs : Scalar y) (hE : E y = level w cfg E y) (hm : 0 < m) : Gives I (flatten w cfg m y) (E y) := by
  obtain ⟨m, rfl⟩ : ∃ k, m = k + 1 := ⟨m - 1, by omega⟩
  rw [hE]
  intro s hs'
  refine ⟨s, ?_, hs'⟩
  unfold flatten
  cases y <;> first | rfl | cases hs

theorem flatten_gives (href : (cfg.unpicklable && cfg.makeRefs) = false) (hmax : cfg.maxDepth = none) (g : Shape w cfg root)
    (hE : ∀ x, Within w.heap root x ∨ Scalar x → E x = level w cfg E x) : ∀ {n : Nat} {x : Val}, Within w.heap root x → Below w.heap n x →
    ∀ {m : Nat}, n < m → ∀ {d : Int}, 0 ≤ d → ∀ {op : List Ident}, Around w root op x →
    Gives (Inv w root E d op) (flatten w cfg m x) (E x)
  | 0, _, _, hb, _, _, _, _, _, _ => by cases hb
  | n + 1, x, hx, hb, m, hm, d, hd, op, hop => by
    obtain ⟨m, rfl⟩ : ∃ k, m = k + 1 := ⟨m - 1, by omega⟩
    refine step_gives href hmax g hx (hE x (.inl hx)) (by omega) (fun _ => hop.notin g hx hb) ?_
    rintro hns y (hy | hy)
    · exact flatten_gives href hmax g hE (.step hx hy) (hb y hy) (by omega) (by omega) (hop.child hx hns hy)
    · exact scalar_gives hy (hE y (.inr hy)) (by omega)

/-- The whole call, from a new state. -/
theorem flatten_root (href : (cfg.unpicklable && cfg.makeRefs) = false) (hmax : cfg.maxDepth = none) (g : Shape w cfg root)
    (hE : ∀ x, Within w.heap root x ∨ Scalar x → E x = level w cfg E x) {n : Nat} (hb : Below w.heap n root) {m : Nat} (hm : n < m) :
    flatten w cfg m root {} = some (.ok (E root), if root.ident.isScalar = true then {} else { flattened := [(root.ident, E root)] }) := by
  obtain ⟨m, rfl⟩ : ∃ k, m = k + 1 := ⟨m - 1, by omega⟩
  by_cases hns : Scalar root
  · rw [hE _ (.inr hns)]
    unfold flatten
    cases root <;> first | rfl | cases hns
  · have hi : ¬ root.ident.isScalar = true := by
      cases root <;> first | exact absurd trivial hns | (simp [Val.ident, Ident.isScalar])
    rw [if_neg hi]
    unfold flatten
    rw [step_eq hns]
    unfold cached
    rw [if_neg (by rw [href]; simp), bind_ok (a := ({} : PState)) (s' := {}) rfl]
    have h0 : Inv w root E (-1) [] ({} : PState) := ⟨rfl, (fun p hp => by cases hp), (fun i hi => by cases hi)⟩
    obtain ⟨s1, e1, h1, _⟩ := impl_gives (fl := flatten w cfg m) href hmax g (x := root) .self hns (d := -1) (op := []) (by
      rintro y (hy | hy)
      · obtain ⟨n, rfl⟩ : ∃ k, n = k + 1 := ⟨n - 1, by cases n with | zero => cases hb | succ n => omega⟩
        have h : Around w root [] root := fun _ h => by cases h
        exact flatten_gives href hmax g hE (.step .self hy) (hb y hy) (by omega) (by omega) (h.child .self hns hy)
      · have hn : 0 < n := by cases n with | zero => cases hb | succ n => omega
        exact scalar_gives hy (hE y (.inr hy)) (by omega)) h0 rfl
    have := h1 rfl rfl
    subst this
    show (flattenImpl w cfg (flatten w cfg m) root >>= fun j => PyM.modify (fun s => { s with flattened := (root.ident, j) :: s.flattened }) >>= fun _ => pure j) ({} : PState) = _
    rw [bind_ok (a := E root) (s' := ({} : PState)) ?_]
    · rfl
    · rw [hE _ (.inl .self)]; exact e1

end
end JP.Expand
