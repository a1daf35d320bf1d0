import Verif.KeySpec
import Verif.Proofs.Post
import Verif.Proofs.Run
/-!
# C24 — `_jsonpickle_exclude`

Excluded attributes of ordinary instances, of instances of dict subclasses, of slots classes, and of dict states returned by
`__getstate__`, are not written.  For subclasses of list, set and tuple the exclude list is ignored (witness).
-/
namespace JP.C24
open JP Pickler Sample

/-- the keys of a JSON object -/
def keysOf : Json → List Str
  | .obj kvs => kvs.map (·.1)
  | _ => []

/-- the value under a key of a JSON object -/
def sub (k : Str) : Json → Json
  | .obj kvs => (dget k kvs).getD .null
  | _ => .null

/-- `e` is an excluded name of the object in cell `a`, an instance without handler and reduce value, not of a list, set or
tuple subclass, whose `__getstate__`, if any, returns a dict.  `e` is not one of the names jsonpickle itself writes. -/
structure Excluded (w : World) (cfg : PCfg) (a : Addr) (i : Inst) (e : Str) : Prop where
  cell : w.heap[a]? = some (.inst i)
  listed : e ∈ i.exclude
  handler : w.handler i.cls = none
  reduces : i.info.reduces = false
  base : i.info.base = .plain ∨ i.info.base = .dict
  state : i.info.ownGetstate = true → ∃ (d : Addr) (kvs : List (Val × Val)), i.state = .ok (.ref d) ∧ w.heap[d]? = some (.dict kvs)
  tag : e ∉ Tags.all
  name : e ≠ p!"default_factory" ∧ e ≠ p!"__dict__"
  escape : cfg.keys = true → startsWith e Tags.JSON_KEY = false
  repr : cfg.keys = false → ∀ k, (∀ s, k ≠ .str s) → ¬ KeyText w k e ∧ ¬ KeyText w k Tags.STATE

variable {w : World} {cfg : PCfg} {fl : Val → P Json} {a : Addr} {i : Inst} {e : Str}

theorem keyP (h : Excluded w cfg a i e) {k : Val} (hk : k ≠ .str e) : KeyP w cfg (· ≠ e) k where
  str s hs _ _ he := hk (he ▸ hs)
  repr hc hn s hr he := (h.repr hc k hn).1 (he ▸ reprKey_text hr)
  esc hc t he := by
    have h1 := h.escape hc
    rw [← he] at h1
    have h2 : startsWith (Tags.JSON_KEY ++ t) Tags.JSON_KEY = true := by simp [startsWith]
    rw [h2] at h1
    cases h1

theorem items_ne (h : Excluded w cfg a i e) (kvs : List (Val × Val)) : ∀ kv ∈ itemsExcl i.exclude kvs, KeyP w cfg (· ≠ e) kv.1 := by
  intro kv hkv
  refine keyP h ?_
  intro heq
  have := (List.mem_filter.1 hkv).2
  rw [heq] at this
  simp [h.listed] at this

theorem ne_tag (h : Excluded w cfg a i e) {k : Str} (hk : k ∈ Tags.all) : k ≠ e := by
  rintro rfl; exact h.tag hk

/-- the conclusion: `e` is not a key of the object, of its `__dict__`, or of its state -/
def Absent (i : Inst) (e : Str) (j : Json) : Prop :=
  e ∉ keysOf j ∧
  (i.info.base = .dict → i.info.hasDict = true → i.eqOwnDict = false → e ∉ keysOf (sub p!"__dict__" j)) ∧
  e ∉ keysOf (sub Tags.STATE j)

/-- not a key, and the state is not there -/
def NoE (e : Str) (d : List (Str × Json)) : Prop := KeysP (fun k => k ≠ e ∧ k ≠ Tags.STATE) d

theorem NoE.keys {d : List (Str × Json)} (h : NoE e d) : e ∉ keysOf (.obj d) := by
  intro hm
  exact (h e hm).1 rfl

theorem NoE.state {d : List (Str × Json)} (h : NoE e d) : e ∉ keysOf (sub Tags.STATE (.obj d)) := by
  have : dget Tags.STATE d = none := (dget_eq_none_iff _ _).2 (fun hm => (h _ hm).2 rfl)
  simp [sub, this, keysOf]

theorem keyP2 (h : Excluded w cfg a i e) {k : Val} (hk : KeyP w cfg (· ≠ e) k) :
    KeyP w cfg (fun k => k ≠ e ∧ k ≠ Tags.STATE) k where
  str s hs h1 h2 := ⟨hk.str s hs h1 h2, by rintro rfl; revert h1; decide⟩
  repr hc hn s hs := ⟨hk.repr hc hn s hs, by rintro rfl; exact (h.repr hc k hn).2 (reprKey_text hs)⟩
  esc hc t := ⟨hk.esc hc t, by
    have : ∀ t, Tags.JSON_KEY ++ t ≠ Tags.STATE := by
      intro t h
      have h1 : startsWith Tags.STATE Tags.JSON_KEY = true := by rw [← h]; simp [startsWith]
      revert h1; decide
    exact this t⟩

theorem NoE.dset {d : List (Str × Json)} (h : NoE e d) {k : Str} {j : Json} (h1 : k ≠ e) (h2 : k ≠ Tags.STATE) : NoE e (dset k j d) :=
  KeysP.dset h ⟨h1, h2⟩

section
variable (h : Excluded w cfg a i e) (hu : cfg.unpicklable = true) (hm : cfg.makeRefs = true) (hf : cfg.failSafe = none)
 
include h

theorem post_entriesE {kvs : List (Val × Val)} {d : List (Str × Json)} (hd : NoE e d) :
    Post (flattenEntries w cfg fl kvs i.exclude d) (NoE e) :=
  post_entries KeysP.grows (fun kv hkv => keyP2 h (items_ne h kvs kv hkv)) hd

theorem post_default {d : List (Str × Json)} (hd : NoE e d) : Post (flattenDefault w cfg fl i.factory (outcome i.errs.factory i.exemplar) d) (NoE e) := by
  unfold flattenDefault
  split
  · exact Post.pure hd
  · refine Post.seq (fun j => Post.pure ?_)
    split
    · exact hd.dset (ne_tag h (by decide)) (by decide)
    · exact hd.dset (fun heq => h.name.1 heq.symm) (by decide)

theorem post_ownDict {d : List (Str × Json)} (hd : NoE e d) (hu : cfg.unpicklable = true) :
    Post (flattenOwnDict w cfg fl a i i.exclude d) (fun d => NoE e d ∧ (i.info.hasDict = true → i.eqOwnDict = false → e ∉ keysOf (sub p!"__dict__" (.obj d)))) := by
  unfold flattenOwnDict
  split
  · refine Post.seq (fun b => ?_)
    split
    · refine Post.bind (post_entriesE h (d := []) (fun k hk => by cases hk)) (fun dd hdd => Post.pure ⟨?_, ?_⟩)
      · exact hd.dset (fun heq => h.name.2 heq.symm) (by decide)
      · intro _ _
        simp only [sub, dget_dset_same, Option.getD_some]
        exact hdd.keys
    · refine Post.bind (Q := fun r => e ∉ keysOf r) ?_ (fun r hr' => Post.pure ⟨?_, ?_⟩)
      · intro s r s' hs
        cases hs
        simp only [keysOf, List.map_cons, List.map_nil, List.mem_singleton]
        intro heq
        exact h.tag (by rw [heq]; decide)
      · exact hd.dset (fun heq => h.name.2 heq.symm) (by decide)
      · intro _ _
        simpa only [sub, dget_dset_same, Option.getD_some] using hr'
  · next hc =>
    refine Post.pure ⟨hd, fun h1 h2 => ?_⟩
    simp [h1, h2, hu] at hc

include hu

theorem post_rest {d : List (Str × Json)} (hd : NoE e d) (hd1 : d ≠ []) : Post (flattenRest w cfg fl a i d) (Absent i e) := by
  unfold flattenRest
  rcases h.base with hb | hb
  · have hnd : i.info.base ≠ .dict := by rw [hb]; decide
    have fin : ∀ {d : List (Str × Json)}, NoE e d → Absent i e (.obj d) := fun hd => ⟨hd.keys, fun hx => absurd hx hnd, hd.state⟩
    simp only [hb]
    split
    · exact Post.seq (fun js => Post.seq (fun _ => Post.pure (fin (hd.dset (ne_tag h (by decide)) (by decide)))))
    · split
      · exact Post.bind (post_entriesE h hd) (fun d' hd' => Post.pure (fin hd'))
      · split
        · unfold flattenSlots
          have hk : ∀ k : Str, k ∉ i.exclude → Tags.isReserved k = false → k ≠ e ∧ k ≠ Tags.STATE :=
            fun k h1 h2 => ⟨by rintro rfl; exact h1 h.listed, by rintro rfl; revert h2; decide⟩
          refine Post.bind (post_objAttrs KeysP.grows (K := fun k => k ≠ e ∧ k ≠ Tags.STATE) (fun k _ => hk k) hd) (fun r hr1 => ?_)
          split
          · exact Post.pure (fin hr1)
          · refine Post.bind (post_objAttrs KeysP.grows (K := fun k => k ≠ e ∧ k ≠ Tags.STATE) (fun k _ => hk k) hr1) (fun r hr2 => ?_)
            exact Post.pure (fin hr2)
        · have hde : d.isEmpty = false := by cases d with | nil => exact absurd rfl hd1 | cons => rfl
          rw [if_pos (by simp [hde])]
          exact Post.pure (fin hd)
  · simp only [hb]
    unfold flattenDictSub
    refine Post.bind (Q := fun d => NoE e d ∧ (i.info.hasDict = true → i.eqOwnDict = false → e ∉ keysOf (sub p!"__dict__" (.obj d))))
      ?_ (fun d3 hd3 => Post.pure ?_)
    · exact Post.bind (post_entriesE h hd) (fun d1 hd1 => Post.bind (post_default h hd1) (fun d2 hd2 => post_ownDict h hd2 hu))
    · exact ⟨hd3.1.keys, fun _ h1 h2 => hd3.2 h1 h2, hd3.1.state⟩

include hm hf

theorem post_filtered {kvs : List (Val × Val)} : Post (flattenFilteredState w cfg fl a kvs i.exclude) (fun j => e ∉ keysOf j) := by
  unfold flattenFilteredState cached
  rw [if_pos (by simp [hu, hm])]
  refine Post.seq (fun _ => Post.bind (Q := fun j => e ∉ keysOf j) ?_ (fun j hj => ?_))
  · unfold flattenObjWith
    refine Post.seq (fun _ => Post.seq (fun mx => Post.tryCatch (Post.seq (fun cyc => ?_)) (fun ex => ?_)))
    · split
      · exact Post.seq (fun r => Post.pure (by simp [keysOf]))
      · refine Post.seq (fun new => ?_)
        split
        · refine Post.bind (Q := NoE e) (post_entries KeysP.grows (fun kv hkv => ?_) (fun k hk => by cases hk)) (fun d hd => Post.pure hd.keys)
          exact keyP2 h (items_ne h kvs kv (List.mem_filter.1 hkv).1)
        · intro s r s' hs
          cases hs
          simp only [keysOf, List.map_cons, List.map_nil, List.mem_singleton]
          intro heq
          exact h.tag (by rw [heq]; decide)
    · rw [hf]; exact Post.throw
  · intro s r s' hs
    cases hs
    exact hj

theorem post_inst : Post (flattenInst w cfg fl a i) (Absent i e) := by
  unfold flattenInst
  rw [h.handler]
  simp only
  unfold flattenReduce
  rw [h.reduces]
  simp only [Bool.and_false, Bool.false_eq_true, if_false]
  unfold flattenBody
  have h0 : NoE e (objTag cfg i) ∧ objTag cfg i ≠ [] ∧ dget p!"__dict__" (objTag cfg i) = none := by
    unfold objTag
    rw [if_pos hu]
    refine ⟨?_, by simp, rfl⟩
    intro k hk
    simp only [List.map_cons, List.map_nil, List.mem_singleton] at hk
    subst hk
    exact ⟨ne_tag h (by decide), by decide⟩
  have dne : ∀ {k : Str} {j : Json} {d : List (Str × Json)}, dset k j d ≠ [] := by
    intro k j d hd
    have : dget k (dset k j d) = some j := dget_dset_same _ _ _
    rw [hd] at this
    cases this
  refine Post.bind (Q := fun d => NoE e d ∧ d ≠ [] ∧ dget p!"__dict__" d = none) ?_ (fun d1 hd1 => Post.bind (Q := fun d => NoE e d ∧ d ≠ [] ∧ dget p!"__dict__" d = none) ?_ (fun d2 hd2 => ?_))
  · unfold flattenNewargs
    split
    · exact Post.seq (fun _ => Post.seq (fun _ => Post.seq (fun _ => Post.pure ⟨h0.1.dset (ne_tag h (by decide)) (by decide), dne, by rw [dget_dset_ne (by decide)]; exact h0.2.2⟩)))
    · split
      · exact Post.seq (fun _ => Post.seq (fun _ => Post.pure ⟨h0.1.dset (ne_tag h (by decide)) (by decide), dne, by rw [dget_dset_ne (by decide)]; exact h0.2.2⟩))
      · exact Post.pure h0
  · unfold flattenInitargs
    split
    · exact Post.seq (fun _ => Post.seq (fun _ => Post.pure ⟨hd1.1.dset (ne_tag h (by decide)) (by decide), dne, by rw [dget_dset_ne (by decide)]; exact hd1.2.2⟩))
    · exact Post.pure hd1
  · unfold flattenGetstate
    split
    · next hg =>
      obtain ⟨d, kvs, h1, h2⟩ := h.state hg
      have hne : i.exclude.isEmpty = false := by
        have := h.listed
        cases hx : i.exclude with
        | nil => rw [hx] at this; cases this
        | cons => rfl
      simp only [h1, h2, hne, Bool.false_eq_true, if_false]
      split
      · exact post_rest h hu hd2.1 hd2.2.1
      · refine Post.bind (post_filtered h hu hm hf) (fun j hj => Post.pure ?_)
        unfold putState
        rw [if_pos hu]
        refine ⟨?_, ?_, ?_⟩
        · intro hx
          obtain ⟨kv, q1, q2⟩ := List.mem_map.1 hx
          rcases Logic.mem_dset q1 with q | q
          · rw [q] at q2
            exact h.tag (q2 ▸ (by decide : Tags.STATE ∈ Tags.all))
          · exact (hd2.1 kv.1 (List.mem_map.2 ⟨kv, q, rfl⟩)).1 q2
        · intro _ _ _
          simp only [sub]
          rw [dget_dset_ne (by decide), hd2.2.2]
          simp [keysOf]
        · simpa only [sub, dget_dset_same, Option.getD_some] using hj
    · exact post_rest h hu hd2.1 hd2.2.1

end

/-- An excluded attribute is not among the keys of the object's document, nor of the sub-documents that hold its `__dict__` and its
state.  The statement is about any call of the encoder that writes the object (`_flatten`, pickler.py:340), with references on.
Missing from the full property: objects with a handler or a reduce value, whose document is made from what those return;
subclasses of list, set and tuple (false, see `list_subclass_ignores_exclude`); `fail_safe`. -/
theorem exclude_partial (h : Excluded w cfg a i e) (hu : cfg.unpicklable = true) (hm : cfg.makeRefs = true)
    (hf : cfg.failSafe = none) (n : Nat) (s s' : PState) (j : Json) (hj : flatten w cfg n (.ref a) s = some (.ok j, s')) :
    Absent i e j := by
  have key : ∀ fl, Post (flattenStep w cfg fl (.ref a)) (Absent i e) := by
    intro fl
    have href : ∀ id, Post (getref id) (Absent i e) := by
      intro id s r s' hs
      cases hs
      refine ⟨?_, ?_, ?_⟩
      · simp only [keysOf, List.map_cons, List.map_nil, List.mem_singleton]
        intro heq
        exact h.tag (heq ▸ (by decide : Tags.ID ∈ Tags.all))
      · intro _ _ _; simp [sub, keysOf, dget, Tags.ID]
      · simp [sub, keysOf, dget, Tags.ID, Tags.STATE]
    unfold flattenStep cached flattenImpl
    simp only [hu, hm, Bool.and_self, if_true]
    refine Post.seq (fun _ => Post.bind (Q := Absent i e) ?_ (fun j hj => ?_))
    · unfold flattenObj flattenObjWith
      refine Post.seq (fun _ => Post.seq (fun mx => Post.tryCatch (Post.seq (fun cyc => ?_)) (fun ex => ?_)))
      · split
        · exact Post.seq (fun r => Post.pure ⟨by simp [keysOf], by simp [keysOf, sub], by simp [keysOf, sub]⟩)
        · unfold flattenBy
          simp only [h.cell]
          unfold refObjInstance
          rw [if_pos hu]
          refine Post.seq (fun new => ?_)
          split
          · exact post_inst h hu hm hf
          · exact href _
      · rw [hf]; exact Post.throw
    · intro s r s' hs
      cases hs
      exact hj
  cases n with
  | zero => cases hj
  | succ n => exact key _ s j s' hj

/-- An object with attributes `a`, `b` and `_jsonpickle_exclude = ["a"]` meets the hypotheses, and is encoded. -/
example : ∃ (w : World) (cfg : PCfg) (i : Inst) (j : Json) (s' : PState), Excluded w cfg 0 i p!"a" ∧
    flatten w cfg 5 (.ref 0) {} = some (.ok j, s') ∧ keysOf j = [Tags.OBJECT, p!"b"] := by
  refine ⟨program.world [.inst { cls := p!"m.C", attrs := [(p!"a", .int 1), (p!"b", .int 2)], exclude := [p!"a"] }], {}, _,
    .obj [(Tags.OBJECT, .str p!"m.C"), (p!"b", .int 2)], _, ⟨rfl, by decide, rfl, rfl, .inl rfl, (fun h => by cases h), by decide, by decide,
      (fun h => by cases h), ?_⟩, rfl, rfl⟩
  intro _ k hk
  have hR : ∀ t, KeyText (program.world [.inst { cls := p!"m.C", attrs := [(p!"a", .int 1), (p!"b", .int 2)], exclude := [p!"a"] }]) k t → t ≠ p!"a" ∧ t ≠ Tags.STATE :=
    fun t h => h.all_of (Q := fun t => t ≠ p!"a" ∧ t ≠ Tags.STATE) (by decide +kernel) (fun _ _ h => by cases h; decide +kernel) (fun _ _ h => by cases h; decide +kernel) hk
  exact ⟨fun h => (hR _ h).1 rfl, fun h => (hR _ h).2 rfl⟩

/-- `x` of a list subclass with `x.a = 1` and `_jsonpickle_exclude = ["a"]` comes back with the attribute `a`. -/
theorem list_subclass_ignores_exclude : program.TripsTo
    [.inst { cls := p!"m.L", info := infoL, attrs := [(p!"a", .int 1)], exclude := [p!"a"] }] {} (.ref 0) (.ref 1)
    [.proxy, .inst p!"m.L" [(p!"a", .int 1)] [] []] :=
  Program.tripsTo 10 (by decide +kernel)

end JP.C24
