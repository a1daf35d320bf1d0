import Verif.KeySpec
import Verif.Proofs.Post
import Verif.Proofs.Run
/-!
# C25 — user data cannot masquerade as a tag

For any dict and any ordinary instance, whatever the keys, the document written for it is read back as a dict or as
that instance: the decoder's dispatch (unpickler.py:967-998) never sees a tag coming from the data.  The exceptions
are `py/b64` and `py/b85`, which are missing from `tags.RESERVED` (witnesses).
-/
namespace JP.C25
open JP Pickler Sample

/-- the two tags that jsonpickle does not protect -/
def unprotected : List Str := [Tags.B64, Tags.B85]

/-- no entry has a key that jsonpickle fails to protect, or a non-string key whose `repr` is a tag -/
def KeysOk (w : World) (cfg : PCfg) (kvs : List (Val × Val)) : Prop :=
  ∀ kv ∈ kvs, (∀ s, kv.1 = .str s → s ∉ unprotected) ∧
    (cfg.keys = false → (∀ s, kv.1 ≠ .str s) → ∀ s, KeyText w kv.1 s → s ∉ Tags.all)

theorem json_key_not_tag (t : Str) : Tags.JSON_KEY ++ t ∉ Tags.all := by
  intro h
  have h0 : ∀ k ∈ Tags.all, startsWith k Tags.JSON_KEY = false := by decide
  have h1 := h0 _ h
  have h2 : startsWith (Tags.JSON_KEY ++ t) Tags.JSON_KEY = true := by simp [startsWith]
  rw [h2] at h1
  cases h1

theorem not_tag {s : Str} (h1 : Tags.isReserved s = false) (h2 : s ∉ unprotected) : s ∉ Tags.all := by
  intro h
  rcases List.mem_append.1 h with h | h
  · simp [Tags.isReserved, h] at h1
  · exact h2 h

variable {w : World} {cfg : PCfg} {fl : Val → P Json}

theorem KeysOk.keyP {kvs : List (Val × Val)} (h : KeysOk w cfg kvs) {excl : List Str} :
    ∀ kv ∈ itemsExcl excl kvs, KeyP w cfg (· ∉ Tags.all) kv.1 := by
  intro kv hkv
  obtain ⟨h1, h2⟩ := h kv (List.mem_filter.1 hkv).1
  exact ⟨fun s hs hr _ => not_tag hr (h1 s hs), fun hc hn s hs => h2 hc hn s (reprKey_text hs), fun _ t => json_key_not_tag t⟩

theorem dhas_false {k : Str} {d : List (Str × Json)} (h : k ∉ d.map (·.1)) : dhas k d = false := by
  unfold dhas
  rw [(dget_eq_none_iff _ _).2 h]
  rfl

theorem read_as_dict {d : List (Str × Json)} (h : ∀ k ∈ d.map (·.1), k ∉ Tags.all) (env : UEnv) (rs : Json → U Val) :
    Unpickler.restoreStep env rs (.obj d) = Unpickler.restoreDict env rs d := by
  have hno : ∀ k ∈ Tags.all, dhas k d = false := fun k hk => dhas_false (fun hm => h k hm hk)
  simp only [Unpickler.restoreStep]
  unfold Unpickler.restoreTags
  rw [hno Tags.TUPLE (by decide), hno Tags.SET (by decide), hno Tags.B64 (by decide), hno Tags.B85 (by decide),
    hno Tags.BYTEARRAY (by decide), hno Tags.ID (by decide), hno Tags.ITERATOR (by decide), hno Tags.OBJECT (by decide),
    hno Tags.TYPE (by decide), hno Tags.REDUCE (by decide), hno Tags.FUNCTION (by decide), hno Tags.MODULE (by decide),
    hno Tags.REPR (by decide)]
  rfl

/-- The tags that may stand in the document of an instance beside its class tag. -/
def companions : List Str := [Tags.OBJECT, Tags.NEWARGS, Tags.NEWARGSEX, Tags.INITARGS, Tags.STATE, Tags.SEQ, Tags.DEFAULT_FACTORY]

/-- entries that the decoder takes for an instance -/
def AsInst (d : List (Str × Json)) : Prop := Tags.OBJECT ∈ d.map (·.1) ∧ ∀ k ∈ d.map (·.1), k ∈ Tags.all → k ∈ companions

theorem AsInst.grows : Grows (fun k => k ∈ Tags.all → k ∈ companions) AsInst := by
  intro d k j h hk
  refine ⟨?_, KeysP.dset h.2 hk⟩
  rw [dset_keys]
  split
  · exact h.1
  · exact List.mem_append.2 (.inl h.1)

theorem read_as_inst {d : List (Str × Json)} (h : AsInst d) (env : UEnv) (rs : Json → U Val) :
    Unpickler.restoreStep env rs (.obj d) = Unpickler.restoreObject env rs d := by
  have hno : ∀ k ∈ Tags.all, k ∉ companions → dhas k d = false := fun k hk hn => dhas_false (fun hm => hn (h.2 k hm hk))
  have hyes : dhas Tags.OBJECT d = true := by
    unfold dhas
    cases hg : dget Tags.OBJECT d with
    | none => exact absurd h.1 ((dget_eq_none_iff _ _).1 hg)
    | some => rfl
  simp only [Unpickler.restoreStep]
  unfold Unpickler.restoreTags
  rw [hno Tags.TUPLE (by decide) (by decide), hno Tags.SET (by decide) (by decide), hno Tags.B64 (by decide) (by decide),
    hno Tags.B85 (by decide) (by decide), hno Tags.BYTEARRAY (by decide) (by decide), hno Tags.ID (by decide) (by decide),
    hno Tags.ITERATOR (by decide) (by decide), hyes]
  rfl

/-- running the encoder on an object that is written (not referred to), in the default mode -/
theorem post_written {a : Addr} {Q : Json → Prop} (hu : cfg.unpicklable = true) (hm : cfg.makeRefs = true) (hf : cfg.failSafe = none)
    (hstr : ∀ r, Q (.str r)) (hid : ∀ j, Q (.obj [(Tags.ID, j)]))
    (hby : ∀ fl, Post (flattenBy w cfg fl (.ref a)) Q) (n : Nat) : Post (flatten w cfg n (.ref a)) Q := by
  cases n with
  | zero => intro s j s' h; cases h
  | succ n =>
    simp only [flatten]
    unfold flattenStep cached flattenImpl
    simp only [hu, hm, Bool.and_self, if_true]
    refine Post.seq (fun _ => Post.bind (Q := Q) ?_ (fun j hj => ?_))
    · unfold flattenObj flattenObjWith
      refine Post.seq (fun _ => Post.seq (fun mx => Post.tryCatch (Post.seq (fun cyc => ?_)) (fun ex => ?_)))
      · split
        · exact Post.seq (fun r => Post.pure (hstr r))
        · exact hby _
      · rw [hf]; exact Post.throw
    · intro s r s' hs
      cases hs
      exact hj

/-- The document is a reference to an object written before. -/
def IsRef (j : Json) : Prop := ∃ r, j = .obj [(Tags.ID, r)]

/-- A dict is written as a reference (if it was met before), as text (at `max_depth`), or as an object that the decoder
reads as a dict.  Missing from the full property: the keys `py/b64` and `py/b85`, for which it is false. -/
theorem dict_read_as_dict_partial (hu : cfg.unpicklable = true) (hm : cfg.makeRefs = true) (hf : cfg.failSafe = none)
    (a : Addr) (kvs : List (Val × Val)) (ha : w.heap[a]? = some (.dict kvs)) (hk : KeysOk w cfg kvs)
    (n : Nat) (s s' : PState) (j : Json) (hj : flatten w cfg n (.ref a) s = some (.ok j, s')) :
    IsRef j ∨ (∃ r, j = .str r) ∨
      ∃ d, j = .obj d ∧ ∀ env rs, Unpickler.restoreStep env rs j = Unpickler.restoreDict env rs d := by
  refine post_written (Q := fun j => IsRef j ∨ (∃ r, j = .str r) ∨
      ∃ d, j = .obj d ∧ ∀ env rs, Unpickler.restoreStep env rs j = Unpickler.restoreDict env rs d) hu hm hf
    (fun r => .inr (.inl ⟨r, rfl⟩)) (fun j => .inl ⟨j, rfl⟩) (fun fl => ?_) n s j s' hj
  unfold flattenBy
  simp only [ha]
  refine Post.seq (fun new => ?_)
  split
  · refine Post.bind (Q := KeysP (· ∉ Tags.all)) (post_entries KeysP.grows hk.keyP (fun k hk => by cases hk)) (fun d hd => Post.pure ?_)
    exact .inr (.inr ⟨d, rfl, read_as_dict hd⟩)
  · intro s r s' hs
    cases hs
    exact .inl ⟨_, rfl⟩

/-- The object is an instance whose document jsonpickle writes itself: no handler, no reduce value, not an iterator, and
`__getstate__` can be called. -/
structure Ordinary (w : World) (cfg : PCfg) (i : Inst) : Prop where
  handler : w.handler i.cls = none
  reduces : i.info.reduces = false
  iter : i.info.isIterator = false
  items : KeysOk w cfg i.items
  attrs : KeysOk w cfg (dictItems w i)
  slots : ∀ s ∈ i.info.slots, s ∉ unprotected
  dir : ∀ kv ∈ i.dirAttrs, kv.1 ∉ unprotected

theorem grows_user : Grows (· ∉ Tags.all) AsInst := fun h hk => AsInst.grows h (fun hm => absurd hm hk)

theorem post_rest {a : Addr} {i : Inst} (h : Ordinary w cfg i) (hu : cfg.unpicklable = true) {d : List (Str × Json)} (hd : AsInst d) :
    Post (flattenRest w cfg fl a i d) (fun j => ∃ d, j = .obj d ∧ AsInst d) := by
  have hsub : Post (flattenDictSub w cfg fl a i d) AsInst := by
    unfold flattenDictSub
    refine Post.bind (post_entries grows_user h.items.keyP hd) (fun d1 hd1 => Post.bind (Q := AsInst) ?_ (fun d2 hd2 => ?_))
    · unfold flattenDefault
      split
      · exact Post.pure hd1
      · refine Post.seq (fun j => Post.pure ?_)
        split
        · exact AsInst.grows hd1 (by decide)
        · exact AsInst.grows hd1 (by decide)
    · unfold flattenOwnDict
      split
      · refine Post.seq (fun new => ?_)
        split
        · exact Post.seq (fun dd => Post.pure (AsInst.grows hd2 (by decide)))
        · exact Post.seq (fun dd => Post.pure (AsInst.grows hd2 (by decide)))
      · exact Post.pure hd2
  have hseq : Post (flattenSequence w cfg fl i d) (fun j => ∃ d, j = .obj d ∧ AsInst d) := by
    unfold flattenSequence
    refine Post.bind (Q := AsInst) ?_ (fun d1 hd1 => Post.seq (fun vs => ?_))
    · unfold flattenSeqAttrs
      split
      · exact post_entries grows_user h.attrs.keyP hd
      · exact Post.pure hd
    · rw [if_pos hu]
      exact Post.pure ⟨_, rfl, AsInst.grows hd1 (by decide)⟩
  unfold flattenRest
  split
  · exact Post.bind hsub (fun d hd => Post.pure ⟨d, rfl, hd⟩)
  · exact hseq
  · exact hseq
  · exact hseq
  · rw [h.iter]
    simp only [Bool.false_eq_true, if_false]
    split
    · exact Post.bind (post_entries grows_user h.attrs.keyP hd) (fun d hd => Post.pure ⟨d, rfl, hd⟩)
    · split
      · unfold flattenSlots
        refine Post.bind (post_objAttrs grows_user (fun k hk _ hr => not_tag hr (h.slots k hk)) hd) (fun r hr => ?_)
        split
        · exact Post.pure ⟨_, rfl, hr⟩
        · refine Post.bind (post_objAttrs grows_user (fun k hk _ hr => ?_) hr) (fun r hr => Post.pure ⟨_, rfl, hr⟩)
          obtain ⟨kv, h1, rfl⟩ := List.mem_map.1 hk
          exact not_tag hr (h.dir kv h1)
      · have hne : d.isEmpty = false := by
          cases d with
          | nil => cases hd.1
          | cons => rfl
        rw [if_pos (by simp [hne])]
        exact Post.pure ⟨d, rfl, hd⟩

theorem post_inst {a : Addr} {i : Inst} (h : Ordinary w cfg i) (hu : cfg.unpicklable = true) :
    Post (flattenInst w cfg fl a i) (fun j => j = .null ∨ ∃ d, j = .obj d ∧ AsInst d) := by
  unfold flattenInst
  rw [h.handler]
  simp only
  unfold flattenReduce
  rw [h.reduces]
  simp only [Bool.and_false, Bool.false_eq_true, if_false]
  unfold flattenBody
  have h0 : AsInst (objTag cfg i) := by
    unfold objTag
    rw [if_pos hu]
    refine ⟨by simp, ?_⟩
    intro k hk _
    simp only [List.map_cons, List.map_nil, List.mem_singleton] at hk
    subst hk
    decide
  refine Post.bind (Q := AsInst) ?_ (fun d1 hd1 => Post.bind (Q := AsInst) ?_ (fun d2 hd2 => ?_))
  · unfold flattenNewargs
    split
    · exact Post.seq (fun _ => Post.seq (fun _ => Post.seq (fun _ => Post.pure (AsInst.grows h0 (by decide)))))
    · split
      · exact Post.seq (fun _ => Post.seq (fun _ => Post.pure (AsInst.grows h0 (by decide))))
      · exact Post.pure h0
  · unfold flattenInitargs
    split
    · exact Post.seq (fun _ => Post.seq (fun _ => Post.pure (AsInst.grows hd1 (by decide))))
    · exact Post.pure hd1
  · have rest := (post_rest (fl := fl) (a := a) h hu hd2).conseq (fun j hj => (Or.inr hj : j = .null ∨ ∃ d, j = .obj d ∧ AsInst d))
    have put : ∀ j, putState cfg j d2 = .null ∨ ∃ d, putState cfg j d2 = .obj d ∧ AsInst d := fun j =>
      .inr ⟨_, by unfold putState; rw [if_pos hu], AsInst.grows hd2 (by decide)⟩
    unfold flattenGetstate
    split
    · split
      · split
        · exact Post.pure (.inl rfl)
        · exact Post.throw
      · split
        · split
          · exact rest
          · exact Post.seq (fun j => Post.pure (put j))
        · split
          · exact Post.seq (fun j => Post.pure (put j))
          · exact rest
    · exact rest

/-- An ordinary instance is written as a reference (if it was met before), as text (at `max_depth`), as `null` (if `__getstate__`
raises `TypeError`), or as an object that the decoder reads as an instance.  Missing from the full property: attributes and
entries named `py/b64` and `py/b85`, for which it is false, and instances with a handler or a reduce value. -/
theorem instance_read_as_instance_partial (hu : cfg.unpicklable = true) (hm : cfg.makeRefs = true) (hf : cfg.failSafe = none)
    (a : Addr) (i : Inst) (ha : w.heap[a]? = some (.inst i)) (h : Ordinary w cfg i)
    (n : Nat) (s s' : PState) (j : Json) (hj : flatten w cfg n (.ref a) s = some (.ok j, s')) :
    IsRef j ∨ (∃ r, j = .str r) ∨ j = .null ∨
      ∃ d, j = .obj d ∧ ∀ env rs, Unpickler.restoreStep env rs j = Unpickler.restoreObject env rs d := by
  refine post_written (Q := fun j => IsRef j ∨ (∃ r, j = .str r) ∨ j = .null ∨
      ∃ d, j = .obj d ∧ ∀ env rs, Unpickler.restoreStep env rs j = Unpickler.restoreObject env rs d) hu hm hf
    (fun r => .inr (.inl ⟨r, rfl⟩)) (fun j => .inl ⟨j, rfl⟩) (fun fl => ?_) n s j s' hj
  unfold flattenBy
  simp only [ha]
  unfold refObjInstance
  rw [if_pos hu]
  refine Post.seq (fun new => ?_)
  split
  · refine (post_inst h hu).conseq (fun j hj => ?_)
    rcases hj with hj | ⟨d, rfl, hd⟩
    · exact .inr (.inr (.inl hj))
    · exact .inr (.inr (.inr ⟨d, rfl, read_as_inst hd⟩))
  · intro s r s' hs
    cases hs
    exact .inl ⟨_, rfl⟩

/-- `{"py/tuple": 1, "py/object": "x", "a": 2}` meets the hypotheses -/
example (h : Heap) : KeysOk (program.world h) {} [(.str Tags.TUPLE, .int 1), (.str Tags.OBJECT, .str p!"x"), (.str p!"a", .int 2)] := by
  intro kv hkv
  simp only [List.mem_cons, List.not_mem_nil, or_false] at hkv
  rcases hkv with rfl | rfl | rfl <;>
    exact ⟨fun s hs => by cases hs; decide, fun _ hn => absurd rfl (hn _)⟩

/-- and so does an instance with such attributes -/
example (h : Heap) : Ordinary (program.world h) {} { cls := p!"m.C", attrs := [(Tags.TUPLE, .int 1), (p!"a", .int 2)] } := by
  refine ⟨rfl, rfl, rfl, (fun kv hkv => by cases hkv), ?_, (fun s hs => by cases hs), (fun s hs => by cases hs)⟩
  intro kv hkv
  simp only [dictItems, asItems, List.map_cons, List.map_nil, List.mem_cons, List.not_mem_nil, or_false] at hkv
  rcases hkv with rfl | rfl <;> exact ⟨fun s hs => by cases hs; decide, fun _ hn => absurd rfl (hn _)⟩

/-- With `keys=False` reserved keys are dropped: `{"py/tuple": 1, "a": 2}` comes back as `{"a": 2}`. -/
theorem reserved_key_dropped : program.TripsTo [.dict [(.str Tags.TUPLE, .int 1), (.str p!"a", .int 2)]] {} (.ref 0) (.ref 0)
    [.dict [(.str p!"a", .int 2)]] :=
  Program.tripsTo 10 (by decide +kernel)

/-- With `keys=True` they survive: `{"py/tuple": 1, "a": 2}` comes back with both entries. -/
theorem reserved_key_escaped : program.TripsTo [.dict [(.str Tags.TUPLE, .int 1), (.str p!"a", .int 2)]] { keys := true } (.ref 0) (.ref 0)
    [.dict [(.str p!"a", .int 2), (.str Tags.TUPLE, .int 1)]] :=
  Program.tripsTo 10 (by decide +kernel)

/-- The property is false: the dict `{"py/b64": "AAAA"}` comes back as `b"\x00\x00\x00"`, with `keys=False` … -/
theorem b64_masquerades : program.TripsTo [.dict [(.str Tags.B64, .str p!"AAAA")]] {} (.ref 0) (.bytes 1 [0, 0, 0]) [] :=
  Program.tripsTo 10 (by decide +kernel)

/-- … and with `keys=True`, which escapes the reserved keys, … -/
theorem b64_masquerades_keys : program.TripsTo [.dict [(.str Tags.B64, .str p!"AAAA")]] { keys := true } (.ref 0) (.bytes 1 [0, 0, 0]) [] :=
  Program.tripsTo 10 (by decide +kernel)

/-- … and an instance with an attribute of that name is replaced by bytes. -/
theorem b64_attribute_masquerades : program.TripsTo
    [.inst { cls := p!"m.C", attrs := [(p!"x", .int 1), (Tags.B64, .str p!"AAAA")] }] {} (.ref 0) (.bytes 1 [0, 0, 0]) [] :=
  Program.tripsTo 10 (by decide +kernel)

end JP.C25
