import Verif.Proofs.SimFields
/-!
# The body of an instance: what follows the class tag and the constructor arguments
-/
namespace JP.Sim
open JP PyM Unpickler

variable {w : World} {cfg : PCfg} {env : UEnv}
variable {Bad : Ctx}
variable {fl : Val → P Json} {rs rs2 rs3 : Json → U Val}
variable {a : Addr} {i i0 : Inst} {b : Nat}

/-- the entries left after the default factory was taken out -/
def stripF (ents : List (Str × Json)) : List (Str × Json) :=
  match factoryKey ents with
  | none => ents
  | some k => ddel k ents

/-- the default factory is written, or there is none -/
def LoadOk (env : UEnv) (i : Inst) (ents : List (Str × Json)) : Prop :=
  (i.factory = none ∧ Tags.DEFAULT_FACTORY ∉ ents.map (·.1) ∧ p!"default_factory" ∉ ents.map (·.1)) ∨
  (∃ n k pre post, i.factory = some (.type n) ∧ env.loadclass n = some (.type n) ∧
    ents = pre ++ (k, Pickler.mktyperef n) :: post ∧ k ∉ pre.map (·.1) ∧ k ∉ post.map (·.1) ∧
    (k = Tags.DEFAULT_FACTORY ∨ (k = p!"default_factory" ∧ Tags.DEFAULT_FACTORY ∉ ents.map (·.1))))

/-- the keys written for the body of an instance -/
def Shape (env : UEnv) (i : Inst) (ents : List (Str × Json)) : Prop :=
  (∀ k ∈ ents.map (·.1), k ∉ Tags.all ∨ (k = Tags.SEQ ∧ i.info.base ≠ .plain ∧ i.info.base ≠ .dict) ∨ k = Tags.STATE ∨
    k = Tags.DEFAULT_FACTORY) ∧ LoadOk env i ents

/-- the decoder, given the body, completes the instance in cell `b` -/
def BodyRes (w : World) (cfg : PCfg) (env : UEnv) (rs : Json → U Val) (Bad : Ctx) (i : Inst) (b : Nat)
    (s2 s3 : PState) (u3 : UState) (ents : List (Str × Json)) : Prop :=
  ∃ u4 i1, restoreVariables env rs b (stripF ents) u3 = some (.ok (.ref b), u4) ∧
    Step w cfg [b] Bad s2 s3 u3 u4 ∧ u4.heap[b]? = some (.inst i1) ∧
    (∀ d, i1.dictCell = some d → u3.heap.length ≤ d ∧ d < u4.heap.length) ∧
    SameInst (orderOf cfg) (handledOf w) w.heap u4.heap (Rof Bad s3.objs u4.objs) i i1 ∧
    fixFactory (.ref b) u4 = some (.ok (), u4)

/-- a freshly constructed instance -/
structure Init (i i0 : Inst) : Prop where
  cls : i0.cls = i.cls
  info : i0.info = i.info
  attrs : i0.attrs = []
  dictCell : i0.dictCell = none
  items : i0.items = []
  elems : i0.elems = []
  factory : i0.factory = i.factory
  state : i0.state = .ok .none

/-- the situation in which the body is restored -/
structure Open (w : World) (env : UEnv) (Bad : Ctx) (a : Addr) (i i0 : Inst) (b : Nat) (s2 : PState) (u3 : UState) : Prop where
  ha : w.heap[a]? = some (.inst i)
  ok : InstOk w.heap env a i
  nohandler : w.handler i.cls = none
  depth : 0 ≤ s2.depth
  rel : Rel w.heap Bad s2.objs u3
  fit : Fit w env Bad (.ref a)
  cell : u3.heap[b]? = some (.inst i0)
  init : Init i i0
  ctor : SameCtor (Rof Bad s2.objs u3.objs) i i0
  own : Ident.dictOf a ∉ s2.objs
  at_ : ∃ k : Nat, s2.objs[k]? = some (.addr a) ∧ u3.objs[k]? = some (.ref b)
  fresh : a ∉ Bad.own

theorem stripF_none {ents : List (Str × Json)} (h1 : Tags.DEFAULT_FACTORY ∉ ents.map (·.1))
    (h2 : p!"default_factory" ∉ ents.map (·.1)) : stripF ents = ents := by
  unfold stripF factoryKey
  rw [(dhas_eq_false_iff _ _).2 h1, (dhas_eq_false_iff _ _).2 h2]
  rfl

theorem dhas_mem {k : Str} {d : List (Str × Json)} (h : k ∈ d.map (·.1)) : dhas k d = true := by
  cases hh : dhas k d with
  | true => rfl
  | false => exact absurd h ((dhas_eq_false_iff _ _).1 hh)

theorem ddel_split {k : Str} {j : Json} {pre post : List (Str × Json)} (h1 : k ∉ pre.map (·.1)) (h2 : k ∉ post.map (·.1)) :
    ddel k (pre ++ (k, j) :: post) = pre ++ post := by
  have hf : ∀ {l : List (Str × Json)}, k ∉ l.map (·.1) → l.filter (fun kv => decide (kv.1 ≠ k)) = l := by
    intro l hl
    rw [List.filter_eq_self]
    intro e he
    simp only [ne_eq, decide_not, Bool.not_eq_true', decide_eq_false_iff_not]
    intro hek
    exact hl (by rw [← hek]; exact List.mem_map_of_mem he)
  unfold ddel
  rw [List.filter_append, List.filter_cons_of_neg (by simp), hf h1, hf h2]

theorem factoryKey_split {k : Str} {ents : List (Str × Json)} (hk : k ∈ ents.map (·.1))
    (h : k = Tags.DEFAULT_FACTORY ∨ (k = p!"default_factory" ∧ Tags.DEFAULT_FACTORY ∉ ents.map (·.1))) :
    factoryKey ents = some k := by
  unfold factoryKey
  rcases h with e | ⟨e, hn⟩
  · subst e
    rw [dhas_mem hk]
    rfl
  · subst e
    rw [(dhas_eq_false_iff _ _).2 hn, dhas_mem hk]
    rfl

theorem stripF_split {k : Str} {j : Json} {pre post : List (Str × Json)} (h1 : k ∉ pre.map (·.1)) (h2 : k ∉ post.map (·.1))
    (h : k = Tags.DEFAULT_FACTORY ∨ (k = p!"default_factory" ∧ Tags.DEFAULT_FACTORY ∉ (pre ++ (k, j) :: post).map (·.1))) :
    stripF (pre ++ (k, j) :: post) = pre ++ post := by
  unfold stripF
  rw [factoryKey_split (by simp) h]
  exact ddel_split h1 h2

theorem getstate_ok {st : Val} (ho : i.info.ownGetstate = true) (hst : i.state = .ok st) (he : i.exclude = [])
    (data : List (Str × Json)) :
    Pickler.flattenGetstate w cfg fl a i data =
      if truthy w.heap st then fl st >>= fun j => (pure (Pickler.putState cfg j data) : P _)
      else Pickler.flattenRest w cfg fl a i data := by
  unfold Pickler.flattenGetstate
  rw [if_pos ho, hst]
  simp only [he, List.isEmpty_nil, if_true]
  cases st with
  | ref d =>
    simp only []
    cases hd : w.heap[d]? with
    | none => rfl
    | some o => cases o <;> rfl
  | _ => rfl

theorem getstate_rest (hn : NoState w.heap i) (he : i.exclude = []) (data : List (Str × Json)) :
    Pickler.flattenGetstate w cfg fl a i data = Pickler.flattenRest w cfg fl a i data := by
  cases ho : i.info.ownGetstate with
  | true =>
    obtain ⟨st, h1, h2⟩ := hn ho
    rw [getstate_ok ho h1 he, h2]
    rfl
  | false =>
    unfold Pickler.flattenGetstate
    rw [ho]
    rfl

theorem savedState_none {h : Heap} (hn : NoState h i) : savedState h i = none := by
  unfold savedState
  split
  · next ho =>
    obtain ⟨st, h1, h2⟩ := hn ho
    rw [h1]
    simp [h2]
  · rfl

theorem fixFactory_none {u : UState} (hb : u.heap[b]? = some (.inst i)) (hf : i.factory = none)
    (ha : p!"default_factory" ∉ i.attrs.map (·.1)) : fixFactory (.ref b) u = some (.ok (), u) := by
  unfold fixFactory
  simp only [modify_run, hb, hf]
  rw [(dget_eq_none_iff _ _).2 ha]

theorem fixFactory_type {u : UState} {n : Str} (hb : u.heap[b]? = some (.inst i)) (hf : i.factory = some (.type n)) :
    fixFactory (.ref b) u = some (.ok (), u) := by
  unfold fixFactory
  simp only [modify_run, hb, hf, proxyAddr]

theorem variables_run {kvs : List (Str × Json)} {u u1 : UState} {us : List Unit}
    (h : mapM (entryOf env rs b) kvs u = some (.ok us, u1)) :
    restoreVariables env rs b kvs u = (restoreSeqTag rs b kvs >>= fun _ =>
      match dget Tags.STATE kvs with
      | none => (pure (.ref b) : U Val)
      | some j => restoreState rs b j) u1 := by
  unfold restoreVariables
  rw [restoreFromJson_eq]
  have : (mapM (entryOf env rs b) kvs >>= fun _ => (pure () : U Unit)) u = some (.ok (), u1) := by rw [bind_ok h]; rfl
  rw [bind_ok this]
  cases dget Tags.STATE kvs <;> rfl

/-- a body without `py/seq` and `py/state` -/
theorem variables_plain {kvs : List (Str × Json)} {u u1 : UState} {us : List Unit}
    (h : mapM (entryOf env rs b) kvs u = some (.ok us, u1)) (h1 : Tags.SEQ ∉ kvs.map (·.1)) (h2 : Tags.STATE ∉ kvs.map (·.1)) :
    restoreVariables env rs b kvs u = some (.ok (.ref b), u1) := by
  rw [variables_run h]
  unfold restoreSeqTag
  rw [(dget_eq_none_iff _ _).2 h1, (dget_eq_none_iff _ _).2 h2]
  rfl

/-- class tag and constructor arguments are skipped -/
theorem variables_skip {data kvs : List (Str × Json)} {u : UState}
    (h : ∀ k ∈ data.map (·.1), Tags.isReserved k = true ∧ k ≠ Tags.SEQ ∧ k ≠ Tags.STATE) :
    restoreVariables env rs b (data ++ kvs) u = restoreVariables env rs b kvs u := by
  unfold restoreVariables restoreSeqTag
  have hn : ∀ t, t = Tags.SEQ ∨ t = Tags.STATE → dget t (data ++ kvs) = dget t kvs := by
    intro t ht
    rw [dget_append, (dget_eq_none_iff _ _).2]
    · rfl
    · intro hm
      rcases ht with e | e
      · exact (h t hm).2.1 e
      · exact (h t hm).2.2 e
  rw [hn _ (Or.inl rfl), hn _ (Or.inr rfl), restoreFromJson_eq, restoreFromJson_eq, mapM_append]
  obtain ⟨us, hus⟩ := mapM_skip (entryOf env rs b) data u (fun kv hkv => entryOf_reserved (h _ (List.mem_map_of_mem hkv)).1)
  simp only [bind_assoc']
  rw [bind_ok hus]
  rfl

theorem Paired.asItems {R : Addr → Addr → Prop} {xs ys : List (Str × Val)} (h : Paired R xs ys) :
    ItemsIso R (xs.map (fun kv => (.str kv.1, kv.2))) (ys.map (fun kv => (.str kv.1, kv.2))) := Paired.items h

variable {s2 s3 : PState} {u3 : UState}

namespace Open
variable (o : Open w env Bad a i i0 b s2 u3)
include o

theorem part {x : Val} (hn : i.info.hasSetstate = true ∨ NoState w.heap i) (hx : x ∈ i.parts) (hok : ValOk w.heap env x) : Fit w env Bad x :=
  o.fit.part o.ha (by simpa [Obj.parts] using hx) hok
    (fun d _ => notState_inst o.ha (Or.inr (Or.inr (hn.imp id savedState_none))) d)

theorem hd : handledOf w i.cls = false := by simp [handledOf, o.nohandler]

theorem nofac (h : i.info.base ≠ .dict) : i.factory = none := o.ok.tidy.factory h

/-- the relation between original and rebuilt instance when only attributes and elements were written -/
theorem same {hT : Heap} {R : Addr → Addr → Prop} {acc : List (Str × Val)} {els : List Val}
    (hR : ∀ x y, Rof Bad s2.objs u3.objs x y → R x y) (hbase : i.info.base ≠ .dict) (hn : NoState w.heap i)
    (hp : Paired R i.attrs acc) (he : VIsos R i.elems els) :
    SameInst (orderOf cfg) (handledOf w) w.heap hT R i { i0 with attrs := acc, elems := els } := by
  have hi := o.init
  refine .fields o.hd o.ok.noReduce hi.cls (savedState_none hn) hi.state ?_ ?_ he ?_ ?_
  · simp only [instAttrs, o.ok.tidy.dictCell, hi.dictCell]
    exact Paired.asItems hp
  · have h1 : i.items = [] := o.ok.tidy.items hbase
    have h2 : i0.items = [] := hi.items
    simp only [h1, h2]
    have : orderOf cfg [] = [] := by
      unfold orderOf
      split <;> rfl
    rw [this]
    trivial
  · have h1 : i.factory = none := o.nofac hbase
    have h2 : i0.factory = none := by rw [hi.factory, h1]
    simp only [h1, h2]
  · have hc := SameCtor.mono hR o.ctor
    exact ⟨hc.noInit, hc.noReduce, hc.newargs, hc.newargsEx, hc.initargs⟩

theorem attrOk_dict (h : i.info.hasDict = true) (k : Str) : attrOk i0 k = true := by
  simp [attrOk, o.init.info, h]

theorem lt : b < u3.heap.length := get_lt o.cell

end Open

theorem names_not_tags {keys : Bool} {attrs : List (Str × Val)} {h : Heap} (hok : AttrsOk h env attrs) :
    ∀ k ∈ attrs.map (·.1), k ∉ Tags.all ∧ k ≠ p!"default_factory" := by
  intro k hk
  obtain ⟨e, he, rfl⟩ := List.mem_map.1 hk
  exact ⟨(hok.1 e he).1.1, (hok.1 e he).2.1⟩

theorem seq_tag : Tags.SEQ ∈ Tags.all := by decide
theorem state_tag : Tags.STATE ∈ Tags.all := by decide
theorem df_tag : Tags.DEFAULT_FACTORY ∈ Tags.all := by decide

/-- attributes only -/
theorem body_attrs (h : Sim w cfg env fl rs2) (o : Open w env Bad a i i0 b s2 u3) (hn : NoState w.heap i)
    (hbase : i.info.base = .plain) (hok : AttrsOk w.heap env i.attrs)
    (hat : ∀ kv ∈ i.attrs, attrOk i0 kv.1 = true) {r s3} (hrun : mapM fl (i.attrs.map (·.2)) s2 = some (r, s3)) :
    ∃ js, r = .ok js ∧ js.length = i.attrs.length ∧ Shape env i ((i.attrs.map (·.1)).zip js) ∧
      BodyRes w cfg env rs2 Bad i b s2 s3 u3 ((i.attrs.map (·.1)).zip js) := by
  have hb0 : i.info.base ≠ .dict := by rw [hbase]; simp
  have hi := o.init
  obtain ⟨js, us, acc, u4, e1, hlen, e2, hstep, hp, hb, _⟩ := simAttrs (b := b) h hok (by rw [hi.info]; exact hb0) hi.dictCell hat hi.attrs
    s2 u3 r s3 o.depth (fun e he => o.part (Or.inr hn) (by
      simp only [Inst.parts, List.mem_append]
      exact Or.inl (Or.inl (Or.inl (Or.inl (Or.inl (Or.inl (Or.inl (Or.inl (Or.inl (Or.inl (List.mem_map_of_mem he))))))))))) (hok.1 e he).2.2.2) o.rel o.cell hrun
  have hkeys : (((i.attrs.map (·.1)).zip js)).map (·.1) = i.attrs.map (·.1) := zip_keys _ _ (by simpa using hlen)
  have hnt := names_not_tags (keys := env.keys) hok
  have hdf : Tags.DEFAULT_FACTORY ∉ (((i.attrs.map (·.1)).zip js)).map (·.1) := by
    rw [hkeys]; intro hm; exact (hnt _ hm).1 df_tag
  have hdf2 : p!"default_factory" ∉ (((i.attrs.map (·.1)).zip js)).map (·.1) := by
    rw [hkeys]; intro hm; exact (hnt _ hm).2 rfl
  refine ⟨js, e1, hlen, ⟨?_, Or.inl ⟨o.nofac hb0, hdf, hdf2⟩⟩, u4, { i0 with attrs := acc }, ?_, hstep, hb, ?_, ?_, ?_⟩
  · rw [hkeys]
    intro k hk
    exact Or.inl (hnt k hk).1
  · rw [stripF_none hdf hdf2]
    refine variables_plain e2 ?_ ?_
    · rw [hkeys]; intro hm; exact (hnt _ hm).1 seq_tag
    · rw [hkeys]; intro hm; exact (hnt _ hm).1 state_tag
  · intro d hd
    simp only [] at hd
    rw [hi.dictCell] at hd
    cases hd
  · have hel : i0.elems = [] := hi.elems
    have := o.same (cfg := cfg) (hT := u4.heap) (R := Rof Bad s3.objs u4.objs) (acc := acc) (els := []) hstep.mono hb0 hn hp (by
      rw [o.ok.tidy.elems (Or.inl hbase)]; simp [VIsos])
    rw [← hel] at this
    exact this
  · refine fixFactory_none hb ?_ ?_
    · simp only []
      rw [hi.factory, o.nofac hb0]
    · simp only []
      rw [Paired.labels hp]
      intro hm
      exact (hnt _ hm).2 rfl

end JP.Sim
