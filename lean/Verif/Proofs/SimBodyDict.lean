import Verif.Proofs.SimBodyState
/-!
# Bodies of dict subclasses: entries, default factory and `__dict__`
-/
namespace JP.Sim
open JP PyM Unpickler

variable {w : World} {cfg : PCfg} {env : UEnv}
variable {Bad : Ctx}
variable {fl : Val → P Json} {rs rs2 rs3 : Json → U Val}
variable {a : Addr} {i i0 : Inst} {b : Nat}
variable {s2 s3 : PState} {u3 : UState} {data : List (Str × Json)}

/-- class tag and constructor arguments -/
def CtorKeys (data : List (Str × Json)) : Prop :=
  ∀ k ∈ data.map (·.1), k = Tags.OBJECT ∨ k = Tags.NEWARGS ∨ k = Tags.NEWARGSEX ∨ k = Tags.INITARGS

theorem CtorKeys.tags (h : CtorKeys data) : ∀ k ∈ data.map (·.1), k ∈ Tags.all := by
  intro k hk
  rcases h k hk with e | e | e | e <;> subst e <;> decide

theorem CtorKeys.not (h : CtorKeys data) {t : Str} (ht : t ≠ Tags.OBJECT ∧ t ≠ Tags.NEWARGS ∧ t ≠ Tags.NEWARGSEX ∧ t ≠ Tags.INITARGS) :
    t ∉ data.map (·.1) := by
  intro hk
  rcases h t hk with e | e | e | e
  · exact ht.1 e
  · exact ht.2.1 e
  · exact ht.2.2.1 e
  · exact ht.2.2.2 e

/-- registering the `__dict__` of an instance under construction -/
theorem Rel.regOwn {hS : Heap} {P : List Ident} {u : UState} (r : Rel hS Bad P u) {o0 : Obj} (ha : .dictOf a ∉ P)
    (hm : .addr a ∈ P) : Rel hS Bad (P ++ [.dictOf a]) (regU u o0) := by
  have hfr : ∀ (k' : Nat) (b : Addr), u.objs[k']? = some (Val.ref b) → b ≠ u.heap.length := fun k' b h e =>
    absurd (r.lt _ _ h) (Nat.not_lt.2 (Nat.le_of_eq e.symm))
  refine ⟨by simp [regU, r.len], ?_, ?_, ?_, ?_, ?_, ?_, ?_, ?_, ?_, ?_, ?_⟩
  · rw [List.nodup_append]
    exact ⟨r.nodup, by simp, fun x hx y hy => by simp at hy; subst hy; exact fun e => ha (e ▸ hx)⟩
  · intro k a' hka
    rcases get_append_one hka with h | ⟨h, h'⟩
    · obtain ⟨b, e1, e2⟩ := r.addr k a' h
      refine ⟨b, by simp only [regU]; rw [List.getElem?_append_left (get_lt e1)]; exact e1, ?_⟩
      intro hn
      obtain ⟨o1, o2, q1, q2, q3⟩ := e2 hn
      exact ⟨o1, o2, q1, by simp only [regU]; rw [List.getElem?_append_left (get_lt q2)]; exact q2, q3⟩
    · cases h'
  · intro k n hkn
    rcases get_append_one hkn with h | ⟨h, h'⟩
    · have := r.mod k n h
      simp only [regU]; rw [List.getElem?_append_left (get_lt this)]; exact this
    · cases h'
  · intro k b hkb
    simp only [regU] at hkb ⊢
    rcases get_append_one hkb with h | ⟨h, h'⟩
    · have := r.lt _ _ h; simp; omega
    · injection h' with h'; subst h'; simp
  · intro k k' b h1 h2
    simp only [regU] at h1 h2
    rcases get_append_one h1 with h1 | ⟨h1, h1'⟩ <;> rcases get_append_one h2 with h2 | ⟨h2, h2'⟩
    · exact r.inj _ _ _ h1 h2
    · injection h2' with h2'; exact absurd h2' (hfr _ _ h1)
    · injection h1' with h1'; exact absurd h1' (hfr _ _ h2)
    · omega
  · intro b k h
    simp only [regU] at h ⊢
    rw [idxGet_append] at h
    simp only [List.length_append, List.length_cons, List.length_nil]
    cases hg : idxGet (.addr b) u.idx with
    | some n => have := r.idxAddr _ _ hg; omega
    | none =>
      rw [hg] at h
      by_cases e : Ident.addr u.heap.length = Ident.addr b
      · injection e with e; subst e; omega
      · simp [e] at h
  · intro n k h
    simp only [regU] at h
    rw [idxGet_append] at h
    cases hg : idxGet (.mod n) u.idx with
    | some n => exact List.mem_append_left _ (r.idxMod _ _ hg)
    | none => rw [hg] at h; simp at h
  · intro x hx
    exact List.mem_append_left _ (r.bad x hx)
  · intro x hx
    exact List.mem_append_left _ (r.serve x hx)
  · intro x hx
    simp only [List.mem_append, List.mem_singleton] at hx
    rcases hx with hx | hx
    · exact List.mem_append_left _ (r.own x hx)
    · cases hx
      exact List.mem_append_left _ hm
  · intro k a' b hka hkb hn hn'
    rcases get_append_one hka with h | ⟨h, h'⟩
    · have hlt : k < u.objs.length := by rw [← r.len]; exact get_lt h
      simp only [regU] at hkb ⊢
      rw [List.getElem?_append_left hlt] at hkb
      refine (r.filled k a' b h hkb hn hn').mono ?_ (Or.inr (List.getElem?_append_left (r.lt _ _ hkb)))
      rintro x y ⟨h1, k', h2, h3⟩
      exact ⟨h1, k', by rw [List.getElem?_append_left (get_lt h2)]; exact h2, by rw [List.getElem?_append_left (get_lt h3)]; exact h3⟩
    · cases h'

theorem Step.regOwn {s1 : PState} {u4 u5 : UState} {o0 : Obj} (hr : Rel w.heap Bad s1.objs u4)
    (h : Step w cfg [u4.heap.length] Bad { s1 with objs := s1.objs ++ [.dictOf a] } s3 (regU u4 o0) u5)
    (hat : ∃ k : Nat, s1.objs[k]? = some (.addr a) ∧ u4.objs[k]? = some (.ref b)) (hb : b < u4.heap.length)
    (ho : ∀ n, o0 ≠ .idproxy n := by intro _ h; cases h) :
    Step w cfg [b] Bad s1 s3 u4 u5 := by
  have hk3 : s3.objs[s1.objs.length]? = some (.dictOf a) := prefix_get h.objs (by simp)
  have hk5 : u5.objs[s1.objs.length]? = some (.ref u4.heap.length) := prefix_get h.ext.objs (by simp [regU, hr.len])
  have hpre : s1.objs <+: s3.objs := (List.prefix_append s1.objs [Ident.dictOf a]).trans h.objs
  have hext : Ext [b] u4 u5 := (Ext.reg o0 ho).trans h.ext (fun c hc hm => by
    simp only [List.mem_singleton] at hm
    subst hm
    exact absurd hc (Nat.lt_irrefl _))
  refine ⟨h.depth, hpre, h.rel, hext, ?_, ?_⟩
  · intro k a' hk ha
    have hd := h.done
    simp only [List.length_append, List.length_cons, List.length_nil] at hd
    by_cases e : k = s1.objs.length
    · subst e
      rw [hk3] at ha
      cases ha
    · obtain ⟨b', o, o', e1, e2, e3, e4, e5, e6⟩ := hd k a' (by omega) ha
      have hl : (regU u4 o0).heap.length = u4.heap.length + 1 := by simp [regU]
      rw [hl] at e4 e5
      exact ⟨b', o, o', e1, e2, e3, by omega, fun i d hi hdd => ⟨by have := (e5 i d hi hdd).1; omega, (e5 i d hi hdd).2⟩, e6⟩
  · intro x hx
    rcases h.own x hx with h' | h' | ⟨k, b', q1, q2, q3, q4⟩
    · simp only [List.mem_append, List.mem_singleton] at h'
      rcases h' with h' | h'
      · exact Or.inl h'
      · cases h'
        obtain ⟨k, e1, e2⟩ := hat
        exact Or.inr (Or.inr ⟨k, b, by simp, hb, prefix_get hpre e1, prefix_get hext.objs e2⟩)
    · exact Or.inr (Or.inl (fun hm => h' (List.mem_append_left _ hm)))
    · exfalso
      simp only [List.mem_singleton] at q1
      subst q1
      have e := h.rel.inj _ _ _ q4 hk5
      subst e
      rw [hk3] at q3
      cases q3

theorem names_pairwise {ents : List (Str × Val)} (h : (ents.map (·.1)).Nodup) :
    ((Pickler.asItems ents).map (·.1)).Pairwise (fun k k' => pyEq k k' = false) := by
  induction ents with
  | nil => simp [Pickler.asItems]
  | cons e ents ih =>
    simp only [List.map_cons, List.nodup_cons] at h
    simp only [Pickler.asItems, List.map_cons, List.pairwise_cons]
    refine ⟨?_, ih h.2⟩
    intro k hk
    simp only [List.map_map, List.mem_map, Function.comp] at hk
    obtain ⟨e', he', rfl⟩ := hk
    simp only [pyEq]
    rw [beq_eq_false_iff_ne]
    intro e''
    exact h.1 (by rw [e'']; exact List.mem_map_of_mem he')

theorem order_names (ents : List (Str × Val)) : orderOf cfg (Pickler.asItems ents) = Pickler.asItems ents := by
  unfold orderOf
  split
  · unfold stringsFirst
    rw [List.filter_eq_self.2, List.filter_eq_nil_iff.2, List.append_nil]
    · intro kv hkv
      obtain ⟨e, _, rfl⟩ := List.mem_map.1 hkv
      simp [isStrV]
    · intro kv hkv
      obtain ⟨e, _, rfl⟩ := List.mem_map.1 hkv
      simp [isStrV]
  · rfl

/-- `instance.__dict__ = d` -/
theorem storeEntry_dict {u : UState} {d : Nat} {kvs : List (Val × Val)} (hb : u.heap[b]? = some (.inst i0)) (hbase : i0.info.base = .dict)
    (hdict : i0.info.hasDict = true) (hd : u.heap[d]? = some (.dict kvs)) (hne : b ≠ d) :
    storeEntry b (.str p!"__dict__") (.ref d) u = some (.ok (), { u with heap := u.heap.set b (.inst { i0 with dictCell := some d, attrs := [] }) }) := by
  unfold storeEntry
  have h1 : storeRaw b (.str p!"__dict__") (.ref d) u = some (.ok (), { u with heap := u.heap.set b (.inst { i0 with dictCell := some d, attrs := [] }) }) := by
    unfold storeRaw
    have : isDictSub u.heap b = true := by
      simp only [isDictSub, hb, hbase]
      rfl
    simp only [this, if_true]
    unfold setItem
    simp only [hb, hd, hdict, if_true]
    rfl
  rw [bind_ok h1]
  refine noteEntry_none ?_
  simp only [proxyAddr]
  rw [List.getElem?_set_ne hne, hd]

/-- the default factory -/
theorem factory_run (hok : FactoryOk env i) {d : List (Str × Json)} (hdf : Tags.DEFAULT_FACTORY ∉ d.map (·.1)) :
    ∃ fents, Pickler.flattenDefault w cfg fl i.factory (outcome i.errs.factory i.exemplar) d = (pure (d ++ fents) : P _) ∧
      ((i.factory = none ∧ fents = []) ∨
        ∃ n k, i.factory = some (.type n) ∧ env.loadclass n = some (.type n) ∧ fents = [(k, Pickler.mktyperef n)] ∧ k ∉ d.map (·.1) ∧
          (k = Tags.DEFAULT_FACTORY ∨ k = p!"default_factory")) := by
  cases hf : i.factory with
  | none => exact ⟨[], by simp [Pickler.flattenDefault], Or.inl ⟨rfl, rfl⟩⟩
  | some f =>
    obtain ⟨n, e, hl⟩ := hok f hf
    subst e
    have key : ∀ k, k ∉ d.map (·.1) → (if dhas p!"default_factory" d then Tags.DEFAULT_FACTORY else p!"default_factory") = k →
        Pickler.flattenDefault w cfg fl (some (.type n)) (outcome i.errs.factory i.exemplar) d = (pure (d ++ [(k, Pickler.mktyperef n)]) : P _) := by
      intro k hk e
      simp only [Pickler.flattenDefault, Pickler.flattenFactory, pure_bind', e]
      rw [dset_of_not_mem _ _ _ hk]
    cases hh : dhas p!"default_factory" d with
    | true =>
      exact ⟨[(Tags.DEFAULT_FACTORY, Pickler.mktyperef n)], key Tags.DEFAULT_FACTORY hdf (by rw [hh]; rfl), Or.inr ⟨n, _, rfl, hl, rfl, hdf, Or.inl rfl⟩⟩
    | false =>
      have h0 := (dhas_eq_false_iff _ _).1 hh
      exact ⟨[(p!"default_factory", Pickler.mktyperef n)], key p!"default_factory" h0 (by rw [hh]; rfl), Or.inr ⟨n, _, rfl, hl, rfl, h0, Or.inr rfl⟩⟩

/-- `__dict__` is written, or there is nothing to write -/
theorem simOwn (hm : Matching w cfg env) (hkf : KeyFl cfg env fl) (h3 : Sim w cfg env fl rs3) (ht : i.Tidy) {i1 : Inst}
    (hat : ∀ kv ∈ i.attrs, NameOk env.keys kv.1 ∧ ValOk w.heap env kv.2) (hnd : (i.attrs.map (·.1)).Nodup)
    (hnone : i.info.hasDict = false ∨ i.eqOwnDict = true → i.attrs = [])
    {s1 : PState} {u4 : UState} (hd : 0 ≤ s1.depth) (hr : Rel w.heap Bad s1.objs u4) (hfit : ∀ kv ∈ i.attrs, Fit w env Bad kv.2)
    (hb : u4.heap[b]? = some (.inst i1)) (hinfo : i1.info = i.info) (hbase : i.info.base = .dict) (hdc : i1.dictCell = none) (hat1 : i1.attrs = [])
    (hown : Ident.dictOf a ∉ s1.objs) (hk : ∃ k : Nat, s1.objs[k]? = some (.addr a) ∧ u4.objs[k]? = some (.ref b))
    (he : i.exclude = []) {d : List (Str × Json)} (hdd : p!"__dict__" ∉ d.map (·.1)) {r s3}
    (hrun : Pickler.flattenOwnDict w cfg fl a i i.exclude d s1 = some (r, s3)) :
    ∃ own us u5 dc, r = .ok (d ++ own) ∧ (∀ k ∈ own.map (·.1), k = p!"__dict__") ∧
      mapM (entryOf env (restoreStep env rs3) b) own u4 = some (.ok us, u5) ∧
      Step w cfg [b] Bad s1 s3 u4 u5 ∧ u5.heap[b]? = some (.inst { i1 with dictCell := dc, attrs := [] }) ∧
      (∀ c, dc = some c → u4.heap.length ≤ c ∧ c < u5.heap.length) ∧
      ItemsIso (Rof Bad s3.objs u5.objs) (instAttrs w.heap i) (instAttrs u5.heap { i1 with dictCell := dc, attrs := [] }) := by
  have hia : instAttrs w.heap i = Pickler.asItems i.attrs := by simp [instAttrs, ht.dictCell, Pickler.asItems]
  unfold Pickler.flattenOwnDict at hrun
  cases hc : (i.info.hasDict && cfg.unpicklable && !i.eqOwnDict) with
  | false =>
    rw [hc] at hrun
    simp only [Bool.false_eq_true, if_false, pure_run] at hrun
    cases hrun
    have hnil : i.attrs = [] := by
      refine hnone ?_
      cases h1 : i.info.hasDict with
      | false => exact Or.inl rfl
      | true =>
        rw [h1, hm.unpicklable] at hc
        simp only [Bool.true_and, Bool.not_eq_false'] at hc
        exact Or.inr hc
    have hi1 : ({ i1 with dictCell := none, attrs := [] } : Inst) = i1 := by
      cases i1; simp only [] at hdc hat1; subst hdc hat1; rfl
    refine ⟨[], [], u4, none, by simp, by simp, rfl, Step.refl hr, by rw [hi1]; exact hb, by simp, ?_⟩
    rw [hia, hnil]
    simp [instAttrs, Pickler.asItems, ItemsIso, All2]
  | true =>
    rw [hc] at hrun
    simp only [if_true] at hrun
    have hhd : i.info.hasDict = true := by
      cases h1 : i.info.hasDict with
      | true => rfl
      | false => rw [h1] at hc; simp at hc
    have hid : Pickler.dictIdent a i = .dictOf a := by simp [Pickler.dictIdent, ht.dictCell]
    have hit : Pickler.dictItems w i = Pickler.asItems i.attrs := by simp [Pickler.dictItems, ht.dictCell]
    have hmk : Pickler.mkref cfg (.dictOf a) s1 = some (.ok true, { s1 with objs := s1.objs ++ [.dictOf a] }) := mkref_new hm hown
    rw [hid, bind_ok hmk, he, hit] at hrun
    simp only [if_true] at hrun
    have hr1 : Rel w.heap Bad (s1.objs ++ [.dictOf a]) (regU u4 (.dict [])) := hr.regOwn hown (by
      obtain ⟨k, e1, _⟩ := hk
      exact get_mem e1)
    rw [bind_run] at hrun
    cases hen : Pickler.flattenEntries w cfg fl (Pickler.asItems i.attrs) [] [] { s1 with objs := s1.objs ++ [.dictOf a] } with
    | none => rw [hen] at hrun; cases hrun
    | some p =>
      obtain ⟨r1, s4⟩ := p
      obtain ⟨dd, kvs', u5, e1, e2, hstep, hcell, hiso, _⟩ := dictBody hm hkf h3 (kvs := Pickler.asItems i.attrs) (id := .dictOf a) (s := s1) (u := u4)
        ⟨fun kv hkv => by
          obtain ⟨e, hem, rfl⟩ := List.mem_map.1 hkv
          exact ⟨Or.inl (hat e hem).1, (hat e hem).2⟩, names_pairwise hnd, fun hkeys => escapedLast_of (fun kv hkv => by
          obtain ⟨e, hem, rfl⟩ := List.mem_map.1 hkv
          have := (hat e hem).1
          rw [hkeys] at this
          exact this.noCollision)⟩
        (fun kv hkv => by
          obtain ⟨e, hem, rfl⟩ := List.mem_map.1 hkv
          exact hfit e hem) hd hr hr1 (Spot.owned hr1 (x := a) (k := s1.objs.length) (by simp) (by simp [regU, hr.len])) hen
      subst e1
      rw [hen] at hrun
      simp only [pure_run] at hrun
      rw [dset_of_not_mem _ _ _ hdd] at hrun
      cases hrun
      have hblt : b < u4.heap.length := get_lt hb
      have hb5 : u5.heap[b]? = some (.inst i1) := by
        rw [hstep.ext.cells b (by simp [regU]; omega) (by simp only [List.mem_singleton]; omega)]
        simp only [regU]
        rw [List.getElem?_append_left hblt, hb]
      have hne : b ≠ u4.heap.length := by omega
      have hstep1 := Step.regOwn hr hstep hk hblt
      have hstep2 : Step w cfg [b] Bad s3 s3 u5 { u5 with heap := u5.heap.set b (.inst { i1 with dictCell := some u4.heap.length, attrs := [] }) } :=
        Step.set hstep.rel hb5 (fun o ho => by cases o <;> simp_all [SameKind]) (by simp) (Writable.inst hstep.rel hb5)
      refine ⟨[(p!"__dict__", .obj dd)], [()], _, some u4.heap.length, rfl, by simp, ?_, hstep1.trans hstep2 (by simpa using hblt), set_get (get_lt hb5), ?_, ?_⟩
      · have h0 : entryOf env (restoreStep env rs3) b (p!"__dict__", .obj dd) u4 =
            some (.ok (), { u5 with heap := u5.heap.set b (.inst { i1 with dictCell := some u4.heap.length, attrs := [] }) }) := by
          rw [entryOf_name]
          · change (restoreTags env rs3 dd >>= fun v => storeEntry b (.str p!"__dict__") v) u4 = _
            rw [bind_ok e2]
            exact storeEntry_dict hb5 (by rw [hinfo, hbase]) (by rw [hinfo, hhd]) hcell hne
          · exact ⟨by simp only []; decide, fun _ => by simp only []; decide⟩
        rw [mapM_cons, bind_ok h0]
        rfl
      · intro c hcc
        cases hcc
        refine ⟨Nat.le_refl _, ?_⟩
        simp only [List.length_set]
        exact get_lt hcell
      · rw [hia]
        simp only [instAttrs]
        rw [List.getElem?_set_ne hne, hcell]
        simp only []
        rw [order_names] at hiso
        exact hiso

theorem body_dict (hm : Matching w cfg env) (hkf : KeyFl cfg env fl) (h : Sim w cfg env fl (restoreStep env rs3)) (h3 : Sim w cfg env fl rs3)
    (o : Open w env Bad a i i0 b s2 u3) (hn : NoState w.heap i) (hdata : CtorKeys data) (hbase : i.info.base = .dict)
    (hok : EntriesOk w.heap env i.items) (hnd : ∀ kv ∈ i.items, kv.1 ≠ .str p!"__dict__")
    (hdfk : ∀ kv ∈ i.items, kv.1 = .str p!"default_factory" → i.factory ≠ none) (hfok : FactoryOk env i)
    (hat : ∀ kv ∈ i.attrs, NameOk env.keys kv.1 ∧ ValOk w.heap env kv.2) (hnod : (i.attrs.map (·.1)).Nodup)
    (hnone : i.info.hasDict = false ∨ i.eqOwnDict = true → i.attrs = []) {r s3}
    (hrun : Pickler.flattenGetstate w cfg fl a i data s2 = some (r, s3)) :
    BodyGoal w cfg env (restoreStep env rs3) Bad i b s2 s3 u3 data r := by
  have hi := o.init
  rw [getstate_rest hn o.ok.tidy.exclude] at hrun
  unfold Pickler.flattenRest at hrun
  rw [hbase] at hrun
  simp only [Pickler.flattenDictSub, o.ok.tidy.exclude, bind_assoc'] at hrun
  rw [bind_run] at hrun
  cases hen : Pickler.flattenEntries w cfg fl i.items [] data s2 with
  | none => rw [hen] at hrun; cases hrun
  | some p =>
    obtain ⟨r1, s1⟩ := p
    obtain ⟨ents, us, acc, u4, e1, hkeys, e2, hstep, hiso, hb, hown⟩ := simItems (b := b) (i0 := i0) hm hkf h hok hnd (by rw [hi.info, hbase]) hi.items data hdata.tags
      s2 u3 r1 s1 o.depth (fun e he => o.part (Or.inr hn) (by
        simp only [Inst.parts, List.mem_append]
        exact Or.inl (Or.inl (Or.inl (Or.inl (Or.inl (Or.inl (Or.inl (Or.inl (Or.inr (List.mem_map_of_mem he)))))))))) (hok.1 e he).2) o.rel o.cell hen
    subst e1
    rw [hen] at hrun
    simp only [] at hrun
    have hdf : Tags.DEFAULT_FACTORY ∉ (data ++ ents).map (·.1) := by
      rw [List.map_append]
      intro hm
      rcases List.mem_append.1 hm with hh | hh
      · exact hdata.not (by decide) hh
      · exact (hkeys _ hh).1 df_tag
    obtain ⟨fents, f1, f2⟩ := factory_run (w := w) (cfg := cfg) (fl := fl) hfok hdf
    rw [f1, pure_bind', bind_run] at hrun
    have hk0 : ∃ k : Nat, s1.objs[k]? = some (.addr a) ∧ u4.objs[k]? = some (.ref b) := by
      obtain ⟨k, q1, q2⟩ := o.at_
      exact ⟨k, prefix_get hstep.objs q1, prefix_get hstep.ext.objs q2⟩
    have hown1 : Ident.dictOf a ∉ s1.objs := by
      intro hm
      rcases hown a hm with hh | hh
      · exact o.own hh
      · obtain ⟨k, q1, _⟩ := o.at_
        exact hh (get_mem q1)
    have hfk : ∀ k ∈ fents.map (·.1), k = Tags.DEFAULT_FACTORY ∨ k = p!"default_factory" := by
      intro k hk
      rcases f2 with ⟨_, e⟩ | ⟨n, k', _, _, e, _, h5⟩
      · subst e; cases hk
      · subst e
        simp only [List.map_cons, List.map_nil, List.mem_singleton] at hk
        subst hk
        exact h5
    have hnd1 : p!"__dict__" ∉ (data ++ ents ++ fents).map (·.1) := by
      rw [List.map_append, List.map_append]
      intro hm
      rcases List.mem_append.1 hm with hh | hh
      · rcases List.mem_append.1 hh with hh | hh
        · exact hdata.not (by decide) hh
        · exact (hkeys _ hh).2.1 rfl
      · exact absurd (hfk _ hh) (by decide)
    cases hod : Pickler.flattenOwnDict w cfg fl a i [] (data ++ ents ++ fents) s1 with
    | none => rw [hod] at hrun; cases hrun
    | some p =>
      obtain ⟨r2, s4⟩ := p
      obtain ⟨own, us2, u5, dc, g1, g2, g3, hstep2, hb5, hdc, hattrs⟩ := simOwn (b := b) (a := a) (i := i) (rs3 := rs3) hm hkf h3 o.ok.tidy
        (i1 := { i0 with items := acc }) hat hnod hnone (by rw [hstep.depth]; exact o.depth) hstep.rel
        (fun kv hkv => o.part (Or.inr hn) (by
          simp only [Inst.parts, List.mem_append]
          exact Or.inl (Or.inl (Or.inl (Or.inl (Or.inl (Or.inl (Or.inl (Or.inl (Or.inl (Or.inl (List.mem_map_of_mem hkv))))))))))) (hat kv hkv).2)
        hb hi.info hbase hi.dictCell hi.attrs hown1 hk0 o.ok.tidy.exclude hnd1 (by rw [o.ok.tidy.exclude]; exact hod)
      subst g1
      rw [hod] at hrun
      simp only [pure_run] at hrun
      cases hrun
      have hstep3 := hstep.trans hstep2 (by
        intro b' hb'
        simp only [List.mem_singleton] at hb'
        subst hb'
        exact o.lt)
      have hown_df : ∀ t, t ≠ p!"__dict__" → t ∉ own.map (·.1) := fun t ht hm => ht (g2 t hm)
      have hfacts : LoadOk env i (ents ++ fents ++ own) ∧ stripF (ents ++ fents ++ own) = ents ++ own := by
        rcases f2 with ⟨h1, h2⟩ | ⟨n, k, h1, h2, h3, h4, h5⟩
        · subst h2
          have q1 : Tags.DEFAULT_FACTORY ∉ (ents ++ ([] : List (Str × Json)) ++ own).map (·.1) := by
            rw [List.append_nil, List.map_append]
            intro hm
            rcases List.mem_append.1 hm with hh | hh
            · exact (hkeys _ hh).1 df_tag
            · exact hown_df _ (by decide) hh
          have q2 : p!"default_factory" ∉ (ents ++ ([] : List (Str × Json)) ++ own).map (·.1) := by
            rw [List.append_nil, List.map_append]
            intro hm
            rcases List.mem_append.1 hm with hh | hh
            · obtain ⟨kv, hkv, hkv'⟩ := List.mem_map.1 ((hkeys _ hh).2.2 rfl)
              exact hdfk kv hkv hkv' h1
            · exact hown_df _ (by decide) hh
          exact ⟨Or.inl ⟨h1, q1, q2⟩, by rw [stripF_none q1 q2, List.append_nil]⟩
        · subst h3
          have q0 : k ∉ ents.map (·.1) := fun hm => h4 (by rw [List.map_append]; exact List.mem_append_right _ hm)
          have q1 : k ∉ own.map (·.1) := hown_df _ (by rcases h5 with e | e <;> subst e <;> decide)
          have q2 : ents ++ [(k, Pickler.mktyperef n)] ++ own = ents ++ (k, Pickler.mktyperef n) :: own := by simp
          have q3 : k = Tags.DEFAULT_FACTORY ∨ (k = p!"default_factory" ∧ Tags.DEFAULT_FACTORY ∉ (ents ++ (k, Pickler.mktyperef n) :: own).map (·.1)) := by
            rcases h5 with e | e
            · exact Or.inl e
            · refine Or.inr ⟨e, ?_⟩
              rw [List.map_append, List.map_cons]
              intro hm
              rcases List.mem_append.1 hm with hh | hh
              · exact (hkeys _ hh).1 df_tag
              · rcases List.mem_cons.1 hh with hh | hh
                · simp only [] at hh
                  rw [e] at hh
                  exact absurd hh (by decide)
                · exact hown_df _ (by decide) hh
          rw [q2]
          exact ⟨Or.inr ⟨n, k, ents, own, h1, h2, rfl, q0, q1, q3⟩, stripF_split q0 q1 q3⟩
      refine ⟨ents ++ fents ++ own, by simp, ⟨?_, hfacts.1⟩, u5, _, ?_, hstep3, hb5, ?_, ?_, ?_⟩
      · intro k hk
        rw [List.map_append, List.map_append] at hk
        rcases List.mem_append.1 hk with hh | hh
        · rcases List.mem_append.1 hh with hh | hh
          · exact Or.inl (hkeys _ hh).1
          · rcases hfk _ hh with e | e
            · exact Or.inr (Or.inr (Or.inr e))
            · exact Or.inl (by rw [e]; decide)
        · exact Or.inl (by rw [g2 k hh]; decide)
      · rw [hfacts.2]
        refine variables_plain (mapM_append_run e2 g3) ?_ ?_
        · rw [List.map_append]
          intro hm
          rcases List.mem_append.1 hm with hh | hh
          · exact (hkeys _ hh).1 seq_tag
          · exact hown_df _ (by decide) hh
        · rw [List.map_append]
          intro hm
          rcases List.mem_append.1 hm with hh | hh
          · exact (hkeys _ hh).1 state_tag
          · exact hown_df _ (by decide) hh
      · intro d hd
        obtain ⟨q1, q2⟩ := hdc d hd
        exact ⟨Nat.le_trans hstep.ext.len q1, q2⟩
      · have hc := SameCtor.mono hstep3.mono o.ctor
        refine .fields o.hd o.ok.noReduce hi.cls (savedState_none hn) hi.state hattrs ?_ ?_ ?_ ⟨hc.noInit, hc.noReduce, hc.newargs, hc.newargsEx, hc.initargs⟩
        · exact All2.mono (fun _ _ p => ⟨VIso.mono hstep2.mono _ _ p.1, VIso.mono hstep2.mono _ _ p.2⟩) hiso
        · rw [o.ok.tidy.elems (Or.inr hbase)]
          simp only [hi.elems, VIsos]
        · simp only [hi.factory]
          rcases f2 with ⟨h1, _⟩ | ⟨n, k, h1, _⟩
          · rw [h1]; trivial
          · rw [h1]; simp [VIso]
      · rcases f2 with ⟨h1, _⟩ | ⟨n, k, h1, _⟩
        · exact fixFactory_none hb5 (by simp only [hi.factory, h1]) (by simp)
        · exact fixFactory_type hb5 (by have := hi.factory; rw [h1] at this; exact this)

end JP.Sim
