import Verif.Proofs.SimHandled
/-!
# Filling a constructed instance: attributes, dict entries, elements
-/
namespace JP.Sim
open JP PyM Unpickler

variable {w : World} {cfg : PCfg} {env : UEnv}
variable {Bad : Ctx}
variable {fl : Val → P Json} {rs rs2 rs3 : Json → U Val}
variable {a : Addr} {i i0 : Inst} {s : PState} {u : UState} {b : Nat}

/-- one entry of `restoreFromJson` -/
def entryOf (env : UEnv) (rs : Json → U Val) (b : Addr) (kv : Str × Json) : U Unit :=
  if Tags.isReserved kv.1 then pure ()
  else restoreKey env rs kv.1 >>= fun k => rs kv.2 >>= fun v => storeEntry b k v

theorem restoreFromJson_eq (kvs : List (Str × Json)) :
    restoreFromJson env rs b kvs = (mapM (entryOf env rs b) kvs >>= fun _ => (pure () : U Unit)) := rfl

theorem entryOf_reserved {kv : Str × Json} (h : Tags.isReserved kv.1 = true) : entryOf env rs b kv = pure () := by
  unfold entryOf
  rw [if_pos h]

theorem entryOf_name {kv : Str × Json} (h : NameOk env.keys kv.1) :
    entryOf env rs b kv = (rs kv.2 >>= fun v => storeEntry b (.str kv.1) v) := by
  unfold entryOf
  rw [if_neg (by rw [nameOk_reserved h]; simp)]
  have : restoreKey env rs kv.1 = pure (.str kv.1) := by
    unfold restoreKey
    split
    · next hk =>
      unfold restorePickledKey
      rw [if_neg (by simp [isJsonKey, h.2 hk])]
    · rfl
  rw [this]
  rfl

theorem jsonKey_notReserved {k : Str} (h : isJsonKey k = true) : Tags.isReserved k = false := by
  cases hr : Tags.isReserved k with
  | false => rfl
  | true =>
    exfalso
    have hm : k ∈ Tags.all := by
      simp only [Tags.isReserved, List.contains_iff_mem] at hr
      exact List.mem_append_left _ hr
    exact jsonKey_not_tag h hm

theorem entryOf_key (hk : env.keys = true) {kv : Str × Json} (h : isJsonKey kv.1 = true) :
    entryOf env rs b kv = (restorePickledKey env rs kv.1 >>= fun k => rs kv.2 >>= fun v => storeEntry b k v) := by
  unfold entryOf
  rw [if_neg (by rw [jsonKey_notReserved h]; simp)]
  unfold restoreKey
  rw [if_pos hk]

theorem dset_name {k : Str} {x : Val} {acc : List (Str × Val)} (h : k ∉ acc.map (·.1)) :
    dset k x acc = acc ++ [(k, x)] := dset_of_not_mem k x acc h

theorem noteEntry_none {k x : Val} (h : proxyAddr u.heap x = none) : noteEntry b k x u = some (.ok (), u) := by
  unfold noteEntry
  split
  · rfl
  · exact noteProxy_none h

/-- writing one attribute -/
theorem storeEntry_attr {P : List Ident} {k : Str} {x : Val} {v : Val} (hr : Rel w.heap Bad P u)
    (hb : u.heap[b]? = some (.inst i)) (hbase : i.info.base ≠ .dict) (hdc : i.dictCell = none)
    (hu : startsWith k p!"__" = false) (hok : attrOk i k = true) (hk : k ∉ i.attrs.map (·.1))
    (hiso : VIso (Rof Bad P u.objs) v x) :
    storeEntry b (.str k) x u = some (.ok (), { u with heap := u.heap.set b (.inst { i with attrs := i.attrs ++ [(k, x)] }) }) := by
  unfold storeEntry
  have h1 : storeRaw b (.str k) x u = some (.ok (), { u with heap := u.heap.set b (.inst { i with attrs := i.attrs ++ [(k, x)] }) }) := by
    unfold storeRaw
    have : isDictSub u.heap b = false := by
      simp only [isDictSub, hb]
      cases hbb : i.info.base <;> simp_all
    simp only [this, Bool.false_eq_true, if_false]
    unfold setAttrMangled
    simp only [hu, Bool.false_eq_true, if_false]
    unfold setattr
    simp only [hb, hok, if_true, hdc, dset_name hk]
  rw [bind_ok h1]
  refine noteEntry_none ?_
  exact hr.notProxy_set (o1 := .inst { i with attrs := i.attrs ++ [(k, x)] }) hb
    (fun o ho => by cases o <;> simp_all [SameKind]) hiso

/-- the attributes of an ordinary object, or of one with slots, or of a list or set subclass instance -/
theorem simAttrs (h : Sim w cfg env fl rs) {attrs : List (Str × Val)} (hok : AttrsOk w.heap env attrs)
    (hbase : i0.info.base ≠ .dict) (hdc : i0.dictCell = none) (hat : ∀ kv ∈ attrs, attrOk i0 kv.1 = true)
    (hnil : i0.attrs = []) (s : PState) (u : UState) (r) (s' : PState)
    (hd : 0 ≤ s.depth) (hf : ∀ e ∈ attrs, Fit w env Bad e.2) (hr : Rel w.heap Bad s.objs u)
    (hb : u.heap[b]? = some (.inst i0)) (hrun : mapM fl (attrs.map (·.2)) s = some (r, s')) :
    ∃ js us acc u', r = .ok js ∧ js.length = attrs.length ∧
      mapM (entryOf env rs b) ((attrs.map (·.1)).zip js) u = some (.ok us, u') ∧
      Step w cfg [b] Bad s s' u u' ∧ Paired (Rof Bad s'.objs u'.objs) attrs acc ∧
      u'.heap[b]? = some (.inst { i0 with attrs := acc }) ∧ OwnOk s.objs s'.objs := by
  have hb' : u.heap[b]? = some (Obj.inst { i0 with attrs := [] }) := by rw [hb, ← hnil]
  obtain ⟨js, us, acc, u', e1, e2, e3, e4, e5, e6, e7⟩ := simStore h b (fun acc => .inst { i0 with attrs := acc })
    (fun k v => storeEntry b (.str k) v) attrs (fun _ _ o ho => by cases o <;> simp_all [SameKind]) (fun _ _ hx => by cases hx)
    (by
      intro pre k v post hall acc x P u hr hp hiso hbb
      have hmem : (k, v) ∈ attrs := by rw [hall]; simp
      exact storeEntry_attr (i := { i0 with attrs := acc }) hr hbb hbase hdc (hok.1 _ hmem).2.2.1 (hat _ hmem)
        (fresh_name hok.2 hall hp) hiso) attrs [] [] s u r s' rfl hd hf hr (Or.inl (fun _ => ⟨_, rfl⟩)) trivial hb' hrun
  refine ⟨js, us, acc, u', e1, e2, ?_, e4, e5, e6, e7⟩
  rw [← e3]
  refine congrFun (mapM_congr ?_) _
  intro kj hkj
  obtain ⟨e, he, hek⟩ := List.mem_map.1 (mem_zip_fst hkj)
  exact entryOf_name (by rw [← hek]; exact (hok.1 e he).1)

/-- writing one entry of a dict subclass instance -/
theorem storeEntry_item {P : List Ident} {k x v : Val} (hr : Rel w.heap Bad P u)
    (hb : u.heap[b]? = some (.inst i)) (hbase : i.info.base = .dict) (hh : hashable u.heap k = true)
    (hne : k ≠ .str p!"__dict__") (hk : ∀ kv ∈ i.items, pyEq kv.1 k = false)
    (hiso : VIso (Rof Bad P u.objs) v x) :
    storeEntry b k x u = some (.ok (), { u with heap := u.heap.set b (.inst { i with items := i.items ++ [(k, x)] }) }) := by
  unfold storeEntry
  have h1 : storeRaw b k x u = some (.ok (), { u with heap := u.heap.set b (.inst { i with items := i.items ++ [(k, x)] }) }) := by
    unfold storeRaw
    have : isDictSub u.heap b = true := by simp [isDictSub, hb, hbase]
    simp only [this, if_true]
    unfold setItem
    simp only [hb]
    cases k with
    | str t =>
      have : (t == p!"__dict__") = false := by
        rw [beq_eq_false_iff_ne]
        intro e
        exact hne (by rw [e])
      simp only [this, Bool.false_eq_true, if_false, vset_new hk]
    | _ => simp only [hh, if_true, vset_new hk]
  rw [bind_ok h1]
  refine noteEntry_none ?_
  exact hr.notProxy_set (o1 := .inst { i with items := i.items ++ [(k, x)] }) hb
    (fun o ho => by cases o <;> simp_all [SameKind]) hiso

theorem items_name {k : Str} {acc : List (Str × Val)} (h : k ∉ acc.map (·.1)) :
    ∀ kv ∈ Pickler.asItems acc, pyEq kv.1 (.str k) = false := by
  intro kv hkv
  obtain ⟨e, he, rfl⟩ := List.mem_map.1 hkv
  simp only [pyEq, beq_eq_false_iff_ne]
  intro e'
  exact h (by rw [← e']; exact List.mem_map_of_mem he)

/-- the entries of a dict subclass instance -/
theorem simItems (hm : Matching w cfg env) (hkf : KeyFl cfg env fl) (h : Sim w cfg env fl rs) {items : List (Val × Val)}
    (hok : EntriesOk w.heap env items) (hnd : ∀ kv ∈ items, kv.1 ≠ .str p!"__dict__") (hbase : i0.info.base = .dict)
    (hnil : i0.items = []) (data : List (Str × Json)) (hdata : ∀ k ∈ data.map (·.1), k ∈ Tags.all)
    (s : PState) (u : UState) (r) (s' : PState)
    (hd : 0 ≤ s.depth) (hf : ∀ e ∈ items, Fit w env Bad e.2) (hr : Rel w.heap Bad s.objs u)
    (hb : u.heap[b]? = some (.inst i0)) (hrun : Pickler.flattenEntries w cfg fl items [] data s = some (r, s')) :
    ∃ ents us acc u', r = .ok (data ++ ents) ∧
      (∀ k ∈ ents.map (·.1), k ∉ Tags.all ∧ k ≠ p!"__dict__" ∧ (k = p!"default_factory" → .str p!"default_factory" ∈ items.map (·.1))) ∧
      mapM (entryOf env rs b) ents u = some (.ok us, u') ∧
      Step w cfg [b] Bad s s' u u' ∧ ItemsIso (Rof Bad s'.objs u'.objs) (orderOf cfg items) acc ∧
      u'.heap[b]? = some (.inst { i0 with items := acc }) ∧ OwnOk s.objs s'.objs := by
  have hnok : ∀ e ∈ strsOf cfg.keys items, NameOk cfg.keys e.1 ∧ ValOk w.heap env e.2 := by
    intro e he
    have := hok.1 _ (mem_strsOf he)
    exact ⟨keyOk_name hm this.1 (strsOf_plain he), this.2⟩
  have hfits : ∀ e ∈ strsOf cfg.keys items, Fit w env Bad e.2 := fun e he => hf _ (mem_strsOf he)
  have hnod := strsOf_nodup (keys := cfg.keys) hok.2.1
  have hb' : u.heap[b]? = some (Obj.inst { i0 with items := Pickler.asItems [] }) := by
    rw [hb]; simp [Pickler.asItems, ← hnil]
  have hdisj : ∀ e ∈ strsOf cfg.keys items, e.1 ∉ data.map (·.1) := fun e he hmem => (hnok e he).1.1 (hdata _ hmem)
  have strs := fun r1 s1 => simStore (Bad := Bad) h b (fun acc => .inst { i0 with items := Pickler.asItems acc })
    (fun k v => storeEntry b (.str k) v) (strsOf cfg.keys items) (fun _ _ o ho => by cases o <;> simp_all [SameKind]) (fun _ _ hx => by cases hx)
    (by
      intro pre k v post hall acc x P u hr hp hiso hbb
      have hmem : (k, v) ∈ strsOf cfg.keys items := by rw [hall]; simp
      have := storeEntry_item (i := { i0 with items := Pickler.asItems acc }) (k := .str k) hr hbb hbase (by simp [hashable])
        (hnd _ (mem_strsOf hmem)) (items_name (fresh_name hnod hall hp)) hiso
      rw [this]
      simp [Pickler.asItems]) (strsOf cfg.keys items) [] [] s u r1 s1 rfl hd hfits hr (Or.inl (fun _ => ⟨_, rfl⟩)) trivial hb'
  have hnames : ∀ {js : List Json} {u1 : UState}, mapM (entryOf env rs b) (((strsOf cfg.keys items).map (·.1)).zip js) u1 =
      mapM (fun kj : Str × Json => rs kj.2 >>= fun v => storeEntry b (.str kj.1) v) (((strsOf cfg.keys items).map (·.1)).zip js) u1 := by
    intro js u1
    refine congrFun (mapM_congr ?_) _
    intro kj hkj
    obtain ⟨e, he, hek⟩ := List.mem_map.1 (mem_zip_fst hkj)
    exact entryOf_name (by rw [← hek, ← hm.keys]; exact (hnok e he).1)
  have hkeyc : ∀ k ∈ (strsOf cfg.keys items).map (·.1), k ∉ Tags.all ∧ k ≠ p!"__dict__" ∧ (k = p!"default_factory" → .str p!"default_factory" ∈ items.map (·.1)) := by
    intro k hk
    obtain ⟨e, he, rfl⟩ := List.mem_map.1 hk
    refine ⟨(hnok e he).1.1, fun e' => hnd _ (mem_strsOf he) (by rw [e']), fun e' => ?_⟩
    rw [← e']
    exact List.mem_map.2 ⟨_, mem_strsOf he, rfl⟩
  cases hk : cfg.keys with
  | false =>
    rw [hk] at hnok hfits hnod hdisj strs hnames hkeyc
    have hkvs : Pickler.asItems (strsOf false items) = items := all_strs (by rw [← hm.keys, hk]) (fun kv hkv => (hok.1 kv hkv).1)
    have henc := entries_str (w := w) (cfg := cfg) (fl := fl) (strsOf false items) data (by rw [hk]; exact hnok) hnod hdisj
    rw [hkvs] at henc
    rw [henc, bind_run] at hrun
    cases hmm : mapM fl ((strsOf false items).map (·.2)) s with
    | none => rw [hmm] at hrun; cases hrun
    | some p =>
      obtain ⟨r1, s1⟩ := p
      obtain ⟨js, us, acc, u2, e1, hlen, e2, hstep, hp, hb2, ho⟩ := strs r1 s1 hmm
      subst e1
      rw [hmm] at hrun
      simp only [pure_run] at hrun
      cases hrun
      refine ⟨((strsOf false items).map (·.1)).zip js, us, Pickler.asItems acc, u2, rfl, ?_, ?_, hstep, ?_, hb2, ho⟩
      · rw [zip_keys _ _ (by simpa using hlen)]; exact hkeyc
      · rw [hnames]; exact e2
      · simp only [orderOf, hk, Bool.false_eq_true, if_false]
        have := hp.items
        rwa [hkvs] at this
  | true =>
    rw [hk] at hnok hfits hnod hdisj strs hnames hkeyc
    have hkeys : env.keys = true := by rw [← hm.keys, hk]
    have hl := hok.2.2 hkeys
    rw [entries_keyed hk items data hl (by rw [hk]; exact hnok) hnod hdisj, bind_run] at hrun
    cases hmm : mapM fl ((strsOf true items).map (·.2)) s with
    | none => rw [hmm] at hrun; cases hrun
    | some p =>
      obtain ⟨r1, s1⟩ := p
      obtain ⟨js, us, base, u2, e1, hlen, e2, hstep, hp, hb2, ho⟩ := strs r1 s1 hmm
      subst e1
      rw [hmm] at hrun
      simp only [] at hrun
      have hvk : ∀ e ∈ keyedOf items, ValueKey env e.1 ∧ plainKey true e.1 = false := by
        intro e he
        obtain ⟨h1, h2⟩ := keyed_mem he
        exact ⟨keyOk_keyed hkeys (hok.1 e h1).1 h2, h2⟩
      have hpw := keyed_pairwise hok.2.1
      have hbase' : ∀ e ∈ base, plainKey true (.str e.1) = true := by
        intro e he
        have : e.1 ∈ base.map (·.1) := List.mem_map_of_mem he
        rw [hp.labels] at this
        obtain ⟨e', he', hee⟩ := List.mem_map.1 this
        rw [← hee]
        exact strsOf_plain he'
      have hks : KeyStore w Bad b (fun acc => .inst { i0 with items := Pickler.asItems base ++ acc })
          (fun k v => storeEntry b k v) (keyedOf items) := by
        intro pre k v post hall acc kx x P u hr hp hisok hiso hb
        obtain ⟨hvk', hns⟩ := hvk (k, v) (by rw [hall]; simp)
        simp only [] at hvk' hns
        have hh : hashable u.heap kx = true := hr.hashable_iso hisok (valueKey_ok (h := w.heap) k hvk').2.1
        have hkd : kx ≠ .str p!"__dict__" := by
          intro e
          rw [e] at hisok
          have hk' : k = .str p!"__dict__" := by cases k <;> simp_all [VIso]
          exact hnd (k, v) (keyed_mem (by rw [hall]; simp)).1 hk'
        have := storeEntry_item (i := { i0 with items := Pickler.asItems base ++ acc }) hr hb hbase hh
          hkd (by
            intro kv hkv
            rcases List.mem_append.1 hkv with h | h
            · obtain ⟨e, he, rfl⟩ := List.mem_map.1 h
              exact pyEq_plain_ne (hbase' e he) hns hisok
            · obtain ⟨y, hy, hi⟩ := ItemsIso.mem hp kv h
              rw [hr.pyEq_iso hi hisok]
              rw [hall, List.map_append, List.pairwise_append] at hpw
              exact hpw.2.2 y.1 (List.mem_map_of_mem hy) k (by simp)) hiso
        change storeEntry b kx x u = _
        rw [this]
        simp
      have hjk : ∀ k ∈ data.map (·.1) ++ (strsOf true items).map (·.1), isJsonKey k = false := by
        intro k hk'
        rcases List.mem_append.1 hk' with h | h
        · have : ∀ t ∈ Tags.all, isJsonKey t = false := by decide
          exact this k (hdata k h)
        · obtain ⟨e', he', rfl⟩ := List.mem_map.1 h
          exact (hnok e' he').1.2 rfl
      cases hf2 : foldM (encEntry w cfg fl)
          (data ++ ((strsOf true items).map (·.1)).zip js) (keyedOf items) s1 with
      | none => rw [hf2] at hrun; cases hrun
      | some p =>
        obtain ⟨r2, s2⟩ := p
        obtain ⟨js2, us2, acc, u3, e3, hlen2, e4, hstep2, hp2, hb3, ho2⟩ := simKeyed hm hk hkf h b
          (fun acc => .inst { i0 with items := Pickler.asItems base ++ acc }) _ (keyedOf items)
          (fun _ _ o ho => by cases o <;> simp_all [SameKind]) (fun _ _ hx => by cases hx) hks hpw (keyedOf items) [] []
          (data ++ ((strsOf true items).map (·.1)).zip js) s1 u2 r2 s2 rfl (by rw [hstep.depth]; exact hd)
          (fun e he => ⟨(hvk e he).1, hf e (keyed_mem he).1⟩)
          (fun e he hmem => by
            rw [List.map_append, zip_keys _ _ (by simpa using hlen)] at hmem
            have := hjk _ hmem
            rw [encKey_isJsonKey] at this
            cases this) hstep.rel (Or.inl (fun _ => ⟨_, rfl⟩)) trivial (by simpa using hb2) hf2
        subst e3
        rw [hf2] at hrun
        cases hrun
        have hstep3 := hstep.trans hstep2 (by
          intro b' hb'
          simp only [List.mem_singleton] at hb'
          subst hb'
          exact get_lt hb)
        refine ⟨((strsOf true items).map (·.1)).zip js ++ ((keyedOf items).map (fun e => encKey w cfg e.1)).zip js2, us ++ us2,
          Pickler.asItems base ++ acc, u3, by rw [List.append_assoc], ?_, ?_, hstep3, ?_, hb3, ho.trans hstep.objs ho2⟩
        · rw [List.map_append, zip_keys _ _ (by simpa using hlen), zip_keys _ _ (by simpa using hlen2)]
          intro k hk'
          rcases List.mem_append.1 hk' with h' | h'
          · exact hkeyc k h'
          · obtain ⟨e', _, rfl⟩ := List.mem_map.1 h'
            have hj := encKey_isJsonKey (w := w) (cfg := cfg) e'.1
            have hd1 : isJsonKey p!"__dict__" = false := by decide
            have hd2 : isJsonKey p!"default_factory" = false := by decide
            refine ⟨jsonKey_not_tag hj, fun e => ?_, fun e => ?_⟩
            · rw [e, hd1] at hj; cases hj
            · rw [e, hd2] at hj; cases hj
        · refine mapM_append_run (s1 := u2) (by rw [hnames]; exact e2) ?_
          rw [← e4]
          refine congrFun (mapM_congr ?_) _
          intro kj hkj
          obtain ⟨e', _, he'⟩ := List.mem_map.1 (mem_zip_fst hkj)
          exact entryOf_key (by rw [← hm.keys, hk]) (by rw [← he']; exact encKey_isJsonKey _)
        · rw [order_keyed hk hl]
          exact All2.append (Paired.items (hp.mono hstep2.mono)) hp2

theorem mapM_zip_unit {σ β : Type} {f : Json → PyM σ β} : ∀ {js : List Json} {n : Nat}, js.length = n →
    mapM (fun kj : Unit × Json => f kj.2) ((List.replicate n ()).zip js) = mapM f js
  | [], 0, _ => rfl
  | j :: js, n + 1, h => by
    simp only [List.replicate_succ, List.zip_cons_cons, mapM_cons]
    rw [mapM_zip_unit (by simpa using h)]
  | [], _ + 1, h => by simp at h
  | _ :: _, 0, h => by simp at h

theorem modInst_run {f : Inst → Inst} (hb : u.heap[b]? = some (.inst i)) :
    modInst b f u = some (.ok (), { u with heap := u.heap.set b (.inst (f i)) }) := by
  simp [modInst, hb]

theorem paired_elems {R : Addr → Addr → Prop} : ∀ {xs : List Val} {acc : List (Unit × Val)},
    Paired R (xs.map (fun v => ((), v))) acc → VIsos R xs (acc.map (·.2))
  | [], [], _ => by simp [VIsos]
  | x :: xs, y :: ys, h => by
    simp only [List.map_cons, VIsos]
    exact ⟨h.1.2, paired_elems h.2⟩
  | [], _ :: _, h => h.elim
  | _ :: _, [], h => h.elim

/-- the elements of a list or set subclass instance -/
theorem simElems (h : Sim w cfg env fl rs) {elems : List Val}
    (hbase : i0.info.base = .list ∨ (i0.info.base = .set ∧ hashables w.heap elems = true ∧
      elems.Pairwise (fun x y => pyEq x y = false)))
    (hnil : i0.elems = []) (s : PState) (u : UState) (r) (s' : PState)
    (hd : 0 ≤ s.depth) (hf : ∀ e ∈ elems, Fit w env Bad e) (hr : Rel w.heap Bad s.objs u)
    (hb : u.heap[b]? = some (.inst i0)) (hrun : mapM fl elems s = some (r, s')) :
    ∃ js acc u', r = .ok js ∧ restoreSeq rs b (.arr js) u = some (.ok (), u') ∧
      Step w cfg [b] Bad s s' u u' ∧ VIsos (Rof Bad s'.objs u'.objs) elems acc ∧
      u'.heap[b]? = some (.inst { i0 with elems := acc }) ∧ OwnOk s.objs s'.objs := by
  have hb' : u.heap[b]? = some (Obj.inst { i0 with elems := (([] : List (Unit × Val)).map (·.2)) }) := by
    rw [hb]; simp [← hnil]
  have hmap : (elems.map (fun v => ((), v))).map (·.2) = elems := by simp [Function.comp_def]
  have hmap1 : (elems.map (fun v => ((), v))).map (·.1) = List.replicate elems.length () := by
    simp [Function.comp_def, List.map_const']
  rcases hbase with hbase | ⟨hbase, hhash, hpw⟩
  · obtain ⟨js, us, acc, u', e1, e2, e3, e4, e5, e6, e7⟩ := simStore h b (fun acc : List (Unit × Val) => .inst { i0 with elems := acc.map (·.2) })
      (fun _ v => modInst b (fun i => { i with elems := i.elems ++ [v] })) (elems.map (fun v => ((), v)))
      (fun _ _ o ho => by cases o <;> simp_all [SameKind]) (fun _ _ hx => by cases hx)
      (by
        intro pre k v post hall acc x P u hr hp hiso hbb
        rw [modInst_run hbb]
        simp) (elems.map (fun v => ((), v))) [] [] s u r s' rfl hd
      (by
        intro e he
        obtain ⟨v, hv, rfl⟩ := List.mem_map.1 he
        exact hf v hv) hr (Or.inl (fun _ => ⟨_, rfl⟩)) trivial hb' (by rw [hmap]; exact hrun)
    refine ⟨js, acc.map (·.2), u', e1, ?_, e4, paired_elems e5, e6, e7⟩
    unfold restoreSeq
    rw [bind_ok (get_run _)]
    simp only [infoOf, hb, hbase, jsonIter]
    rw [bind_ok (ofExcept_run _ _)]
    rw [hmap1, mapM_zip_unit (f := fun j => rs j >>= fun v => modInst b (fun i => { i with elems := i.elems ++ [v] })) (by simpa using e2)] at e3
    rw [bind_ok e3]
    rfl
  · obtain ⟨js, us, acc, u', e1, e2, e3, e4, e5, e6, e7⟩ := simStore h b (fun acc : List (Unit × Val) => .inst { i0 with elems := acc.map (·.2) })
      (fun _ v => get >>= fun s => if hashable s.heap v then modInst b (fun i => { i with elems := sadd v i.elems }) else throw .typeError)
      (elems.map (fun v => ((), v)))
      (fun _ _ o ho => by cases o <;> simp_all [SameKind]) (fun _ _ hx => by cases hx)
      (by
        intro pre k v post hall acc x P u hr hp hiso hbb
        rw [bind_ok (get_run _)]
        have hel : elems = pre.map (·.2) ++ v :: post.map (·.2) := by
          rw [← hmap, hall]; simp
        have hv : v ∈ elems := by rw [hel]; simp
        have hpre : pre = (pre.map (·.2)).map (fun v => ((), v)) := by simp [Function.comp_def]
        rw [hpre] at hp
        have hx := hr.hashable_iso hiso (hashables_mem hhash v hv)
        simp only [hx, if_true]
        rw [modInst_run hbb]
        have hs := sadd_new hr (paired_elems hp) hiso (by
          intro y hy
          rw [hel, List.pairwise_append] at hpw
          exact hpw.2.2 y hy v (by simp))
        simp only [hs]
        simp) (elems.map (fun v => ((), v))) [] [] s u r s' rfl hd
      (by
        intro e he
        obtain ⟨v, hv, rfl⟩ := List.mem_map.1 he
        exact hf v hv) hr (Or.inl (fun _ => ⟨_, rfl⟩)) trivial hb' (by rw [hmap]; exact hrun)
    refine ⟨js, acc.map (·.2), u', e1, ?_, e4, paired_elems e5, e6, e7⟩
    unfold restoreSeq
    rw [bind_ok (get_run _)]
    simp only [infoOf, hb, hbase, jsonIter]
    rw [bind_ok (ofExcept_run _ _)]
    rw [hmap1, mapM_zip_unit (f := fun j => rs j >>= fun v => get >>= fun s => if hashable s.heap v then modInst b (fun i => { i with elems := sadd v i.elems }) else throw .typeError) (by simpa using e2)] at e3
    rw [bind_ok e3]
    rfl

end JP.Sim
