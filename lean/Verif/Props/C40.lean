import Verif.Proofs.RoundTrip
import Verif.Proofs.Run
import Verif.SampleCovered
import Verif.Proofs.UKinds
import Verif.Props.C15
/-!
# C40 — the state protocol delivers the saved state

For an instance whose class defines `__getstate__` and `__setstate__`: the rebuilt instance has the same class, was made
without `__init__`, and `__setstate__` was given a value isomorphic to the one that `__getstate__` returned — in the same
isomorphism that relates the whole graphs, so sharing between the state and the rest of the graph is kept.

`state_delivered` says this of the covered graphs; `state_written` and `state_used` say for every graph and every document what is
written for the state and what `__setstate__` is called with.

A falsy state is not delivered (`falsy_state_skipped`; this is part of `savedState`), nor is the state of an instance of a subclass
of `tuple` (`tuple_state_skipped`).
-/
namespace JP.C40
open JP Sample

/-- The object under the path `ps`, which has a saved state `st`.  `i'.state` is what `__setstate__` was last called with;
that it is called only once is not part of the statement (the decoder has one call site, in `restoreState`). -/
theorem state_delivered (w : World) (cfg : PCfg) (env : UEnv) (v x : Val) (text : Str) (u u' : UState)
    (hc : Covered w cfg env v) (he : Encodes w cfg v text) (hd : Decodes env text u x u')
    (ps : List Access) (a : Addr) (i : Inst) (st : Val)
    (hp : walk (writeOrder cfg.keys) (saved (hasHandler w) w.heap) w.heap v ps = some (.ref a))
    (ha : w.heap[a]? = some (.inst i)) (hh : hasHandler w i.cls = false) (hr : i.info.reduces = false)
    (hst : i.info.hasSetstate = true) (hs : savedState w.heap i = some st) :
    ∃ R : Addr → Addr → Prop, (∀ a b b', R a b → R a b' → b = b') ∧ (∀ a a' b, R a b → R a' b → a = a') ∧
      (∀ a b, R a b → ∃ o o', w.heap[a]? = some o ∧ u'.heap[b]? = some o' ∧
        SameCell (writeOrder cfg.keys) (hasHandler w) w.heap u'.heap R o o') ∧
      VIso R v x ∧
      ∃ b i' st', walk id anyPart u'.heap x ps = some (.ref b) ∧ u'.heap[b]? = some (.inst i') ∧ R a b ∧
        i'.cls = i.cls ∧ i'.viaCall = false ∧ i'.state = .ok st' ∧ VIso R st st' := by
  obtain ⟨R, f, g, hv, hR⟩ := hc.graph he hd
  refine ⟨R, f, g, hR, hv, ?_⟩
  obtain ⟨z, h1, h2⟩ := walk_iso hR ps hv hp
  cases z <;> simp only [VIso] at h2
  rename_i b
  obtain ⟨o1, o', e1, e2, e3⟩ := hR a b h2
  rw [ha] at e1
  cases e1
  cases o' <;> simp only [SameCell] at e3
  rename_i i'
  cases e3 with
  | handled q => rw [hh] at q; cases q
  | reduced _ q => rw [hr] at q; cases q
  | fields _ _ _ q => rw [hs] at q; cases q
  | stateAttrs _ _ _ q => rw [hst] at q; cases q
  | state _ _ q1 _ q2 q3 q4 q5 =>
    rw [hs] at q2
    cases q2
    exact ⟨b, i', _, h1, e2, h2, q1, q5.noInit, q3, q4⟩

/-- In the sample graph `x[12]` has the state `{"s": x[12]}`: after the round trip, too. -/
example (text : Str) (x : Val) (u' : UState) (he : Encodes (program.world graph) {} (.ref 0) text)
    (hd : Decodes program.env text {} x u') :
    ∃ b i' d, walk id anyPart u'.heap x [.elem 12] = some (.ref b) ∧ u'.heap[b]? = some (.inst i') ∧ i'.viaCall = false ∧
      i'.state = .ok (.ref d) ∧ u'.heap[d]? = some (.dict [(.str p!"s", .ref b)]) := by
  obtain ⟨R, f, g, hR, hv, b, i', st', h1, h2, h3, h4, h5, h6, h7⟩ := state_delivered _ _ _ _ _ _ _ _ (covered false) he hd
    [.elem 12] 4 _ (.ref 5) rfl rfl rfl rfl rfl rfl
  cases st' <;> simp only [VIso] at h7
  rename_i d
  obtain ⟨o, o', e1, e2, e3⟩ := hR _ _ h7
  cases e1
  cases o' <;> simp only [SameCell] at e3
  rename_i kvs
  refine ⟨b, i', d, h1, h2, h5, h6, ?_⟩
  match kvs, e3 with
  | [(k, y)], e3 =>
    obtain ⟨⟨e4, e5⟩, -⟩ := e3
    cases k <;> simp only [VIso] at e4
    cases y <;> simp only [VIso] at e5
    rw [f _ _ _ e5 h3, ← e4] at e2
    exact e2
  | _ :: _ :: _, e3 => exact e3.2.elim
  | [], e3 => exact e3.elim

/-! ### for every graph and every document -/

def infoS : ClassInfo := { ownGetstate := true, hasSetstate := true }
def infoT : ClassInfo := { ownGetstate := true, hasSetstate := true, base := .tuple, hasNewargs := true }
def prog : Program where
  infos := [(p!"m.S", infoS), (p!"m.T", infoT)]

section
open PyM Unpickler

/-- What is written for an object with a state: the class, the arguments of the constructor if there are any, and the state. -/
theorem state_written (w : World) (cfg : PCfg) (fl : Val → P Json) (a : Addr) (i : Inst) (st : Val) (hu : cfg.unpicklable = true)
    (hh : w.handler i.cls = none) (hr : i.info.reduces = false) (hx : i.exclude = []) (hs : savedState w.heap i = some st) :
    Pickler.flattenInst w cfg fl a i = (Pickler.flattenNewargs fl i [(Tags.OBJECT, .str i.cls)] >>= fun d => Pickler.flattenInitargs fl i d >>= fun d =>
      fl st >>= fun j => (pure (.obj (dset Tags.STATE j d)) : PyM PState Json)) := by
  unfold Pickler.flattenInst
  rw [hh]
  unfold Pickler.flattenReduce
  rw [hu, hr]
  simp only [Bool.and_false, Bool.false_eq_true, if_false, Pickler.flattenBody, Pickler.objTag, hu, if_true]
  unfold savedState at hs
  congr 1
  funext d
  congr 1
  funext d
  unfold Pickler.flattenGetstate
  split at hs
  · next h1 =>
    rw [if_pos h1]
    split at hs
    · next st' h2 =>
      split at hs
      · next h3 =>
        cases hs
        rw [h2]
        dsimp only
        split
        · next kvs hk =>
          rw [hx] at hk
          split at hk
          · split at hk <;> cases hk
          · cases hk
        · rw [if_pos h3]
          unfold Pickler.putState
          rw [hu]
          rfl
      · cases hs
    · cases hs
  · cases hs

theorem newargs_first {fl : Val → P Json} {i : Inst} {p : Str × Json} {d d' : List (Str × Json)} {s s' : PState} (hp : p.1 = p!"py/object")
    (h : Pickler.flattenNewargs fl i (p :: d) s = some (.ok d', s')) : ∃ r, d' = p :: r := by
  obtain ⟨k, j⟩ := p
  cases hp
  unfold Pickler.flattenNewargs at h
  split at h
  · obtain ⟨_, _, _, h2⟩ := bind_eq_ok.1 h
    obtain ⟨_, _, _, h3⟩ := bind_eq_ok.1 h2
    obtain ⟨_, _, _, h4⟩ := bind_eq_ok.1 h3
    cases h4
    exact ⟨_, rfl⟩
  · split at h
    · obtain ⟨_, _, _, h2⟩ := bind_eq_ok.1 h
      obtain ⟨_, _, _, h3⟩ := bind_eq_ok.1 h2
      cases h3
      exact ⟨_, rfl⟩
    · cases h
      exact ⟨_, rfl⟩

theorem initargs_first {fl : Val → P Json} {i : Inst} {p : Str × Json} {d d' : List (Str × Json)} {s s' : PState} (hp : p.1 = p!"py/object")
    (h : Pickler.flattenInitargs fl i (p :: d) s = some (.ok d', s')) : ∃ r, d' = p :: r := by
  obtain ⟨k, j⟩ := p
  cases hp
  unfold Pickler.flattenInitargs at h
  split at h
  · obtain ⟨_, _, _, h2⟩ := bind_eq_ok.1 h
    obtain ⟨_, _, _, h3⟩ := bind_eq_ok.1 h2
    cases h3
    exact ⟨_, rfl⟩
  · cases h
    exact ⟨_, rfl⟩

/-- For an object with a state that is met for the first time (and not cut off by `max_depth`), `encode` writes its class, the arguments of its constructor if there are any,
and last, under `py/state`, the state, which is encoded after the arguments.  With `fail_safe` the object may be replaced instead. -/
theorem state_in_document (w : World) (cfg : PCfg) (a : Addr) (i : Inst) (ha : w.heap[a]? = some (.inst i)) (st : Val) (hu : cfg.unpicklable = true)
    (hh : w.handler i.cls = none) (hr : i.info.reduces = false) (hx : i.exclude = []) (hst : savedState w.heap i = some st)
    (m : Nat) (s s' : PState) (hs : New a s) (hd : cfg.maxDepth ≠ some (s.depth + 1)) (j : Json)
    (h : Pickler.flatten w cfg (m + 1) (.ref a) s = some (.ok j, s')) :
    (∃ d k s1 s2, j = .obj ((p!"py/object", .str i.cls) :: d ++ [(p!"py/state", k)]) ∧
      (∀ e ∈ d, e.1 = p!"py/newargs" ∨ e.1 = p!"py/newargsex" ∨ e.1 = p!"py/initargs" ∨ e.1 = p!"py/object") ∧
      Pickler.flatten w cfg m st s1 = some (.ok k, s2)) ∨ Replaced cfg j := by
  refine (Pickler.level_inst ha hs hd h).imp (fun ⟨s2, h1⟩ => ?_) id
  rw [state_written w cfg _ a i st hu hh hr hx hst] at h1
  obtain ⟨d1, s3, h2, h1⟩ := bind_eq_ok.1 h1
  obtain ⟨d2, s4, h3, h1⟩ := bind_eq_ok.1 h1
  obtain ⟨k, s5, h4, h1⟩ := bind_eq_ok.1 h1
  cases h1
  have hd0 : C15.Head [(Tags.OBJECT, Json.str i.cls)] := by
    intro k hk
    obtain rfl := List.mem_singleton.1 hk
    exact .head _
  have hd2 := C15.initargs_head h3 (C15.newargs_head h2 hd0)
  obtain ⟨r1, rfl⟩ := newargs_first rfl h2
  obtain ⟨r2, rfl⟩ := initargs_first rfl h3
  refine ⟨r2, k, s4, _, ?_, fun e he => ?_, h4⟩
  · rw [C15.dset_last]
    · rfl
    · intro hk
      exact absurd (hd2 _ hk) (by decide)
  · have := hd2 e.1 (List.mem_map.2 ⟨e, .tail _ he, rfl⟩)
    simp only [List.mem_cons, List.not_mem_nil, or_false] at this
    rcases this with h | h | h | h
    · exact .inr (.inr (.inr h))
    · exact .inl h
    · exact .inr (.inl h)
    · exact .inr (.inr (.inl h))

example : savedState [] { cls := p!"m.S", info := infoS, state := .ok (.int 5) } = some (.int 5) ∧
    Sample.res (Pickler.flatten (Sample.world [.inst { cls := p!"m.S", info := { infoS with hasInitargs := true }, state := .ok (.int 5), initargs := .tuple 1 [.int 2] }]) {} 5 (.ref 0) {}) =
      some (.ok (.obj [(p!"py/object", .str p!"m.S"), (p!"py/initargs", .obj [(p!"py/tuple", .arr [.int 2])]), (p!"py/state", .int 5)])) :=
  ⟨rfl, by decide +kernel⟩

theorem inst_at {h : Heap} {a : Addr} {i : Inst} (e : h[a]? = some (.inst i)) {h' : Heap} (k : KindsKept h h') :
    ∃ i', h'[a]? = some (.inst i') ∧ i'.cls = i.cls ∧ i'.info = i.info ∧ i'.viaCall = i.viaCall := by
  obtain ⟨o, e', q⟩ := k _ _ e
  cases o <;> simp only [SameKind] at q
  exact ⟨_, e', q⟩

/-- `__setstate__` of the object in cell `a` is called with what the document of the state denotes. -/
theorem variables_state {env : UEnv} {n : Nat} {a : Addr} {kvs : List (Str × Json)} {S : Json} {i : Inst} {u u' : UState} {v : Val}
    (hS : dget Tags.STATE kvs = some S) (hi : u.heap[a]? = some (.inst i)) (hst : i.info.hasSetstate = true)
    (h : restoreVariables env (restore env n) a kvs u = some (.ok v, u')) :
    ∃ u1 u2 st i', restore env n S u1 = some (.ok st, u2) ∧ v = .ref a ∧ u'.heap[a]? = some (.inst i') ∧ i'.state = .ok st ∧
      i'.cls = i.cls ∧ i'.info = i.info ∧ i'.viaCall = i.viaCall := by
  unfold restoreVariables at h
  obtain ⟨_, u1, h1, h⟩ := bind_eq_ok.1 h
  obtain ⟨_, u2, h2, h⟩ := bind_eq_ok.1 h
  rw [hS] at h
  have h : restoreState (restore env n) a S u2 = some (.ok v, u') := h
  unfold restoreState at h
  obtain ⟨st, u3, h3, h⟩ := bind_eq_ok.1 h
  obtain ⟨s, u4, h4, h⟩ := bind_eq_ok.1 h
  cases h4
  obtain ⟨i3, e3, q1, q2, q3⟩ := inst_at hi (((st_restoreFromJson (st_restore n) a kvs _ _ _ h1).trans (st_restoreSeqTag (st_restore n) a kvs _ _ _ h2)).trans (st_restore n S _ _ _ h3))
  have q : infoOf u3.heap a = i3.info := by unfold infoOf; rw [e3]
  rw [q, q2, if_pos hst] at h
  obtain ⟨_, u5, h5, h⟩ := bind_eq_ok.1 h
  cases h
  unfold modInst at h5
  rw [modify_run] at h5
  cases h5
  refine ⟨u2, u3, st, { i3 with state := .ok st }, h3, rfl, ?_, rfl, q1, q2, q3⟩
  rw [e3]
  dsimp only
  rw [List.getElem?_set, if_pos rfl, if_pos]
  rcases Nat.lt_or_ge a u3.heap.length with q | q
  · exact q
  · rw [List.getElem?_eq_none q] at e3; cases e3

theorem fixFactory_state {a : Addr} {u u' : UState} {i : Inst} {x : Unit} (hi : u.heap[a]? = some (.inst i)) (h : fixFactory (.ref a) u = some (.ok x, u')) :
    ∃ i', u'.heap[a]? = some (.inst i') ∧ i'.state = i.state ∧ i'.cls = i.cls ∧ i'.viaCall = i.viaCall := by
  have hl : a < u.heap.length := by
    rcases Nat.lt_or_ge a u.heap.length with q | q
    · exact q
    · rw [List.getElem?_eq_none q] at hi; cases hi
  unfold fixFactory at h
  rw [modify_run] at h
  simp only [hi] at h
  cases h
  repeat' split
  all_goals first
    | exact ⟨i, hi, rfl, rfl, rfl⟩
    | exact ⟨_, List.getElem?_set_self hl, rfl, rfl, rfl⟩

theorem raw_obj {kvs : List (Str × Json)} {u u' : UState} {v : Val} (h : raw (.obj kvs) u = some (.ok v, u')) : ∃ b d, v = .ref b ∧ u'.heap[b]? = some (.dict d) := by
  unfold raw at h
  obtain ⟨d, u1, _, h⟩ := bind_eq_ok.1 h
  obtain ⟨b, u2, h2, h⟩ := bind_eq_ok.1 h
  cases h2
  cases h
  exact ⟨_, d, rfl, by simp⟩

theorem missing_dict {env : UEnv} {n : Str} {kvs : List (Str × Json)} {u u' : UState} {b : Addr} {i' : Inst}
    (h : (processMissing env n >>= fun _ => raw (.obj kvs) >>= fun r => mkref r : PyM UState Val) u = some (.ok (.ref b), u')) (hb : u'.heap[b]? = some (.inst i')) : False := by
  obtain ⟨_, u1, _, h⟩ := bind_eq_ok.1 h
  obtain ⟨r, u2, h2, h⟩ := bind_eq_ok.1 h
  obtain ⟨c, d, e, hc⟩ := raw_obj h2
  unfold mkref at h
  split at h
  · cases h
    cases e
    rw [hc] at hb; cases hb
  · cases h
    cases e
    have hb : u2.heap[b]? = some (.inst i') := hb
    rw [hc] at hb; cases hb

theorem factory_keeps {rs : Json → U Val} {kvs kvs' : List (Str × Json)} {fac : Val} {u u' : UState} {t : Str} (h1 : t ≠ Tags.DEFAULT_FACTORY) (h2 : t ≠ p!"default_factory") (h : loadFactory rs kvs u = some (.ok (fac, kvs'), u')) :
    dget t kvs' = dget t kvs := by
  unfold loadFactory at h
  have hk : ∀ k, factoryKey kvs = some k → t ≠ k := by
    intro k hk
    unfold factoryKey at hk
    split at hk
    · cases hk; exact h1
    · split at hk
      · cases hk; exact h2
      · cases hk
  cases hf : factoryKey kvs with
  | none => rw [hf] at h; cases h; rfl
  | some k =>
    rw [hf] at h
    dsimp only at h
    cases hg : dget k kvs with
    | none => rw [hg] at h; cases h; exact dget_ddel_ne (hk k hf) _
    | some j =>
      rw [hg] at h
      cases j with
      | null => cases h; exact dget_ddel_ne (hk k hf) _
      | _ =>
        obtain ⟨v, u1, _, h⟩ := bind_eq_ok.1 h
        cases h; exact dget_ddel_ne (hk k hf) _

theorem new_used {h : Heap} {n : Str} {info : ClassInfo} {fac args kw : Val} {i : Inst} (hkw : kw = .tuple 0 []) (hn : ∀ k, info.newAccepts k = true)
    (hc : construct h n info fac args kw = some i) : i.viaCall = false := by
  subst hkw
  unfold construct at hc
  dsimp only at hc
  cases hs : starArgs h args with
  | none =>
    rw [hs] at hc
    dsimp only at hc
    split at hc
    · cases hc; rfl
    · cases hc
  | some xs =>
    rw [hs] at hc
    simp only [hn, kwOk, Bool.and_self, if_true] at hc
    repeat' split at hc
    all_goals (cases hc; rfl)

theorem construct_info {h : Heap} {n : Str} {info : ClassInfo} {fac args kw : Val} {i : Inst} (hc : construct h n info fac args kw = some i) :
    i.cls = n ∧ i.info = info := by
  unfold construct at hc
  dsimp only at hc
  repeat' split at hc
  all_goals first
    | (cases hc; exact ⟨rfl, rfl⟩)
    | cases hc

/-- the tags that are looked for before the class -/
def earlier : List Str := [Tags.TUPLE, Tags.SET, Tags.B64, Tags.B85, Tags.BYTEARRAY, Tags.ID, Tags.ITERATOR]

/-- Whatever else the document says: if it names a class with `__setstate__` (that is not a subclass of `tuple`) and has a state, and an
instance comes out, then `__setstate__` was called last, with what `decode` makes of the document of the state. -/
theorem state_used (env : UEnv) (n : Nat) (kvs : List (Str × Json)) (cls : Str) (S : Json) (u u' : UState) (b : Addr) (i' : Inst)
    (ht : ∀ t ∈ earlier, dhas t kvs = false) (hc : dget Tags.OBJECT kvs = some (.str cls)) (hS : dget Tags.STATE kvs = some S)
    (hh : env.handler cls = none) (hst : (env.classInfo cls).hasSetstate = true) (hb : (env.classInfo cls).base ≠ .tuple)
    (h : restore env (n + 1) (.obj kvs) u = some (.ok (.ref b), u')) (hi : u'.heap[b]? = some (.inst i')) :
    ∃ u1 u2 st, restore env n S u1 = some (.ok st, u2) ∧ i'.cls = cls ∧ i'.state = .ok st ∧
      ((∀ k, (env.classInfo cls).newAccepts k = true) → dget Tags.NEWARGSEX kvs = none → i'.viaCall = false) := by
  have hd : restoreTags env (restore env n) kvs = restoreObject env (restore env n) kvs := by
    unfold restoreTags
    rw [ht _ (by decide), ht _ (by decide), ht _ (by decide), ht _ (by decide), ht _ (by decide), ht _ (by decide), ht _ (by decide)]
    have : dhas Tags.OBJECT kvs = true := by unfold dhas; rw [hc]; rfl
    rw [this]
    rfl
  have h : restoreTags env (restore env n) kvs u = some (.ok (.ref b), u') := h
  rw [hd] at h
  unfold restoreObject at h
  obtain ⟨j, u1, h1, h⟩ := bind_eq_ok.1 h
  unfold item at h1
  rw [hc] at h1
  cases h1
  obtain ⟨c, u2, h2, h⟩ := bind_eq_ok.1 h
  obtain ⟨_, u3, h3, h⟩ := bind_eq_ok.1 h
  rw [hh] at h
  cases c with
  | none => exact (missing_dict h hi).elim
  | some c =>
    have h : restoreInstance env (restore env n) cls kvs u3 = some (.ok (.ref b), u') := h
    unfold restoreInstance at h
    obtain ⟨p, v1, hp, h⟩ := bind_eq_ok.1 h
    obtain ⟨_, v2, g2, h⟩ := bind_eq_ok.1 h
    obtain ⟨⟨fac, kvs'⟩, v3, hf, h⟩ := bind_eq_ok.1 h
    obtain ⟨⟨ja, jk⟩, v4, g4, h⟩ := bind_eq_ok.1 h
    obtain ⟨args, v5, g5, h⟩ := bind_eq_ok.1 h
    obtain ⟨kw, v6, g6, h⟩ := bind_eq_ok.1 h
    obtain ⟨s, v7, g7, h⟩ := bind_eq_ok.1 h
    obtain ⟨_, v8, g8, h⟩ := bind_eq_ok.1 h
    have hr := st_restore (env := env) n
    have kept : KindsKept v1.heap v8.heap := (((((((Stays.mkref _ _ _ _ g2).trans (st_loadFactory hr _ _ _ _ hf)).trans (st_ctorArgs _ _ _ _ g4)).trans
      (st_restoreArg hr _ _ _ _ g5)).trans (st_restoreArg hr _ _ _ _ g6)).trans (Stays.get _ _ _ g7)).trans (Stays.emit _ _ _ _ g8))
    have hpl : p < v8.heap.length := by
      cases hp
      obtain ⟨o, q, _⟩ := kept u3.heap.length (.proxy none) (by simp)
      rcases Nat.lt_or_ge u3.heap.length v8.heap.length with r | r
      · exact r
      · rw [List.getElem?_eq_none r] at q; cases q
    have hS' : dget Tags.STATE kvs' = some S := by
      rw [← hS]
      exact factory_keeps (by decide) (by decide) hf
    have hkw : dget Tags.NEWARGSEX kvs' = none → kw = .tuple 0 [] := by
      intro hx
      unfold ctorArgs at g4
      rw [hx] at g4
      obtain ⟨_, _, _, g4⟩ := bind_eq_ok.1 g4
      cases g4
      cases g6
      rfl
    cases hk : construct s.heap cls (env.classInfo cls) fac args kw with
    | none =>
      rw [hk] at h
      exact (missing_dict h hi).elim
    | some inst =>
      obtain ⟨c1, c2⟩ := construct_info hk
      rw [hk] at h
      obtain ⟨a, w1, e1, h⟩ := bind_eq_ok.1 h
      obtain ⟨_, w2, e2, h⟩ := bind_eq_ok.1 h
      obtain ⟨_, w3, e3, h⟩ := bind_eq_ok.1 h
      rw [c2] at h
      have hb : ((env.classInfo cls).base == Base.tuple) = false := by
        cases q : (env.classInfo cls).base <;> first | rfl | exact absurd q hb
      rw [hb] at h
      have h : (restoreVariables env (restore env n) a kvs' >>= fun v => fixFactory v >>= fun _ => (pure v : PyM UState Val)) w3 = some (.ok (.ref b), u') := h
      obtain ⟨v, w4, e4, h⟩ := bind_eq_ok.1 h
      obtain ⟨_, w5, e5, h⟩ := bind_eq_ok.1 h
      cases h
      have e6 : ∃ i3, w3.heap[a]? = some (.inst i3) ∧ i3.cls = cls ∧ i3.info = env.classInfo cls ∧ i3.viaCall = inst.viaCall := by
        cases e1
        cases e2
        have : w3.heap = (v8.heap ++ [Obj.inst inst]).set p (.proxy (some (.ref v8.heap.length))) := by
          unfold swapref at e3
          split at e3
          · cases e3
          · cases e3; rfl
        refine ⟨inst, ?_, c1, c2, rfl⟩
        rw [this, List.getElem?_set, if_neg (Nat.ne_of_lt hpl)]
        simp
      obtain ⟨i3, e6, d1, d2, d3⟩ := e6
      obtain ⟨x1, x2, st, i4, y1, y2, y3, y4, y5, y6, y7⟩ := variables_state hS' e6 (by rw [d2]; exact hst) e4
      cases y2
      obtain ⟨i5, z1, z2, z3, z4⟩ := fixFactory_state y3 e5
      rw [hi] at z1
      cases z1
      exact ⟨x1, x2, st, y1, by rw [z3, y5, d1], by rw [z2, y4], fun hn hx => by rw [z4, y7, d3]; exact new_used (hkw (by rw [factory_keeps (by decide) (by decide) hf]; exact hx)) hn hk⟩

/-- `decode('{"py/object": "m.S", "py/state": [1]}')`, where `S` has `__setstate__`. -/
example (u' : UState) (b : Addr) (i' : Inst)
    (h : restore prog.env 9 (.obj [(Tags.OBJECT, .str p!"m.S"), (Tags.STATE, .arr [.int 1])]) {} = some (.ok (.ref b), u')) (hi : u'.heap[b]? = some (.inst i')) :
    i'.cls = p!"m.S" ∧ ∃ st u1 u2, restore prog.env 8 (.arr [.int 1]) u1 = some (.ok st, u2) ∧ i'.state = .ok st := by
  obtain ⟨u1, u2, st, h1, h2, h3, _⟩ := state_used prog.env 8 _ p!"m.S" (.arr [.int 1]) {} u' b i' (by decide) rfl rfl rfl rfl (by decide) h hi
  exact ⟨h2, st, u1, u2, h1, h3⟩

/-- … and an instance does come out. -/
example : (match restore prog.env 9 (.obj [(Tags.OBJECT, .str p!"m.S"), (Tags.STATE, .arr [.int 1])]) {} with
    | some (.ok (.ref b), u') => (match u'.heap[b]? with
      | some (.inst i) => i.state == .ok (.ref 2)
      | _ => false)
    | _ => false) = true := by decide +kernel
end

/-! ### states that do not arrive -/

/-- the state and the attributes of the object that was read -/
def stateOf (r : Val × Heap) : Option (Except Exc Val × List (Str × Val)) :=
  match r.1 with
  | .ref b => match r.2[b]? with
    | some (.inst i) => some (i.state, i.attrs)
    | _ => none
  | _ => none

theorem state_of {p : Program} {h : Heap} {cfg : PCfg} (n : Nat) {v : Val} {r : Except Exc Val × List (Str × Val)}
    (ht : (p.trip h cfg n v).any (fun q => stateOf q == some r) = true) : ∃ x h', p.Trips h cfg v x h' ∧ stateOf (x, h') = some r := by
  rw [Option.any_eq_true] at ht
  obtain ⟨⟨x, h'⟩, h1, h2⟩ := ht
  exact ⟨x, h', Program.trips h1, by simpa using h2⟩

/-- If `__getstate__` returns 0, `__setstate__` is not called (the recorded state is that of a fresh object), and the attribute `a` is written and read
instead.  (`pickle` does the same for `None` only.) -/
theorem falsy_state_skipped : ∃ x h', prog.Trips [.inst { cls := p!"m.S", info := infoS, state := .ok (.int 0), attrs := [(p!"a", .int 7)] }] {} (.ref 0) x h' ∧
    stateOf (x, h') = some (.ok .none, [(p!"a", .int 7)]) :=
  state_of 20 (by decide +kernel)

/-- An instance of a subclass of `tuple` is returned before the state is looked at. -/
theorem tuple_state_skipped : ∃ x h', prog.Trips [.inst { cls := p!"m.T", info := infoT, state := .ok (.int 5), elems := [.int 7], newargs := .tuple 1 [.tuple 2 [.int 7]] }] {} (.ref 0) x h' ∧
    stateOf (x, h') = some (.ok .none, []) :=
  state_of 20 (by decide +kernel)

end JP.C40
