import Verif.Proofs.UHeld
import Verif.Rename
/-!
# Every function of the decoder notes the placeholders that lists, dicts and attributes hold
-/
namespace JP.Unpickler.Held
open JP PyM

/-- not a placeholder -/
def Sol (s : UState) (v : Val) : Prop := InR s.heap v ∧ proxyAddr s.heap v = none

theorem Sol.kept {s s' : UState} {v : Val} (k : Kept s.heap s'.heap) (h : Sol s v) : Sol s' v := ⟨inR_kept k h.1, by rw [proxyAddr_kept k h.1]; exact h.2⟩

theorem sol_get {s : UState} {a : Addr} {o : Obj} (ho : s.heap[a]? = some o) (hp : Plain o) : Sol s (.ref a) := ⟨inR_get ho, plain_get ho hp⟩

theorem global_sol {s : UState} {v : Val} (g : v.Global) : Sol s v := by
  cases v <;> first | exact ⟨(fun p hp => by cases hp), rfl⟩ | exact absurd g (fun h => h)

theorem noref {h : Heap} {v : Val} (hv : ∀ a, v ≠ .ref a) : InR h v := fun p hp => absurd hp (hv p)

/-! ### storing -/

theorem noteEntry_spec (a : Addr) (k v : Val) (s : UState) : ∃ R, noteEntry a k v s = some (.ok (), { s with proxies := R }) ∧ (∀ e ∈ s.proxies, e ∈ R) ∧ (Strs s.proxies → Strs R) ∧
    (isDictSub s.heap a = false → ∀ p, proxyAddr s.heap v = some p → (a, .attr k, p) ∈ R) := by
  unfold noteEntry
  cases hd : (isDictSub s.heap a && isDictKey k) with
  | true =>
    refine ⟨s.proxies, rfl, fun _ h => h, id, fun h => ?_⟩
    rw [h] at hd; cases hd
  | false =>
    simp only [Bool.false_eq_true, if_false]
    unfold noteProxy
    rw [modify_run]
    cases hp : proxyAddr s.heap v with
    | none => exact ⟨s.proxies, rfl, fun _ h => h, id, fun _ p h => by cases h⟩
    | some p => exact ⟨s.proxies ++ [(a, .attr k, p)], rfl, fun _ h => List.mem_append_left _ h, fun h => strs_attr h, fun _ q h => by cases h; exact List.mem_append_right _ (.head _)⟩

theorem storeRaw_other {s : UState} {a : Addr} {k v : Val} (h : ∀ i, s.heap[a]? ≠ some (.inst i)) : ∃ e, storeRaw a k v s = some (.error e, s) := by
  have hd : isDictSub s.heap a = false := by
    unfold isDictSub
    split
    · next i hi => exact absurd hi (h i)
    · rfl
  have hs : ∀ t, setattr a t v s = some (.error .attributeError, s) := by
    intro t
    unfold setattr
    split
    · next i hi => exact absurd hi (h i)
    · rfl
  unfold storeRaw
  rw [hd]
  simp only [Bool.false_eq_true, if_false]
  unfold setAttrMangled
  split
  · split
    · split
      · next i hi => exact absurd hi (h i)
      · exact ⟨_, rfl⟩
    · exact ⟨_, hs _⟩
  · exact ⟨_, rfl⟩
  · exact ⟨_, rfl⟩
  · exact ⟨_, rfl⟩

theorem storeRaw_dict {s : UState} {a : Addr} {k v : Val} {i : Inst} (ha : s.heap[a]? = some (.inst i)) (hb : i.info.base = .dict) :
    (∃ r, storeRaw a k v s = some (r, s)) ∨ ∃ i', storeRaw a k v s = some (.ok (), { s with heap := s.heap.set a (.inst i') }) ∧ i'.info = i.info ∧ i'.factory = i.factory ∧
      (i'.attrs = i.attrs ∨ i'.attrs = []) ∧ (i'.items = i.items ∨ i'.items = vset k v i.items) := by
  have hd : isDictSub s.heap a = true := by
    unfold isDictSub
    rw [ha]
    simp only [hb]
    rfl
  unfold storeRaw
  rw [hd, if_pos rfl]
  unfold setItem
  rw [ha]
  dsimp only
  split
  · split
    · split
      · split
        · split
          · exact .inr ⟨_, rfl, rfl, rfl, .inr rfl, .inl rfl⟩
          · exact .inl ⟨_, rfl⟩
        · exact .inl ⟨_, rfl⟩
      · exact .inl ⟨_, rfl⟩
    · exact .inr ⟨_, rfl, rfl, rfl, .inl rfl, .inr rfl⟩
  · split
    · exact .inr ⟨_, rfl, rfl, rfl, .inl rfl, .inr rfl⟩
    · exact .inl ⟨_, rfl⟩

theorem starts_split : ∀ {t : Str}, startsWith t p!"__" = true → ∃ r, t = p!"__" ++ r := by
  intro t h
  unfold startsWith at h
  obtain ⟨r, hr⟩ := List.isPrefixOf_iff_prefix.1 h
  exact ⟨r, hr.symm⟩

theorem storeRaw_attr {s : UState} {a : Addr} {k v : Val} {i : Inst} (ha : s.heap[a]? = some (.inst i)) (hb : i.info.base ≠ .dict) (hn : i.dictCell = none) :
    (∃ e, storeRaw a k v s = some (.error e, s)) ∨ ∃ t name, k = .str t ∧ storeRaw a k v s = some (.ok (), { s with heap := s.heap.set a (.inst { i with attrs := dset name v i.attrs }) }) ∧
      (name = t ∨ Hidden i name) := by
  have hd : isDictSub s.heap a = false := by
    unfold isDictSub
    rw [ha]
    simp only
    cases hbb : i.info.base <;> first | rfl | exact absurd hbb hb
  have hs : ∀ t, setattr a t v s = some (.error .attributeError, s) ∨ setattr a t v s = some (.ok (), { s with heap := s.heap.set a (.inst { i with attrs := dset t v i.attrs }) }) := by
    intro t
    unfold setattr
    rw [ha]
    dsimp only
    split
    · rw [hn]; exact .inr rfl
    · exact .inl rfl
  unfold storeRaw
  rw [hd]
  simp only [Bool.false_eq_true, if_false]
  unfold setAttrMangled
  split
  · next t =>
    split
    · next hst =>
      rw [ha]
      dsimp only
      rcases hs (mangle i t) with e | e
      · exact .inl ⟨_, e⟩
      · refine .inr ⟨t, _, rfl, e, .inr (.inr ?_)⟩
        obtain ⟨r, hr⟩ := starts_split hst
        exact ⟨r, by rw [← hr]⟩
    · rcases hs t with e | e
      · exact .inl ⟨_, e⟩
      · exact .inr ⟨t, _, rfl, e, .inl rfl⟩
  · exact .inl ⟨_, rfl⟩
  · exact .inl ⟨_, rfl⟩
  · exact .inl ⟨_, rfl⟩

theorem keeps_storeEntry {s : UState} {a : Addr} {k v : Val} (hv : InR s.heap v) : Keeps s (storeEntry a k v) (fun _ _ => True) := by
  intro hi r s' h
  unfold storeEntry at h
  rw [bind_run] at h
  by_cases hc : ∃ i, s.heap[a]? = some (.inst i)
  · obtain ⟨i, ha⟩ := hc
    have c := hi.cells a _ ha
    by_cases hb : i.info.base = .dict
    · rcases storeRaw_dict (k := k) (v := v) ha hb with ⟨r1, e⟩ | ⟨i', e, h1, h2, h3, h4⟩
      · rw [e] at h
        cases r1 with
        | error x => cases h; exact ⟨hi, Kept.refl _, fun _ _ => trivial⟩
        | ok _ =>
          dsimp only at h
          obtain ⟨R, e2, hR, hN, _⟩ := noteEntry_spec a k v s
          rw [e2] at h
          cases h
          exact ⟨hi.notes R hR (hN hi.strs), Kept.refl _, fun _ _ => trivial⟩
      · rw [e] at h
        dsimp only at h
        obtain ⟨R, e2, hR, hN, _⟩ := noteEntry_spec a k v { s with heap := s.heap.set a (.inst i') }
        rw [e2] at h
        cases h
        have k1 : Kept s.heap (s.heap.set a (.inst i')) := Kept.set ha trivial
        refine ⟨hi.set (o' := .inst i') ha trivial trivial R hR (hN hi.strs) ⟨fun l w hw => ?_, fun l w hw => ?_, fun w hw => ?_, fun hb' => absurd hb (by rw [← h1]; exact hb')⟩, k1, fun _ _ => trivial⟩
        · rcases h4 with h4 | h4
          · rw [h4] at hw; exact inR_kept k1 (c.1 l w hw)
          · rw [h4] at hw
            rcases mem_vset_weak hw with ⟨_, rfl⟩ | hw | ⟨_, rfl⟩
            · exact inR_kept k1 hv
            · exact inR_kept k1 (c.1 l w hw)
            · exact inR_kept k1 hv
        · rcases h3 with h3 | h3
          · rw [h3] at hw; exact inR_kept k1 (c.2.1 l w hw)
          · rw [h3] at hw; cases hw
        · rw [h2] at hw; exact inR_kept k1 (c.2.2.1 w hw)
    · rcases storeRaw_attr (k := k) (v := v) ha hb (c.2.2.2 hb).1 with ⟨x, e⟩ | ⟨t, name, rfl, e, hname⟩
      · rw [e] at h; cases h; exact ⟨hi, Kept.refl _, fun _ _ => trivial⟩
      · rw [e] at h
        dsimp only at h
        obtain ⟨R, e2, hR, hN, hnote⟩ := noteEntry_spec a (.str t) v { s with heap := s.heap.set a (.inst { i with attrs := dset name v i.attrs }) }
        rw [e2] at h
        cases h
        have k1 : Kept s.heap (s.heap.set a (.inst { i with attrs := dset name v i.attrs })) := Kept.set ha trivial
        have hd : isDictSub (s.heap.set a (.inst { i with attrs := dset name v i.attrs })) a = false := by
          unfold isDictSub
          rw [List.getElem?_set, if_pos rfl, if_pos (lt_of_get ha)]
          simp only
          cases hbb : i.info.base <;> first | rfl | exact absurd hbb hb
        refine ⟨hi.set (o' := .inst { i with attrs := dset name v i.attrs }) ha trivial trivial R hR (hN hi.strs)
          ⟨fun l w hw => inR_kept k1 (c.1 l w hw), fun l w hw => ?_, fun w hw => inR_kept k1 (c.2.2.1 w hw), fun _ => ⟨(c.2.2.2 hb).1, fun l w hw => ?_⟩⟩, k1, fun _ _ => trivial⟩
        · dsimp only at hw
          rw [dget_dset] at hw
          split at hw
          · cases hw; exact inR_kept k1 hv
          · exact inR_kept k1 (c.2.1 l w hw)
        · dsimp only at hw
          rw [dget_dset] at hw
          split at hw
          · next el =>
            cases hw
            subst el
            rcases hname with rfl | hname
            · exact .inr ⟨inR_kept k1 hv, .inr (fun p hp => hnote hd p hp)⟩
            · exact .inl hname
          · exact ((c.2.2.2 hb).2 l w hw).imp id (fun e => e.mono k1 (fun _ _ h => h) hR)
  · obtain ⟨e, he⟩ := storeRaw_other (s := s) (a := a) (k := k) (v := v) (fun i hi => hc ⟨i, hi⟩)
    rw [he] at h
    cases h
    exact ⟨hi, Kept.refl _, fun _ _ => trivial⟩

theorem pyIndex_mem {α : Type} {l : List α} {i : Int} {v : α} (h : pyIndex l i = some v) : ∃ n : Nat, l[n]? = some v := by
  unfold pyIndex at h
  split at h
  · exact ⟨_, h⟩
  · split at h
    · exact ⟨_, h⟩
    · cases h

theorem proxyGet_inR {s : UState} (hi : Inv s) (p : Addr) : InR s.heap (proxyGet s p) := by
  unfold proxyGet
  split
  · next v hv => exact (hi.cells p _ hv).1
  · next i _ =>
    cases hp : pyIndex s.objs i with
    | none => exact noref (fun a h => by cases h)
    | some v =>
      obtain ⟨n, hn⟩ := pyIndex_mem hp
      exact (hi.objs n v hn).1
  · exact noref (fun a h => by cases h)

theorem keeps_fixFactory {s : UState} (v : Val) : Keeps s (fixFactory v) (fun _ _ => True) := by
  intro hi r s' h
  have same : ∀ {r : Except Exc Unit} {s' : UState}, some (Except.ok (ε := Exc) (), s) = some (r, s') → Inv s' ∧ Kept s.heap s'.heap ∧ ∀ a, r = .ok a → True := by
    intro r s' h; cases h; exact ⟨hi, Kept.refl _, fun _ _ => trivial⟩
  unfold fixFactory at h
  rw [modify_run] at h
  cases v with
  | ref a =>
    dsimp only at h
    cases ha : s.heap[a]? with
    | none => rw [ha] at h; exact same h
    | some o =>
      rw [ha] at h
      cases o with
      | inst i =>
        dsimp only at h
        have c := hi.cells a _ ha
        cases hf : i.factory with
        | some f =>
          rw [hf] at h
          dsimp only at h
          cases hp : proxyAddr s.heap f with
          | none => rw [hp] at h; exact same h
          | some p =>
            rw [hp] at h
            cases h
            dsimp only [Option.isSome]
            have k1 : Kept s.heap (s.heap.set a (.inst { i with factory := some (proxyGet s p) })) := Kept.set ha trivial
            have c' := c.mono k1 (fun _ _ h => h) (fun _ h => h)
            exact ⟨hi.set (o' := .inst { i with factory := some (proxyGet s p) }) ha trivial trivial s.proxies (fun _ h => h) hi.strs
              ⟨c'.1, c'.2.1, fun w hw => by cases hw; exact inR_kept k1 (proxyGet_inR hi p), c'.2.2.2⟩, k1, fun _ _ => trivial⟩
        | none =>
          rw [hf] at h
          dsimp only at h
          cases hdf : dget p!"default_factory" i.attrs with
          | none => rw [hdf] at h; exact same h
          | some f =>
            rw [hdf] at h
            dsimp only at h
            cases hp : proxyAddr s.heap f with
            | none => rw [hp] at h; exact same h
            | some p =>
              rw [hp] at h
              simp only [Option.isSome, Bool.false_eq_true, if_false] at h
              cases h
              have k1 : Kept s.heap (s.heap.set a (.inst { i with attrs := dset p!"default_factory" (proxyGet s p) i.attrs, factory := none })) := Kept.set ha trivial
              have c' := c.mono k1 (fun _ _ h => h) (fun _ h => h)
              have hin := inR_kept k1 (proxyGet_inR hi p)
              refine ⟨hi.set (o' := .inst { i with attrs := dset p!"default_factory" (proxyGet s p) i.attrs, factory := none }) ha trivial trivial s.proxies (fun _ h => h) hi.strs
                ⟨c'.1, fun l w hw => ?_, (fun w hw => by cases hw), fun hb => ⟨(c'.2.2.2 hb).1, fun l w hw => ?_⟩⟩, k1, fun _ _ => trivial⟩
              · dsimp only at hw
                rw [dget_dset] at hw
                split at hw
                · cases hw; exact hin
                · exact c'.2.1 l w hw
              · dsimp only at hw
                rw [dget_dset] at hw
                split at hw
                · next e => exact .inl (.inl e)
                · exact (c'.2.2.2 hb).2 l w hw
      | _ => exact same h
  | _ => exact same h

/-! ### the functions -/

section
variable {env : UEnv} {rs : Json → U Val}

theorem InR.kept {s s' : UState} {v : Val} (k : Kept s.heap s'.heap) (h : InR s.heap v) : InR s'.heap v := inR_kept k h

theorem keeps_mapIn {α : Type} {f : α → U Val} (xs : List α) (s : UState) (h : ∀ x ∈ xs, ∀ s, Keeps s (f x) (fun s' v => InR s'.heap v)) :
    Keeps s (PyM.mapM f xs) (fun s' vs => ∀ v ∈ vs, InR s'.heap v) :=
  Keeps.mapM (P := fun s v => InR s.heap v) (fun _ _ _ k h => inR_kept k h) xs s (fun x hx s1 _ => h x hx s1)

mutual
theorem keeps_raw : ∀ (j : Json) (s : UState), Keeps s (raw j) Sol
  | .null, s => by unfold raw; exact Keeps.pure ⟨(fun p hp => by cases hp), rfl⟩
  | .bool _, s => by unfold raw; exact Keeps.pure ⟨(fun p hp => by cases hp), rfl⟩
  | .int _, s => by unfold raw; exact Keeps.pure ⟨(fun p hp => by cases hp), rfl⟩
  | .float _, s => by unfold raw; exact Keeps.pure ⟨(fun p hp => by cases hp), rfl⟩
  | .str _, s => by unfold raw; exact Keeps.pure ⟨(fun p hp => by cases hp), rfl⟩
  | .arr xs, s => by
    unfold raw
    refine Keeps.bind (keeps_raws xs s) (fun vs s1 _ hvs => Keeps.bind (Keeps.allocI (fun _ a i v hiv => ?_)) (fun a s2 _ ha => Keeps.pure (sol_get ha trivial)))
    have := (hvs v (List.mem_of_getElem? hiv)).kept (s' := { s1 with heap := s1.heap ++ [.list vs] }) (Kept.append _ _)
    exact ⟨this.1, .inr (fun p hp => by rw [this.2] at hp; cases hp)⟩
  | .obj kvs, s => by
    unfold raw
    refine Keeps.bind (keeps_rawKvs kvs s) (fun vs s1 _ hvs => Keeps.bind (Keeps.allocI (fun _ a => ⟨fun k v hkv => ?_, .inr (fun k v hkv => .inr ?_)⟩)) (fun a s2 _ ha => Keeps.pure (sol_get ha trivial)))
    · have := (hvs k v hkv).2.kept (s' := { s1 with heap := s1.heap ++ [.dict vs] }) (Kept.append _ _)
      exact ⟨(hvs k v hkv).1, this.1, .inr (fun p hp => by rw [this.2] at hp; cases hp)⟩
    · exact ((hvs k v hkv).2.kept (s' := { s1 with heap := s1.heap ++ [.dict vs] }) (Kept.append _ _)).2
theorem keeps_raws : ∀ (xs : List Json) (s : UState), Keeps s (raws xs) (fun s' vs => ∀ v ∈ vs, Sol s' v)
  | [], s => by unfold raws; exact Keeps.pure (fun v h => by cases h)
  | x :: xs, s => by
    unfold raws
    refine Keeps.bind (keeps_raw x s) (fun v s1 _ hv => Keeps.bind (keeps_raws xs s1) (fun vs s2 k2 hvs => Keeps.pure (fun w hw => ?_)))
    rcases List.mem_cons.1 hw with rfl | hw
    · exact hv.kept k2
    · exact hvs w hw
theorem keeps_rawKvs : ∀ (xs : List (Str × Json)) (s : UState), Keeps s (rawKvs xs) (fun s' vs => ∀ k v, (k, v) ∈ vs → (∃ t, k = .str t) ∧ Sol s' v)
  | [], s => by unfold rawKvs; exact Keeps.pure (fun k v h => by cases h)
  | (k, x) :: xs, s => by
    unfold rawKvs
    refine Keeps.bind (keeps_raw x s) (fun v s1 _ hv => Keeps.bind (keeps_rawKvs xs s1) (fun vs s2 k2 hvs => Keeps.pure (fun l w hw => ?_)))
    rcases List.mem_cons.1 hw with h | hw
    · cases h; exact ⟨⟨k, rfl⟩, hv.kept k2⟩
    · exact hvs l w hw
end

theorem list_kept {h h' : Heap} {a : Addr} {vs} (ha : h[a]? = some (.list vs)) (k : Kept h h') : ∃ ws, h'[a]? = some (.list ws) := by
  obtain ⟨o', e, q⟩ := k _ _ ha
  cases o' <;> simp only [Same] at q
  exact ⟨_, e⟩

theorem dict_kept {h h' : Heap} {a : Addr} {es} (ha : h[a]? = some (.dict es)) (hn : (es.map (·.1)).Nodup) (k : Kept h h') : ∃ es', h'[a]? = some (.dict es') ∧ (es'.map (·.1)).Nodup := by
  obtain ⟨o', e, q⟩ := k _ _ ha
  cases o' <;> simp only [Same] at q
  exact ⟨_, e, q hn⟩

theorem keeps_mkrefCell {s : UState} {a : Addr} {o : Obj} (ha : s.heap[a]? = some o) (hp : Plain o ∨ o = .proxy none) : Keeps s (mkref (.ref a)) (fun _ w => w = .ref a) :=
  Keeps.mkref (inR_get ha) (fun p hq => by
    rcases hp with hp | rfl
    · rw [plain_get ha hp] at hq; cases hq
    · have : p = a := by simp only [proxyAddr, ha] at hq; cases hq; rfl
      rw [this]; exact ha)

theorem keeps_restoreList (h : ∀ j s, Keeps s (rs j) (fun s' v => InR s'.heap v)) (xs) (s : UState) : Keeps s (restoreList rs xs) (fun s' a => InR s'.heap (.ref a) ∧ Sol s' (.ref a)) := by
  unfold restoreList
  refine Keeps.bind (Keeps.alloc (o := .list []) (fun _ _ _ i v h => by cases h)) (fun a s1 _ ha => ?_)
  refine Keeps.bind (keeps_mkrefCell ha (.inl trivial)) (fun _ s2 k2 _ => ?_)
  refine Keeps.bind Keeps.ofExcept (fun ys s3 k3 _ => ?_)
  refine Keeps.bind (keeps_mapIn ys s3 (fun x _ => h x)) (fun vs s4 k4 hvs => ?_)
  obtain ⟨ws, hw⟩ := list_kept ha ((k2.trans k3).trans k4)
  refine keeps_fill hw hvs (fun s5 k5 => Keeps.pure ?_)
  have := (sol_get (s := s4) hw trivial).kept k5
  exact ⟨this.1, this⟩

/-- an instance without parts -/
theorem cell_new {h : Heap} {R : List (Addr × Slot × Addr)} {a : Addr} {i : Inst} (h1 : i.items = []) (h2 : i.attrs = []) (h3 : i.factory = none) (h4 : i.dictCell = none) :
    CellOk never h R a (.inst i) :=
  ⟨(fun k v hv => by rw [h1] at hv; cases hv), (fun k v hv => by rw [h2] at hv; cases hv), (fun v hv => by rw [h3] at hv; cases hv), fun _ => ⟨h4, (fun k v hv => by rw [h2] at hv; cases hv)⟩⟩

theorem keeps_restoreIterator (h : ∀ j s, Keeps s (rs j) (fun s' v => InR s'.heap v)) (kvs) (s : UState) : Keeps s (restoreIterator rs kvs) (fun s' v => InR s'.heap v) := by
  unfold restoreIterator
  refine Keeps.bind (Q := fun _ _ => True) (Keeps.tryCatch (Keeps.bind Keeps.ofExcept (fun j s1 _ _ => Keeps.imp (fun _ _ _ => trivial) (keeps_restoreList h _ s1)))
    (fun e s1 _ => Keeps.imp (fun _ _ _ => trivial) (Keeps.alloc (o := .list []) (fun _ _ _ i v h => by cases h)))) (fun a s1 _ _ => ?_)
  exact Keeps.bind (Keeps.alloc (o := .inst (iterOf a)) (fun _ _ _ => cell_new rfl rfl rfl rfl)) (fun b s2 _ hb => Keeps.pure (inR_get hb))

theorem keeps_loadclassJ (g : env.Globals) (j) (s : UState) : Keeps s (loadclassJ env j) (fun _ c => ∀ v, c = some v → v.Global) := by
  unfold loadclassJ
  split
  · exact Keeps.bind (Keeps.emit _) (fun _ _ _ _ => Keeps.pure (fun v hv => g.cls _ v hv))
  · exact Keeps.throw

/-- an object is made and put in the place of its placeholder -/
theorem keeps_replace {α : Type} {p : Addr} {s : UState} {o : Obj} {k : Addr → U α} {Q : UState → α → Prop} (hp : ∃ w, s.heap[p]? = some (.proxy w)) (hpl : Plain o)
    (hc : ∀ a, CellOk never (s.heap ++ [o]) s.proxies a o) (hk : ∀ a s1, Kept s.heap s1.heap → Sol s1 (.ref a) → Keeps s1 (k a) Q) :
    Keeps s (alloc o >>= fun a => setCell p (.proxy (some (.ref a))) >>= fun _ => swapref p (.ref a) >>= fun _ => k a) Q := by
  refine Keeps.bind (Keeps.allocI (fun _ => hc)) (fun a s1 k1 ha => ?_)
  have hs := sol_get ha hpl
  obtain ⟨w, hw⟩ := hp
  exact Keeps.replace (proxy_get hw k1) hs.1 hs.2 (fun s2 k2 => hk a s2 (k1.trans k2) (hs.kept k2))

theorem keeps_reduceFallback {p : Addr} {s : UState} (hp : ∃ w, s.heap[p]? = some (.proxy w)) : Keeps s (reduceFallback p) (fun s' v => InR s'.heap v) := by
  unfold reduceFallback
  exact keeps_replace (o := .list []) hp trivial (fun _ i v h => by cases h) (fun a s1 _ hs => Keeps.pure hs.1)

theorem keeps_emitSetter (ops) (s : UState) : Keeps s (emitSetter ops) (fun _ _ => True) := by
  unfold emitSetter
  split
  · exact Keeps.emit _
  · exact Keeps.emit _
  · exact Keeps.pure trivial

theorem still {s s1 : UState} {p : Addr} (hp : ∃ w, s.heap[p]? = some (.proxy w)) (k : Kept s.heap s1.heap) : ∃ w, s1.heap[p]? = some (.proxy w) := by
  obtain ⟨w, hw⟩ := hp
  exact proxy_get hw k

theorem keeps_reduceFinish {p : Addr} {s : UState} (hp : ∃ w, s.heap[p]? = some (.proxy w)) (cls vals c d e g) : Keeps s (reduceFinish env p cls vals c d e g) (fun s' v => InR s'.heap v) := by
  unfold reduceFinish
  refine Keeps.bind Keeps.get (fun _ s1 k1 _ => ?_)
  refine Keeps.bind Keeps.ofExcept (fun _ s2 k2 _ => ?_)
  refine Keeps.bind (keeps_emitSetter _ _) (fun _ s3 k3 _ => ?_)
  refine Keeps.bind Keeps.ofExcept (fun _ s4 k4 _ => ?_)
  refine Keeps.bind Keeps.ofExcept (fun _ s5 k5 _ => ?_)
  exact keeps_replace (still hp ((((k1.trans k2).trans k3).trans k4).trans k5)) trivial (fun _ => cell_new rfl rfl rfl rfl) (fun a s6 _ hs => Keeps.pure hs.1)

theorem keeps_reduceBuild {p : Addr} {s : UState} (hp : ∃ w, s.heap[p]? = some (.proxy w)) (vals) : Keeps s (reduceBuild env p vals) (fun s' v => InR s'.heap v) := by
  unfold reduceBuild
  split
  · refine Keeps.bind Keeps.get (fun s0 s1 k1 _ => ?_)
    have hp1 := still hp k1
    have fin : ∀ (n cls vals c d e g), Keeps s1 (emit (.call n) >>= fun _ => reduceFinish env p cls vals c d e g) (fun s' v => InR s'.heap v) := fun n cls vals c d e g =>
      Keeps.bind (Keeps.emit _) (fun _ s2 k2 _ => keeps_reduceFinish (still hp1 k2) _ _ _ _ _ _)
    split
    · refine Keeps.bind Keeps.ofExcept (fun a s2 k2 _ => ?_)
      have hp2 := still hp1 k2
      obtain ⟨a1, a2⟩ := a
      cases a1 with
      | type n =>
        dsimp only
        split
        · exact Keeps.bind (Keeps.emit _) (fun _ s3 k3 _ => keeps_reduceFinish (still hp2 k3) _ _ _ _ _ _)
        · exact Keeps.throw
      | _ => exact Keeps.throw
    · split
      · generalize starArgs _ _ = q
        cases q with
        | none => exact Keeps.throw
        | some l =>
          dsimp only
          split
          · exact fin _ _ _ _ _ _ _
          · exact Keeps.throw
      · generalize starArgs _ _ = q
        cases q with
        | none => exact Keeps.throw
        | some l =>
          dsimp only
          split
          · exact fin _ _ _ _ _ _ _
          · exact Keeps.throw
      · exact keeps_reduceFallback hp1
  · exact Keeps.throw

theorem keeps_restoreReduce (h : ∀ j s, Keeps s (rs j) (fun s' v => InR s'.heap v)) (kvs) (s : UState) : Keeps s (restoreReduce env rs kvs) (fun s' v => InR s'.heap v) := by
  unfold restoreReduce
  refine Keeps.bind (Keeps.alloc (o := .proxy none) (fun _ _ _ => trivial)) (fun p s1 _ hp => ?_)
  refine Keeps.bind (keeps_mkrefCell hp (.inr rfl)) (fun _ s2 k2 _ => ?_)
  refine Keeps.bind (Q := fun _ _ => True) (Keeps.tryCatch (Keeps.bind Keeps.ofExcept (fun j s3 _ _ => Keeps.bind Keeps.ofExcept (fun xs s4 _ _ =>
    Keeps.bind (keeps_mapIn xs s4 (fun x _ => h x)) (fun vs s5 _ _ => Keeps.pure trivial)))) (fun e s3 _ => Keeps.pure trivial)) (fun r s3 k3 _ => ?_)
  have h3 : ∃ w, s3.heap[p]? = some (.proxy w) := proxy_get hp (k2.trans k3)
  split
  · exact keeps_reduceFallback h3
  · exact keeps_reduceBuild h3 _

theorem keeps_idLookup (n) (s : UState) : Keeps s (idLookup n) (fun s' v => InR s'.heap v) := by
  unfold idLookup
  refine Keeps.bind Keeps.get (fun s0 s1 _ h1 => ?_)
  obtain ⟨rfl, hi⟩ := h1
  cases hp : pyIndex s0.objs n with
  | none => exact Keeps.bind (Keeps.alloc (o := .idproxy n) (fun _ _ _ => trivial)) (fun a s2 _ ha => Keeps.pure (inR_get ha))
  | some v =>
    obtain ⟨m, hm⟩ := pyIndex_mem hp
    exact Keeps.pure (hi.objs m v hm).1

theorem keeps_restoreId (kvs) (s : UState) : Keeps s (restoreId kvs) (fun s' v => InR s'.heap v) := by
  unfold restoreId
  refine Keeps.bind Keeps.ofExcept (fun j s1 _ _ => ?_)
  split
  · exact keeps_idLookup _ _
  · exact keeps_idLookup _ _
  · exact Keeps.pure (noref (fun a h => by cases h))

theorem keeps_restoreType (g : env.Globals) (kvs) (s : UState) : Keeps s (restoreType env kvs) (fun s' v => InR s'.heap v) := by
  unfold restoreType
  refine Keeps.bind Keeps.ofExcept (fun j s1 _ _ => Keeps.bind (keeps_loadclassJ g j s1) (fun c s2 _ hc => ?_))
  cases c with
  | some v => exact Keeps.pure (global_sol (s := s2) (hc v rfl)).1
  | none => exact Keeps.imp (fun _ _ h => h.1) (keeps_raw _ _)

theorem keeps_mkrefGlobal {s : UState} {v : Val} (hv : v.Global) : Keeps s (mkref v) (fun s' v => InR s'.heap v) :=
  Keeps.imp (fun s' a e => by subst e; exact (global_sol hv).1) (Keeps.mkref (global_sol (s := s) hv).1 (fun p hp => by rw [(global_sol (s := s) hv).2] at hp; cases hp))

theorem keeps_restoreModule (g : env.Globals) (j) (s : UState) : Keeps s (restoreModule env j) (fun s' v => InR s'.heap v) := by
  unfold restoreModule
  split
  · refine Keeps.bind (Keeps.emit _) (fun _ s1 _ _ => Keeps.bind Keeps.ofExcept (fun r s2 _ hr => keeps_mkrefGlobal ?_))
    cases r with
    | none => trivial
    | some v => exact g.mod _ v hr
  · exact Keeps.throw

theorem keeps_restoreRepr (g : env.Globals) (j) (s : UState) : Keeps s (restoreRepr env j) (fun s' v => InR s'.heap v) := by
  unfold restoreRepr
  split
  · exact Keeps.bind (Keeps.emit _) (fun _ s1 _ _ => Keeps.bind Keeps.ofExcept (fun v s2 _ hr => keeps_mkrefGlobal (g.repr _ v hr)))
  · exact Keeps.throw

theorem keeps_processMissing (n) (s : UState) : Keeps s (processMissing env n) (fun _ _ => True) := by
  unfold processMissing
  split
  · exact Keeps.pure trivial
  · exact Keeps.emit _
  · exact Keeps.emit _
  · exact Keeps.bind (Keeps.emit _) (fun _ _ _ _ => Keeps.throw)

theorem keeps_loadFactory (h : ∀ j s, Keeps s (rs j) (fun s' v => InR s'.heap v)) (kvs) (s : UState) : Keeps s (loadFactory rs kvs) (fun s' p => InR s'.heap p.1) := by
  unfold loadFactory
  split
  · exact Keeps.pure (noref (fun a h => by cases h))
  · split
    · exact Keeps.pure (noref (fun a h => by cases h))
    · exact Keeps.pure (noref (fun a h => by cases h))
    · exact Keeps.bind (h _ _) (fun v s1 _ hv => Keeps.pure hv)

theorem keeps_restoreFromJson (hk : env.keys = false) (h : ∀ j s, Keeps s (rs j) (fun s' v => InR s'.heap v)) (a kvs) (s : UState) : Keeps s (restoreFromJson env rs a kvs) (fun _ _ => True) := by
  unfold restoreFromJson
  refine Keeps.bind (Keeps.mapU kvs s (fun kv _ s1 _ => ?_)) (fun _ _ _ _ => Keeps.pure trivial)
  refine Keeps.ite (fun _ => Keeps.pure trivial) (fun _ => ?_)
  unfold restoreKey
  rw [hk]
  exact Keeps.bind (Q := fun _ _ => True) (Keeps.pure trivial) (fun k s2 _ _ => Keeps.bind (h _ _) (fun v s3 _ hv => keeps_storeEntry hv))

theorem keeps_restoreFromVals (a : Addr) (kvs : List (Val × Val)) (s : UState) (hv : ∀ k v, (k, v) ∈ kvs → InR s.heap v) : Keeps s (restoreFromVals a kvs) (fun _ _ => True) := by
  unfold restoreFromVals
  exact Keeps.bind (Keeps.mapU kvs s (fun kv hm s1 k1 => keeps_storeEntry (inR_kept k1 (hv kv.1 kv.2 hm)))) (fun _ _ _ _ => Keeps.pure trivial)

theorem dictEntries_inR {s : UState} (hi : Inv s) {v : Val} {kvs} (h : dictEntries s.heap v = some kvs) : ∀ k w, (k, w) ∈ kvs → InR s.heap w := by
  intro k w hw
  cases v with
  | ref a =>
    simp only [dictEntries] at h
    cases ha : s.heap[a]? with
    | none => rw [ha] at h; cases h
    | some o =>
      rw [ha] at h
      have c := hi.cells a _ ha
      cases o with
      | dict es => cases h; exact (c.1 k w hw).2.1
      | inst i =>
        dsimp only at h
        split at h
        · cases h; exact c.1 k w hw
        · cases h
      | _ => cases h
  | _ => cases h

theorem keeps_applyOtherState (a : Addr) (st : Val) (s : UState) (ha : InR s.heap (.ref a)) (hst : InR s.heap st) : Keeps s (applyOtherState a st) (fun s' v => InR s'.heap v) := by
  unfold applyOtherState
  refine Keeps.bind Keeps.get (fun s0 s1 k1 h1 => ?_)
  obtain ⟨rfl, hi⟩ := h1
  have ha1 := inR_kept k1 ha
  have hst1 := inR_kept k1 hst
  have tail : Keeps s0 (if (infoOf s0.heap a).hasNewargs || (infoOf s0.heap a).hasNewargsEx then Pure.pure (.ref a) else Pure.pure st : U Val) (fun s' v => InR s'.heap v) :=
    Keeps.ite (fun _ => Keeps.pure ha1) (fun _ => Keeps.pure hst1)
  split
  · next x y =>
    cases hy : dictEntries s0.heap y with
    | none => exact tail
    | some kvs =>
      refine Keeps.bind (keeps_restoreFromVals a kvs s0 (dictEntries_inR hi hy)) (fun _ s2 k2 _ => ?_)
      cases hx : dictEntries s0.heap x with
      | none => exact Keeps.pure (inR_kept k2 ha1)
      | some kvs0 => exact Keeps.bind (keeps_restoreFromVals a kvs0 s2 (fun k v h => inR_kept k2 (dictEntries_inR hi hx k v h))) (fun _ s3 k3 _ => Keeps.pure (inR_kept (k2.trans k3) ha1))
  · exact tail

theorem keeps_restoreState (h : ∀ j s, Keeps s (rs j) (fun s' v => InR s'.heap v)) (a : Addr) (j) (s : UState) (ha : InR s.heap (.ref a)) : Keeps s (restoreState rs a j) (fun s' v => InR s'.heap v) := by
  unfold restoreState
  refine Keeps.bind (h j s) (fun st s1 k1 hst => Keeps.bind Keeps.get (fun s0 s2 k2 h2 => ?_))
  obtain ⟨rfl, hi⟩ := h2
  have ha1 := inR_kept (k1.trans k2) ha
  refine Keeps.ite (fun _ => Keeps.bind (Keeps.modInst a (fun i => ⟨rfl, rfl, rfl, rfl, rfl⟩)) (fun _ s3 k3 _ => Keeps.pure (inR_kept k3 ha1))) (fun _ => ?_)
  cases hd : dictEntries s0.heap st with
  | some kvs => exact Keeps.bind (keeps_restoreFromVals a kvs s0 (dictEntries_inR hi hd)) (fun _ s3 k3 _ => Keeps.pure (inR_kept k3 ha1))
  | none => exact keeps_applyOtherState a st s0 ha1 (inR_kept k2 hst)

theorem keeps_restoreSeq (h : ∀ j s, Keeps s (rs j) (fun s' v => InR s'.heap v)) (a : Addr) (j) (s : UState) : Keeps s (restoreSeq rs a j) (fun _ _ => True) := by
  unfold restoreSeq
  refine Keeps.bind Keeps.get (fun s0 s1 _ _ => ?_)
  split
  · refine Keeps.bind Keeps.ofExcept (fun xs s2 _ _ => Keeps.bind (Keeps.mapU xs s2 (fun x _ s3 _ => ?_)) (fun _ _ _ _ => Keeps.pure trivial))
    exact Keeps.bind (h _ _) (fun v s4 _ _ => Keeps.modInst a (fun i => ⟨rfl, rfl, rfl, rfl, rfl⟩))
  · refine Keeps.bind Keeps.ofExcept (fun xs s2 _ _ => Keeps.bind (Keeps.mapU xs s2 (fun x _ s3 _ => ?_)) (fun _ _ _ _ => Keeps.pure trivial))
    exact Keeps.bind (h _ _) (fun v s4 _ _ => Keeps.bind Keeps.get (fun s5 s6 _ _ => Keeps.ite (fun _ => Keeps.modInst a (fun i => ⟨rfl, rfl, rfl, rfl, rfl⟩)) (fun _ => Keeps.throw)))
  · exact Keeps.pure trivial

theorem keeps_restoreVariables (hk : env.keys = false) (h : ∀ j s, Keeps s (rs j) (fun s' v => InR s'.heap v)) (a : Addr) (kvs) (s : UState) (ha : InR s.heap (.ref a)) :
    Keeps s (restoreVariables env rs a kvs) (fun s' v => InR s'.heap v) := by
  unfold restoreVariables
  refine Keeps.bind (keeps_restoreFromJson hk h a kvs s) (fun _ s1 k1 _ => Keeps.bind (Q := fun _ _ => True) ?_ (fun _ s2 k2 _ => ?_))
  · unfold restoreSeqTag
    split
    · exact Keeps.pure trivial
    · exact keeps_restoreSeq h _ _ _
  · have ha2 := inR_kept (k1.trans k2) ha
    split
    · exact Keeps.pure ha2
    · exact keeps_restoreState h _ _ _ ha2

theorem keeps_getargs (g : env.Globals) (kvs) (s : UState) : Keeps s (getargs env kvs) (fun _ _ => True) := by
  unfold getargs
  split
  · exact Keeps.pure trivial
  · split
    · exact Keeps.pure trivial
    · split
      · refine Keeps.bind (keeps_loadclassJ g _ _) (fun c s1 _ _ => ?_)
        split
        · split
          · exact Keeps.pure trivial
          · split
            · exact Keeps.throw
            · exact Keeps.pure trivial
        · exact Keeps.pure trivial
      · exact Keeps.pure trivial

theorem keeps_ctorArgs (g : env.Globals) (kvs) (s : UState) : Keeps s (ctorArgs env kvs) (fun _ _ => True) := by
  unfold ctorArgs
  split
  · refine Keeps.bind Keeps.ofExcept (fun xs s1 _ _ => ?_)
    split
    · exact Keeps.pure trivial
    · exact Keeps.throw
  · exact Keeps.bind (keeps_getargs g _ _) (fun _ _ _ _ => Keeps.pure trivial)

theorem keeps_restoreArg (h : ∀ j s, Keeps s (rs j) (fun s' v => InR s'.heap v)) (j) (s : UState) : Keeps s (restoreArg rs j) (fun s' v => InR s'.heap v) := by
  unfold restoreArg
  refine Keeps.ite (fun _ => h j s) (fun _ => ?_)
  split <;> exact Keeps.pure (noref (fun a h => by cases h))

theorem construct_ok {h : Heap} {n : Str} {info : ClassInfo} {fac args kw : Val} {i : Inst} (hc : construct h n info fac args kw = some i) :
    i.items = [] ∧ i.dictCell = none ∧ (i.factory = none ∨ i.factory = some fac) ∧ (i.attrs = [] ∨ i.attrs = [(p!"default_factory", fac)]) := by
  unfold construct at hc
  dsimp only at hc
  split at hc
  · split at hc
    · cases hc; exact ⟨rfl, rfl, .inl rfl, .inl rfl⟩
    · cases hc
  · generalize (if truthy h fac = true then _ else _ : Nat) = m at hc
    split at hc
    · split at hc
      · split at hc
        · cases hc; exact ⟨rfl, rfl, .inr rfl, .inl rfl⟩
        · cases hc; exact ⟨rfl, rfl, .inl rfl, .inr rfl⟩
      · cases hc; exact ⟨rfl, rfl, .inl rfl, .inl rfl⟩
    · split at hc
      · cases hc; exact ⟨rfl, rfl, .inl rfl, .inl rfl⟩
      · split at hc
        · cases hc; exact ⟨rfl, rfl, .inl rfl, .inl rfl⟩
        · cases hc

theorem cell_construct {h : Heap} {R : List (Addr × Slot × Addr)} {h0 : Heap} {a : Addr} {n : Str} {info : ClassInfo} {fac args kw : Val} {i : Inst}
    (hc : construct h0 n info fac args kw = some i) (hf : InR h fac) : CellOk never h R a (.inst i) := by
  obtain ⟨h1, h2, h3, h4⟩ := construct_ok hc
  have hat : ∀ k v, dget k i.attrs = some v → k = p!"default_factory" ∧ v = fac := by
    intro k v hv
    rcases h4 with h4 | h4
    · rw [h4] at hv; cases hv
    · rw [h4] at hv
      simp only [dget] at hv
      split at hv
      · next e => cases hv; exact ⟨e.symm, rfl⟩
      · cases hv
  refine ⟨(fun k v hv => by rw [h1] at hv; cases hv), (fun k v hv => by rw [(hat k v hv).2]; exact hf), fun v hv => ?_, fun _ => ⟨h2, fun k v hv => .inl (.inl (hat k v hv).1)⟩⟩
  rcases h3 with h3 | h3
  · rw [h3] at hv; cases hv
  · rw [h3] at hv; cases hv; exact hf

theorem keeps_missingRaw (n : Str) (kvs) (s : UState) : Keeps s (do processMissing env n; let r ← raw (.obj kvs); mkref r) (fun s' v => InR s'.heap v) :=
  Keeps.bind (keeps_processMissing n s) (fun _ s1 _ _ => Keeps.bind (keeps_raw _ s1) (fun r s2 _ hr => by
    intro hi q s' h
    obtain ⟨h1, h2, h3⟩ := Keeps.mkref hr.1 (fun p hp => by rw [hr.2] at hp; cases hp) hi q s' h
    exact ⟨h1, h2, fun v hv => by rw [h3 v hv]; exact inR_kept h2 hr.1⟩))

theorem keeps_restoreInstance (g : env.Globals) (hk : env.keys = false) (h : ∀ j s, Keeps s (rs j) (fun s' v => InR s'.heap v)) (n kvs) (s : UState) :
    Keeps s (restoreInstance env rs n kvs) (fun s' v => InR s'.heap v) := by
  unfold restoreInstance
  refine Keeps.bind (Keeps.alloc (o := .proxy none) (fun _ _ _ => trivial)) (fun p s1 _ hp => ?_)
  refine Keeps.bind (keeps_mkrefCell hp (.inr rfl)) (fun _ s2 k2 _ => ?_)
  refine Keeps.bind (keeps_loadFactory h _ _) (fun fk s3 k3 hfac => ?_)
  obtain ⟨fac, kvs⟩ := fk
  dsimp only at hfac ⊢
  refine Keeps.bind (keeps_ctorArgs g _ _) (fun aj s4 k4 _ => ?_)
  obtain ⟨ja, jk⟩ := aj
  dsimp only
  refine Keeps.bind (keeps_restoreArg h _ _) (fun args s5 k5 _ => ?_)
  refine Keeps.bind (keeps_restoreArg h _ _) (fun kw s6 k6 _ => ?_)
  refine Keeps.bind Keeps.get (fun s0 s7 k7 _ => ?_)
  refine Keeps.bind (Keeps.emit _) (fun _ s8 k8 _ => ?_)
  have k38 := ((((k4.trans k5).trans k6).trans k7).trans k8)
  have h8 : ∃ w, s8.heap[p]? = some (.proxy w) := proxy_get hp ((k2.trans k3).trans k38)
  cases hc : construct s0.heap n (env.classInfo n) fac args kw with
  | none => exact keeps_missingRaw n kvs s8
  | some inst =>
    refine keeps_replace h8 trivial (fun a => cell_construct hc (inR_kept (k38.trans (Kept.append _ _)) hfac)) (fun a s9 k9 hs => ?_)
    refine Keeps.ite (fun _ => Keeps.pure hs.1) (fun _ => ?_)
    exact Keeps.bind (keeps_restoreVariables hk h a kvs s9 hs.1) (fun v s10 _ hv => Keeps.bind (keeps_fixFactory v) (fun _ s11 k11 _ => Keeps.pure (inR_kept k11 hv)))

theorem keeps_restoreDate (h : ∀ j s, Keeps s (rs j) (fun s' v => InR s'.heap v)) (kvs) (s : UState) : Keeps s (restoreDate env rs kvs) Sol := by
  unfold restoreDate
  refine Keeps.bind Keeps.ofExcept (fun r s1 _ _ => Keeps.bind Keeps.ofExcept (fun parts s2 _ _ => ?_))
  split
  · refine Keeps.bind (h _ _) (fun cls s3 _ _ => Keeps.bind Keeps.ofExcept (fun pa s4 _ _ => Keeps.bind Keeps.ofExcept (fun b s5 _ _ => ?_)))
    refine Keeps.bind (keeps_mapIn pa.2 s5 (fun x _ => h x)) (fun params s6 _ _ => ?_)
    split
    · exact Keeps.bind (Keeps.emit _) (fun _ s7 _ _ => Keeps.bind (Keeps.alloc (fun _ _ _ => cell_new rfl rfl rfl rfl)) (fun a s8 _ ha => Keeps.pure (sol_get ha trivial)))
    · exact Keeps.throw
  · exact Keeps.throw

theorem keeps_handlerRestore (h : ∀ j s, Keeps s (rs j) (fun s' v => InR s'.heap v)) (k n kvs) (s : UState) : Keeps s (handlerRestore env rs k n kvs) Sol := by
  unfold handlerRestore
  split
  · refine Keeps.bind (Keeps.mapU (ddel Tags.OBJECT kvs) s (fun kv _ s1 _ => Keeps.bind (h _ _) (fun v _ _ _ => Keeps.pure trivial))) (fun fs s1 _ _ => ?_)
    exact Keeps.bind (Keeps.alloc (fun _ _ _ => cell_new rfl rfl rfl rfl)) (fun a s8 _ ha => Keeps.pure (sol_get ha trivial))
  · exact keeps_restoreDate h kvs s
  · exact Keeps.bind (Keeps.alloc (fun _ _ _ => cell_new rfl rfl rfl rfl)) (fun a s8 _ ha => Keeps.pure (sol_get ha trivial))
  · exact Keeps.throw

theorem keeps_restoreHandled (h : ∀ j s, Keeps s (rs j) (fun s' v => InR s'.heap v)) (k n kvs) (s : UState) : Keeps s (restoreHandled env rs k n kvs) (fun s' v => InR s'.heap v) := by
  unfold restoreHandled
  refine Keeps.bind (Keeps.alloc (o := .proxy none) (fun _ _ _ => trivial)) (fun p s1 _ hp => ?_)
  refine Keeps.bind (keeps_mkrefCell hp (.inr rfl)) (fun _ s2 k2 _ => ?_)
  refine Keeps.bind (keeps_handlerRestore h k n kvs s2) (fun v s3 k3 hv => ?_)
  exact Keeps.replace (proxy_get hp (k2.trans k3)) hv.1 hv.2 (fun s4 k4 => Keeps.pure (inR_kept k4 hv.1))

theorem keeps_restoreObject (g : env.Globals) (hk : env.keys = false) (h : ∀ j s, Keeps s (rs j) (fun s' v => InR s'.heap v)) (kvs) (s : UState) :
    Keeps s (restoreObject env rs kvs) (fun s' v => InR s'.heap v) := by
  unfold restoreObject
  refine Keeps.bind Keeps.ofExcept (fun j s1 _ _ => Keeps.bind (keeps_loadclassJ g _ _) (fun c s2 _ _ => ?_))
  cases j with
  | str n =>
    refine Keeps.bind (Keeps.emit _) (fun _ s3 _ _ => ?_)
    split
    · exact keeps_restoreHandled h _ _ _ _
    · split
      · exact keeps_missingRaw _ _ _
      · exact keeps_restoreInstance g hk h _ _ _
  | _ => exact Keeps.throw

theorem keeps_restoreFunction (g : env.Globals) (kvs) (s : UState) : Keeps s (restoreFunction env kvs) (fun s' v => InR s'.heap v) := by
  unfold restoreFunction
  refine Keeps.bind Keeps.ofExcept (fun j s1 _ _ => Keeps.bind (keeps_loadclassJ g _ _) (fun c s2 _ hc => ?_))
  cases c with
  | none => exact Keeps.pure (noref (fun a h => by cases h))
  | some v => exact Keeps.pure (global_sol (s := s2) (hc v rfl)).1

theorem keeps_restoreTuple (h : ∀ j s, Keeps s (rs j) (fun s' v => InR s'.heap v)) (kvs) (s : UState) : Keeps s (restoreTuple rs kvs) (fun s' v => InR s'.heap v) := by
  unfold restoreTuple
  refine Keeps.bind (Q := fun _ _ => True) (Keeps.tryCatch (Keeps.bind Keeps.ofExcept (fun j s3 _ _ => Keeps.bind Keeps.ofExcept (fun xs s4 _ _ =>
    Keeps.mapU xs s4 (fun x _ s5 _ => Keeps.imp (fun _ _ _ => trivial) (h x s5))))) (fun e s3 _ => Keeps.pure trivial)) (fun vs s3 _ _ => ?_)
  exact Keeps.bind Keeps.fresh (fun n s4 _ _ => Keeps.pure (noref (fun a h => by cases h)))

theorem keeps_restoreSet (h : ∀ j s, Keeps s (rs j) (fun s' v => InR s'.heap v)) (kvs) (s : UState) : Keeps s (restoreSet rs kvs) (fun s' v => InR s'.heap v) := by
  unfold restoreSet
  refine Keeps.bind (Q := fun _ _ => True) (Keeps.tryCatch (Keeps.bind Keeps.ofExcept (fun j s3 _ _ => Keeps.bind Keeps.ofExcept (fun xs s4 _ _ =>
    Keeps.foldM xs s4 [] (fun b x _ s5 => Keeps.bind (h x s5) (fun v s6 _ _ => Keeps.bind Keeps.get (fun s7 s8 _ _ => Keeps.ite (fun _ => Keeps.pure trivial) (fun _ => Keeps.throw)))))))
    (fun e s3 _ => Keeps.pure trivial)) (fun vs s3 _ _ => ?_)
  exact Keeps.bind Keeps.fresh (fun n s4 _ _ => Keeps.pure (noref (fun a h => by cases h)))

theorem keeps_restoreDict (hk : env.keys = false) (h : ∀ j s, Keeps s (rs j) (fun s' v => InR s'.heap v)) (kvs) (s : UState) : Keeps s (restoreDict env rs kvs) (fun s' v => InR s'.heap v) := by
  unfold restoreDict
  refine Keeps.bind (Keeps.alloc (o := .dict []) (fun _ _ _ => ⟨(fun k v h => by cases h), .inl List.nodup_nil⟩)) (fun a s1 _ ha => ?_)
  refine Keeps.bind (Q := fun _ _ => True) ?_ (fun _ s2 k2 _ => ?_)
  · unfold mkrefUnlessV1
    exact Keeps.ite (fun _ => Keeps.pure trivial) (fun _ => Keeps.bind (keeps_mkrefCell ha (.inl trivial)) (fun _ _ _ _ => Keeps.pure trivial))
  · rw [hk]
    simp only [Bool.false_eq_true, if_false]
    refine Keeps.bind (Keeps.mapU kvs s2 (fun kv _ s3 k3 => ?_)) (fun _ s3 k3 _ => Keeps.pure (inR_kept (k2.trans k3) (inR_get ha)))
    unfold dictEntry
    refine Keeps.bind (h _ _) (fun v s4 k4 hv => ?_)
    obtain ⟨es, he, hn⟩ := dict_kept ha List.nodup_nil ((k2.trans k3).trans k4)
    exact keeps_entry he hn hv

theorem keeps_bytes {α : Type} {s : UState} (r : Except Exc Bytes) (f : Nat → Bytes → α) {Q : UState → α → Prop} (hq : ∀ s n b, Q s (f n b)) :
    Keeps s (do let b ← PyM.ofExcept r; let n ← fresh; Pure.pure (f n b) : U α) Q :=
  Keeps.bind Keeps.ofExcept (fun _ _ _ _ => Keeps.bind Keeps.fresh (fun _ _ _ _ => Keeps.pure (hq _ _ _)))

theorem keeps_restoreTags (g : env.Globals) (hk : env.keys = false) (h : ∀ j s, Keeps s (rs j) (fun s' v => InR s'.heap v)) (kvs) (s : UState) :
    Keeps s (restoreTags env rs kvs) (fun s' v => InR s'.heap v) := by
  unfold restoreTags
  refine Keeps.ite (fun _ => keeps_restoreTuple h _ _) (fun _ => ?_)
  refine Keeps.ite (fun _ => keeps_restoreSet h _ _) (fun _ => ?_)
  refine Keeps.ite (fun _ => keeps_bytes _ _ (fun _ _ _ => noref (fun a h => by cases h))) (fun _ => ?_)
  refine Keeps.ite (fun _ => keeps_bytes _ _ (fun _ _ _ => noref (fun a h => by cases h))) (fun _ => ?_)
  refine Keeps.ite (fun _ => keeps_bytes _ _ (fun _ _ _ => noref (fun a h => by cases h))) (fun _ => ?_)
  refine Keeps.ite (fun _ => keeps_restoreId _ _) (fun _ => ?_)
  refine Keeps.ite (fun _ => keeps_restoreIterator h _ _) (fun _ => ?_)
  refine Keeps.ite (fun _ => keeps_restoreObject g hk h _ _) (fun _ => ?_)
  refine Keeps.ite (fun _ => keeps_restoreType g _ _) (fun _ => ?_)
  refine Keeps.ite (fun _ => keeps_restoreReduce h _ _) (fun _ => ?_)
  refine Keeps.ite (fun _ => keeps_restoreFunction g _ _) (fun _ => ?_)
  refine Keeps.ite (fun _ => Keeps.bind Keeps.ofExcept (fun _ _ _ _ => keeps_restoreModule g _ _)) (fun _ => ?_)
  refine Keeps.ite (fun _ => Keeps.bind Keeps.ofExcept (fun _ _ _ _ => Keeps.ite (fun _ => keeps_restoreModule g _ _) (fun _ => keeps_restoreRepr g _ _))) (fun _ => keeps_restoreDict hk h _ _)

theorem keeps_restore (g : env.Globals) (hk : env.keys = false) : ∀ (n : Nat) (j : Json) (s : UState), Keeps s (restore env n j) (fun s' v => InR s'.heap v)
  | 0, _, _ => fun _ r s' h => by cases h
  | n + 1, j, s => by
    have ih := keeps_restore g hk n
    rw [restore]
    unfold restoreStep
    split
    all_goals first
      | exact Keeps.pure (noref (fun a h => by cases h))
      | exact Keeps.bind (keeps_restoreList ih _ _) (fun a _ _ ha => Keeps.pure ha.1)
      | exact keeps_restoreTags g hk ih _ _

end
end JP.Unpickler.Held
