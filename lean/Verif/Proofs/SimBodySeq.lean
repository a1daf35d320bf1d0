import Verif.Proofs.SimBody
/-!
# Bodies of ordinary objects, of objects with slots or state, and of list and set subclasses
-/
namespace JP.Sim
open JP PyM Unpickler

variable {w : World} {cfg : PCfg} {env : UEnv}
variable {Bad : Ctx}
variable {fl : Val → P Json} {rs rs2 rs3 : Json → U Val}
variable {a : Addr} {i i0 : Inst} {b : Nat}
variable {s2 s3 : PState} {u3 : UState} {data : List (Str × Json)}

/-- what the body lemma says -/
def BodyGoal (w : World) (cfg : PCfg) (env : UEnv) (rs : Json → U Val) (Bad : Ctx) (i : Inst) (b : Nat)
    (s2 s3 : PState) (u3 : UState) (data : List (Str × Json)) (r : Except Exc Json) : Prop :=
  ∃ ents, r = .ok (.obj (data ++ ents)) ∧ Shape env i ents ∧ BodyRes w cfg env rs Bad i b s2 s3 u3 ents

theorem body_plain (hm : Matching w cfg env) (h : Sim w cfg env fl rs2) (o : Open w env Bad a i i0 b s2 u3) (hn : NoState w.heap i)
    (hdata : ∀ k ∈ data.map (·.1), k ∈ Tags.all) (hbase : i.info.base = .plain) (hit : i.info.isIterator = false)
    (hdict : i.info.hasDict = true) (hok : AttrsOk w.heap env i.attrs) {r s3}
    (hrun : Pickler.flattenGetstate w cfg fl a i data s2 = some (r, s3)) :
    BodyGoal w cfg env rs2 Bad i b s2 s3 u3 data r := by
  rw [getstate_rest hn o.ok.tidy.exclude] at hrun
  unfold Pickler.flattenRest at hrun
  rw [hbase] at hrun
  simp only [hit, hdict, Bool.false_eq_true, if_false, if_true] at hrun
  have hit : Pickler.dictItems w i = Pickler.asItems i.attrs := by simp [Pickler.dictItems, o.ok.tidy.dictCell]
  rw [hit, o.ok.tidy.exclude, entries_str (env := env) (h := w.heap) i.attrs data (fun e he => by
      rw [hm.keys]; exact ⟨(hok.1 e he).1, (hok.1 e he).2.2.2⟩) hok.2 (fun e he hmem => (hok.1 e he).1.1 (hdata _ hmem))] at hrun
  simp only [bind_assoc'] at hrun
  rw [bind_run] at hrun
  cases hmm : mapM fl (i.attrs.map (·.2)) s2 with
  | none => rw [hmm] at hrun; cases hrun
  | some p =>
    obtain ⟨r1, s1⟩ := p
    obtain ⟨js, e1, hlen, hsh, hres⟩ := body_attrs h o hn hbase hok (fun kv _ => o.attrOk_dict hdict _) hmm
    subst e1
    rw [hmm] at hrun
    simp only [pure_bind', pure_run] at hrun
    cases hrun
    exact ⟨_, rfl, hsh, hres⟩

theorem body_empty (h : Sim w cfg env fl rs2) (o : Open w env Bad a i i0 b s2 u3) (hn : NoState w.heap i)
    (hne : data ≠ []) (hbase : i.info.base = .plain) (hit : i.info.isIterator = false)
    (hdict : i.info.hasDict = false) (hsl : i.info.hasSlots = false) (hat : i.attrs = []) {r s3}
    (hrun : Pickler.flattenGetstate w cfg fl a i data s2 = some (r, s3)) :
    BodyGoal w cfg env rs2 Bad i b s2 s3 u3 data r := by
  rw [getstate_rest hn o.ok.tidy.exclude] at hrun
  unfold Pickler.flattenRest at hrun
  rw [hbase] at hrun
  have hne' : data.isEmpty = false := by cases data <;> simp_all
  simp only [hit, hdict, hsl, hne', Bool.false_eq_true, if_false, Bool.not_false, if_true, pure_run] at hrun
  cases hrun
  have hok : AttrsOk w.heap env i.attrs := by rw [hat]; exact ⟨by simp, by simp⟩
  have hmm : mapM fl (i.attrs.map (·.2)) s2 = some (.ok [], s2) := by rw [hat]; rfl
  obtain ⟨js, e1, hlen, hsh, hres⟩ := body_attrs h o hn hbase hok (by rw [hat]; simp) hmm
  injection e1 with e1
  subst e1
  rw [hat] at hsh hres
  exact ⟨[], by simp, hsh, hres⟩

/-! ### slots -/

/-- the slots that are set, with their values -/
def setSlots (attrs : List (Str × Val)) (ks : List Str) : List (Str × Val) :=
  ks.filterMap (fun k => (dget k attrs).map (fun v => (k, v)))

theorem slots_run (hm : Matching w cfg env) (he : i.exclude = []) {attrs : List (Str × Val)}
    (hok : ∀ k v, dget k attrs = some v → NameOk env.keys k ∧ ValOk w.heap env v) :
    ∀ (ks : List Str) (acc : Bool × List (Str × Json)) (s : PState) r s', ks.Nodup →
    (∀ k ∈ ks, startsWith k p!"__" = false) → (∀ k ∈ ks, (dget k attrs).isSome = true → k ∉ acc.2.map (·.1)) →
    foldM (fun (acc : Bool × List (Str × Json)) k =>
      if i.exclude.contains k then pure acc
      else
        PyM.tryCatch (do
          let name := if startsWith k p!"__" then p!"_" ++ i.info.shortName ++ k else k
          let v ← ofExcept (match dget name attrs with
            | some v => .ok v
            | none => .error .attributeError)
          let d ← Pickler.flattenKeyValuePair w fl (.str k) v acc.2
          pure (true, d))
          (· == .attributeError)
          (fun _ => pure acc)) acc ks s = some (r, s') →
    ∃ r2 s2, mapM fl ((setSlots attrs ks).map (·.2)) s = some (r2, s2) ∧
      ∀ js, r2 = .ok js → js.length = (setSlots attrs ks).length ∧
        r = .ok (acc.1 || !(setSlots attrs ks).isEmpty, acc.2 ++ ((setSlots attrs ks).map (·.1)).zip js) ∧ s' = s2
  | [], acc, s, r, s', _, _, _, hrun => by
    simp only [foldM_nil, pure_run] at hrun
    cases hrun
    refine ⟨.ok [], s, rfl, ?_⟩
    intro js hjs
    cases hjs
    simp [setSlots]
  | k :: ks, acc, s, r, s', hn, hu, hnew, hrun => by
    have hn' := List.nodup_cons.1 hn
    have hku := hu k List.mem_cons_self
    rw [foldM_cons] at hrun
    change ((if i.exclude.contains k then pure acc
      else
        PyM.tryCatch (do
          let name := if startsWith k p!"__" then p!"_" ++ i.info.shortName ++ k else k
          let v ← ofExcept (match dget name attrs with
            | some v => .ok v
            | none => .error .attributeError)
          let d ← Pickler.flattenKeyValuePair w fl (.str k) v acc.2
          pure (true, d))
          (· == .attributeError)
          (fun _ => pure acc) : P _) >>= fun acc' => foldM _ acc' ks) s = _ at hrun
    simp only [he, List.contains_nil, Bool.false_eq_true, if_false, hku] at hrun
    cases hg : dget k attrs with
    | none =>
      rw [hg] at hrun
      have h0 : (PyM.tryCatch (do
          let v ← (ofExcept (.error .attributeError) : P Val)
          let d ← Pickler.flattenKeyValuePair w fl (.str k) v acc.2
          pure (true, d))
          (· == .attributeError)
          (fun _ => (pure acc : P _))) s = some (.ok acc, s) := rfl
      rw [bind_ok h0] at hrun
      have hss : setSlots attrs (k :: ks) = setSlots attrs ks := by simp [setSlots, hg]
      rw [hss]
      refine slots_run hm he hok ks acc s r s' hn'.2 (fun k hk => hu k (List.mem_cons_of_mem _ hk))
        (fun k hk => hnew k (List.mem_cons_of_mem _ hk)) ?_
      simp only [he, List.contains_nil, Bool.false_eq_true, if_false]
      exact hrun
    | some v =>
      rw [hg] at hrun
      have hss : setSlots attrs (k :: ks) = (k, v) :: setSlots attrs ks := by simp [setSlots, hg]
      obtain ⟨q1, q2⟩ := hok k v hg
      rw [hss]
      simp only [List.map_cons, mapM_cons]
      have hkv : Pickler.flattenKeyValuePair w fl (.str k) v acc.2 = (fl v >>= fun j => (pure (dset k j acc.2) : P _)) :=
        kvp_str (cfg := cfg) (env := env) (h := w.heap) (by rw [hm.keys]; exact q1) q2
      rw [bind_run] at hrun
      cases hfl : fl v s with
      | none =>
        exfalso
        have : (PyM.tryCatch (do
          let v ← (ofExcept (.ok v) : P Val)
          let d ← Pickler.flattenKeyValuePair w fl (.str k) v acc.2
          pure (true, d))
          (· == .attributeError)
          (fun _ => (pure acc : P _))) s = none := by
          simp only [PyM.tryCatch]
          rw [bind_ok (ofExcept_run _ _), hkv, bind_run, bind_run, hfl]
        rw [this] at hrun
        cases hrun
      | some p =>
        obtain ⟨r1, s1⟩ := p
        cases r1 with
        | error e =>
          refine ⟨.error e, s1, ?_, fun js hjs => by cases hjs⟩
          change (fl v >>= fun y => mapM fl ((setSlots attrs ks).map (·.2)) >>= fun ys => (pure (y :: ys) : P _)) s = _
          rw [bind_run, hfl]
        | ok j =>
          have h0 : (PyM.tryCatch (do
            let v ← (ofExcept (.ok v) : P Val)
            let d ← Pickler.flattenKeyValuePair w fl (.str k) v acc.2
            pure (true, d))
            (· == .attributeError)
            (fun _ => (pure acc : P _))) s = some (.ok (true, dset k j acc.2), s1) := by
            simp only [PyM.tryCatch]
            rw [bind_ok (ofExcept_run _ _), hkv, bind_run, bind_run, hfl]
            rfl
          rw [h0] at hrun
          simp only [] at hrun
          have hkn : k ∉ acc.2.map (·.1) := hnew k List.mem_cons_self (by rw [hg]; rfl)
          have hset : dset k j acc.2 = acc.2 ++ [(k, j)] := dset_of_not_mem _ _ _ hkn
          rw [hset] at hrun
          obtain ⟨r2, s2, e1, e2⟩ := slots_run hm he hok ks (true, acc.2 ++ [(k, j)]) s1 r s' hn'.2
            (fun k hk => hu k (List.mem_cons_of_mem _ hk))
            (by
              intro k' hk' hs hmem
              simp only [List.map_append, List.map_cons, List.map_nil, List.mem_append, List.mem_singleton] at hmem
              rcases hmem with hmem | hmem
              · exact hnew k' (List.mem_cons_of_mem _ hk') hs hmem
              · subst hmem; exact hn'.1 hk')
            (by
              simp only [he, List.contains_nil, Bool.false_eq_true, if_false]
              exact hrun)
          change ∃ r2 s2, (fl v >>= fun y => mapM fl ((setSlots attrs ks).map (·.2)) >>= fun ys => (pure (y :: ys) : P _)) s = some (r2, s2) ∧ _
          rw [bind_ok hfl, bind_run, e1]
          cases r2 with
          | error e => exact ⟨.error e, s2, rfl, fun js hjs => by cases hjs⟩
          | ok js =>
            refine ⟨.ok (j :: js), s2, rfl, ?_⟩
            intro js' hjs'
            injection hjs' with hjs'
            subst hjs'
            obtain ⟨q1, q2, q3⟩ := e2 js rfl
            refine ⟨by simp [q1], ?_, q3⟩
            rw [q2]
            simp

theorem dget_mem_nodup {α : Type} {l : List (Str × α)} (hn : (l.map (·.1)).Nodup) {k : Str} {v : α} (h : (k, v) ∈ l) :
    dget k l = some v := by
  induction l with
  | nil => cases h
  | cons x l ih =>
    obtain ⟨k', v'⟩ := x
    rw [dget_cons]
    simp only [List.map_cons, List.nodup_cons] at hn
    rcases List.mem_cons.1 h with e | e
    · cases e; simp
    · have : k' ≠ k := fun e' => hn.1 (by subst e'; exact List.mem_map_of_mem e)
      rw [if_neg this]
      exact ih hn.2 e

theorem setSlots_eq {attrs : List (Str × Val)} (hn : (attrs.map (·.1)).Nodup) {ks : List Str}
    (h : attrs.map (·.1) = ks.filter (fun k => (attrs.map (·.1)).contains k)) : setSlots attrs ks = attrs := by
  have key : ∀ (ks : List Str) (l : List (Str × Val)), (∀ kv ∈ l, kv ∈ attrs) →
      l.map (·.1) = ks.filter (fun k => (attrs.map (·.1)).contains k) → setSlots attrs ks = l := by
    intro ks
    induction ks with
    | nil =>
      intro l _ hl
      simp only [List.filter_nil, List.map_eq_nil_iff] at hl
      subst hl
      rfl
    | cons k ks ih =>
      intro l hsub hl
      cases hc : (attrs.map (·.1)).contains k with
      | false =>
        rw [List.filter_cons_of_neg (by simpa using hc)] at hl
        have hg : dget k attrs = none := by
          rw [dget_eq_none_iff]
          intro hm
          rw [List.contains_iff_mem.2 hm] at hc
          cases hc
        simp only [setSlots, List.filterMap_cons, hg, Option.map_none]
        exact ih l hsub hl
      | true =>
        rw [List.filter_cons_of_pos (by simpa using hc)] at hl
        cases l with
        | nil => simp at hl
        | cons kv l =>
          simp only [List.map_cons, List.cons.injEq] at hl
          obtain ⟨k', v'⟩ := kv
          obtain ⟨e, hl⟩ := hl
          simp only [] at e
          subst e
          have hg := dget_mem_nodup hn (hsub _ List.mem_cons_self)
          simp only [setSlots, List.filterMap_cons, hg, Option.map_some]
          congr 1
          exact ih l (fun kv hkv => hsub kv (List.mem_cons_of_mem _ hkv)) hl
  exact key ks attrs (fun _ h => h) h

theorem body_slots (hm : Matching w cfg env) (h : Sim w cfg env fl rs2) (o : Open w env Bad a i i0 b s2 u3) (hn : NoState w.heap i)
    (hdata : ∀ k ∈ data.map (·.1), k ∈ Tags.all) (hbase : i.info.base = .plain) (hit : i.info.isIterator = false)
    (hdict : i.info.hasDict = false) (hsl : i.info.hasSlots = true) (hok : AttrsOk w.heap env i.attrs) (hne : i.attrs ≠ [])
    (hsn : i.info.slots.Nodup) (hsu : ∀ k ∈ i.info.slots, startsWith k p!"__" = false)
    (hset : i.attrs.map (·.1) = i.info.slots.filter (fun k => (i.attrs.map (·.1)).contains k)) {r s3}
    (hrun : Pickler.flattenGetstate w cfg fl a i data s2 = some (r, s3)) :
    BodyGoal w cfg env rs2 Bad i b s2 s3 u3 data r := by
  rw [getstate_rest hn o.ok.tidy.exclude] at hrun
  unfold Pickler.flattenRest at hrun
  rw [hbase] at hrun
  simp only [hit, hdict, hsl, Bool.false_eq_true, if_false, if_true] at hrun
  unfold Pickler.flattenSlots at hrun
  rw [bind_run] at hrun
  cases hobj : Pickler.flattenObjAttrs w fl i i.attrs i.info.slots data s2 with
  | none => rw [hobj] at hrun; cases hrun
  | some p =>
    obtain ⟨r1, s1⟩ := p
    have hobj' := hobj
    unfold Pickler.flattenObjAttrs at hobj'
    obtain ⟨r2, s2', e1, e2⟩ := slots_run (env := env) hm o.ok.tidy.exclude (attrs := i.attrs) (fun k v hg => by
        have := dget_mem hg
        exact ⟨(hok.1 _ this).1, (hok.1 _ this).2.2.2⟩) i.info.slots (false, data) s2 r1 s1 hsn hsu (by
        intro k _ hs hmem
        cases hg : dget k i.attrs with
        | none => rw [hg] at hs; cases hs
        | some v => exact (hok.1 _ (dget_mem hg)).1.1 (hdata _ hmem)) hobj'
    rw [setSlots_eq hok.2 hset] at e1 e2
    obtain ⟨js, f1, hlen, hsh, hres⟩ := body_attrs h o hn hbase hok (fun kv hkv => by
      have : kv.1 ∈ i.info.slots := by
        have h1 : kv.1 ∈ i.attrs.map (·.1) := List.mem_map_of_mem hkv
        rw [hset] at h1
        exact (List.mem_filter.1 h1).1
      rw [attrOk, o.init.info, List.contains_iff_mem.2 this]; simp) e1
    obtain ⟨g1, g2, g3⟩ := e2 js f1
    subst g3
    rw [hobj, g2] at hrun
    have hne' : i.attrs.isEmpty = false := by cases hh : i.attrs <;> simp_all
    simp only [hne', Bool.not_false, Bool.or_true, if_true, pure_run] at hrun
    cases hrun
    exact ⟨_, rfl, hsh, hres⟩

/-! ### list and set subclasses -/

theorem seqAttrs_eq (hm : Matching w cfg env) (ht : i.Tidy) (hok : AttrsOk w.heap env i.attrs) (hnd : i.info.hasDict = false → i.attrs = [])
    (hdata : ∀ k ∈ data.map (·.1), k ∈ Tags.all) :
    Pickler.flattenSeqAttrs w cfg fl i data =
      (mapM fl (i.attrs.map (·.2)) >>= fun js => (pure (data ++ (i.attrs.map (·.1)).zip js) : P _)) := by
  unfold Pickler.flattenSeqAttrs
  split
  · have hit : Pickler.dictItems w i = Pickler.asItems i.attrs := by simp [Pickler.dictItems, ht.dictCell]
    rw [hit, entries_str (env := env) (h := w.heap) i.attrs data (fun e he => by
      rw [hm.keys]; exact ⟨(hok.1 e he).1, (hok.1 e he).2.2.2⟩) hok.2 (fun e he hmem => (hok.1 e he).1.1 (hdata _ hmem))]
  · next hh =>
    rw [hnd (by simpa using hh)]
    change _ = (pure (data ++ []) : P _)
    rw [List.append_nil]

theorem seq_run (hm : Matching w cfg env) (ht : i.Tidy) (hok : AttrsOk w.heap env i.attrs) (hnd : i.info.hasDict = false → i.attrs = [])
    (hdata : ∀ k ∈ data.map (·.1), k ∈ Tags.all) (hseq : Tags.SEQ ∉ data.map (·.1)) {r s3}
    (hrun : Pickler.flattenSequence w cfg fl i data s2 = some (r, s3)) :
    ∃ r1 s1, mapM fl (i.attrs.map (·.2)) s2 = some (r1, s1) ∧ ∀ js, r1 = .ok js → js.length = i.attrs.length →
      ∃ r2 s2', mapM fl i.elems s1 = some (r2, s2') ∧ ∀ js2, r2 = .ok js2 → s3 = s2' ∧
        r = .ok (.obj (data ++ ((i.attrs.map (·.1)).zip js ++ [(Tags.SEQ, .arr js2)]))) := by
  unfold Pickler.flattenSequence at hrun
  rw [seqAttrs_eq hm ht hok hnd hdata] at hrun
  simp only [bind_assoc', pure_bind'] at hrun
  rw [bind_run] at hrun
  cases hmm : mapM fl (i.attrs.map (·.2)) s2 with
  | none => rw [hmm] at hrun; cases hrun
  | some p =>
    obtain ⟨r1, s1⟩ := p
    refine ⟨r1, s1, rfl, ?_⟩
    intro js hjs hlen
    subst hjs
    rw [hmm] at hrun
    simp only [] at hrun
    rw [bind_run] at hrun
    cases hmm2 : mapM fl i.elems s1 with
    | none => rw [hmm2] at hrun; cases hrun
    | some p =>
      obtain ⟨r2, s2'⟩ := p
      refine ⟨r2, s2', rfl, ?_⟩
      intro js2 hjs2
      subst hjs2
      rw [hmm2] at hrun
      simp only [hm.unpicklable, if_true, pure_run] at hrun
      rw [dset_of_not_mem] at hrun
      · cases hrun
        exact ⟨rfl, by rw [List.append_assoc]⟩
      · rw [List.map_append, zip_keys _ _ (by simpa using hlen)]
        intro hmem
        rcases List.mem_append.1 hmem with hh | hh
        · exact hseq hh
        · obtain ⟨e, he, hek⟩ := List.mem_map.1 hh
          exact (hok.1 e he).1.1 (by rw [hek]; exact seq_tag)

theorem body_seq (hm : Matching w cfg env) (h : Sim w cfg env fl rs2) (o : Open w env Bad a i i0 b s2 u3) (hn : NoState w.heap i)
    (hdata : ∀ k ∈ data.map (·.1), k ∈ Tags.all) (hseq : Tags.SEQ ∉ data.map (·.1))
    (hbase : i.info.base = .list ∨ (i.info.base = .set ∧ hashables w.heap i.elems = true ∧
      i.elems.Pairwise (fun x y => pyEq x y = false)))
    (hok : AttrsOk w.heap env i.attrs) (hnd : i.info.hasDict = false → i.attrs = []) (hels : ValsOk w.heap env i.elems) {r s3}
    (hrun : Pickler.flattenGetstate w cfg fl a i data s2 = some (r, s3)) :
    BodyGoal w cfg env rs2 Bad i b s2 s3 u3 data r := by
  rw [getstate_rest hn o.ok.tidy.exclude] at hrun
  have hb0 : i.info.base ≠ .dict := by rcases hbase with e | ⟨e, _⟩ <;> rw [e] <;> simp
  have hb1 : i.info.base ≠ .plain := by rcases hbase with e | ⟨e, _⟩ <;> rw [e] <;> simp
  have e0 : Pickler.flattenRest w cfg fl a i data = Pickler.flattenSequence w cfg fl i data := by
    unfold Pickler.flattenRest
    rcases hbase with e | ⟨e, _⟩ <;> rw [e]
  rw [e0] at hrun
  obtain ⟨r1, s1, e1, e2⟩ := seq_run hm o.ok.tidy hok hnd hdata hseq hrun
  have hi := o.init
  obtain ⟨js, us, acc, u4, f1, hlen, f2, hstep, hp, hb, _⟩ := simAttrs (b := b) h hok (by rw [hi.info]; exact hb0) hi.dictCell
    (by
      intro kv hkv
      cases hdd : i.info.hasDict with
      | true => exact o.attrOk_dict hdd _
      | false => rw [hnd hdd] at hkv; cases hkv) hi.attrs
    s2 u3 r1 s1 o.depth (fun e he => o.part (Or.inr hn) (by
      simp only [Inst.parts, List.mem_append]
      exact Or.inl (Or.inl (Or.inl (Or.inl (Or.inl (Or.inl (Or.inl (Or.inl (Or.inl (Or.inl (List.mem_map_of_mem he))))))))))) (hok.1 e he).2.2.2) o.rel o.cell e1
  obtain ⟨r2, s2', g1, g2⟩ := e2 js f1 hlen
  obtain ⟨js2, els, u5, k1, k2, hstep2, hels2, hb2, _⟩ := simElems (b := b) (i0 := { i0 with attrs := acc }) h (elems := i.elems)
    (by simp only [hi.info]; exact hbase) hi.elems s1 u4 r2 s2' (by rw [hstep.depth]; exact o.depth)
    (fun e he => o.part (Or.inr hn) (by
      simp only [Inst.parts, List.mem_append]
      exact Or.inl (Or.inl (Or.inl (Or.inl (Or.inl (Or.inl (Or.inl (Or.inr he)))))))) (valsOk_iff.1 hels e he)) hstep.rel hb g1
  obtain ⟨l1, l2⟩ := g2 js2 k1
  subst l1
  have hkeys : (((i.attrs.map (·.1)).zip js)).map (·.1) = i.attrs.map (·.1) := zip_keys _ _ (by simpa using hlen)
  have hnt := names_not_tags (keys := env.keys) hok
  have hdf : Tags.DEFAULT_FACTORY ∉ ((i.attrs.map (·.1)).zip js ++ [(Tags.SEQ, Json.arr js2)]).map (·.1) := by
    rw [List.map_append, hkeys]
    intro hm
    rcases List.mem_append.1 hm with hh | hh
    · exact (hnt _ hh).1 df_tag
    · simp only [List.map_cons, List.map_nil, List.mem_singleton] at hh
      exact absurd hh (by decide)
  have hdf2 : p!"default_factory" ∉ ((i.attrs.map (·.1)).zip js ++ [(Tags.SEQ, Json.arr js2)]).map (·.1) := by
    rw [List.map_append, hkeys]
    intro hm
    rcases List.mem_append.1 hm with hh | hh
    · exact (hnt _ hh).2 rfl
    · simp only [List.map_cons, List.map_nil, List.mem_singleton] at hh
      exact absurd hh (by decide)
  have hstep3 := hstep.trans hstep2 (by
    intro b' hb'
    simp only [List.mem_singleton] at hb'
    subst hb'
    exact o.lt)
  refine ⟨_, l2, ⟨?_, Or.inl ⟨o.nofac hb0, hdf, hdf2⟩⟩, u5, { i0 with attrs := acc, elems := els }, ?_, hstep3, hb2, ?_, ?_, ?_⟩
  · rw [List.map_append, hkeys]
    intro k hk
    rcases List.mem_append.1 hk with hh | hh
    · exact Or.inl (hnt k hh).1
    · simp only [List.map_cons, List.map_nil, List.mem_singleton] at hh
      exact Or.inr (Or.inl ⟨hh, hb1, hb0⟩)
  · rw [stripF_none hdf hdf2]
    have hent : mapM (entryOf env rs2 b) ((i.attrs.map (·.1)).zip js ++ [(Tags.SEQ, Json.arr js2)]) u3 = some (.ok (us ++ [()]), u4) := by
      refine mapM_append_run f2 ?_
      rw [mapM_cons, entryOf_reserved (by change Tags.isReserved Tags.SEQ = true; decide)]
      rfl
    rw [variables_run hent]
    unfold restoreSeqTag
    have d1 : dget Tags.SEQ ((i.attrs.map (·.1)).zip js ++ [(Tags.SEQ, Json.arr js2)]) = some (.arr js2) := by
      rw [dget_append, (dget_eq_none_iff _ _).2]
      · simp [dget]
      · rw [hkeys]; intro hm; exact (hnt _ hm).1 seq_tag
    have d2 : dget Tags.STATE ((i.attrs.map (·.1)).zip js ++ [(Tags.SEQ, Json.arr js2)]) = none := by
      rw [dget_eq_none_iff, List.map_append, hkeys]
      intro hm
      rcases List.mem_append.1 hm with hh | hh
      · exact (hnt _ hh).1 state_tag
      · simp only [List.map_cons, List.map_nil, List.mem_singleton] at hh
        exact absurd hh (by decide)
    rw [d1, d2]
    simp only []
    rw [bind_ok k2]
    rfl
  · intro d hd
    simp only [] at hd
    rw [hi.dictCell] at hd
    cases hd
  · exact o.same hstep3.mono hb0 hn (hp.mono hstep2.mono) hels2
  · refine fixFactory_none hb2 ?_ ?_
    · simp only []
      rw [hi.factory, o.nofac hb0]
    · simp only []
      rw [Paired.labels hp]
      intro hm
      exact (hnt _ hm).2 rfl

/-! ### `__getstate__` and `__setstate__` -/

theorem body_state (hm : Matching w cfg env) (h : Sim w cfg env fl rs2) (o : Open w env Bad a i i0 b s2 u3)
    (hstate : Tags.STATE ∉ data.map (·.1)) {st : Val} (ho : i.info.ownGetstate = true) (hst : i.state = .ok st)
    (htr : truthy w.heap st = true) (hss : i.info.hasSetstate = true) (hok : ValOk w.heap env st) (hfac : i.factory = none) {r s3}
    (hrun : Pickler.flattenGetstate w cfg fl a i data s2 = some (r, s3)) :
    BodyGoal w cfg env rs2 Bad i b s2 s3 u3 data r := by
  have hi := o.init
  rw [getstate_ok ho hst o.ok.tidy.exclude, htr, if_pos rfl, bind_run] at hrun
  cases hfl : fl st s2 with
  | none => rw [hfl] at hrun; cases hrun
  | some p =>
    obtain ⟨r1, s1⟩ := p
    have hfit : Fit w env Bad st := o.part (Or.inl hss) (by
      simp only [Inst.parts, List.mem_append, hst]
      exact Or.inl (Or.inl (Or.inl (Or.inl (Or.inl (Or.inr (by simp))))))) hok
    obtain ⟨j, x, u4, e1, e2, hstep, hiso⟩ := h Bad st s2 u3 o.depth hfit.1 hfit.2 o.rel r1 s1 hfl
    subst e1
    rw [hfl] at hrun
    simp only [pure_run, Pickler.putState, hm.unpicklable, if_true, dset_of_not_mem _ _ _ hstate] at hrun
    cases hrun
    have hdf : Tags.DEFAULT_FACTORY ∉ [(Tags.STATE, j)].map (·.1) := by simp only [List.map_cons, List.map_nil]; decide
    have hdf2 : p!"default_factory" ∉ [(Tags.STATE, j)].map (·.1) := by simp only [List.map_cons, List.map_nil]; decide
    have hb : u4.heap[b]? = some (.inst i0) := by rw [hstep.ext.cells b o.lt (by simp), o.cell]
    have hstep2 : Step w cfg [b] Bad s3 s3 u4 { u4 with heap := u4.heap.set b (.inst { i0 with state := .ok x }) } :=
      Step.set hstep.rel hb (fun o ho => by cases o <;> simp_all [SameKind]) (by simp) (Writable.inst hstep.rel hb)
    have hcell2 : ({ u4 with heap := u4.heap.set b (.inst { i0 with state := .ok x }) } : UState).heap[b]? = some (.inst { i0 with state := .ok x }) :=
      set_get (get_lt hb)
    refine ⟨_, rfl, ⟨?_, Or.inl ⟨hfac, hdf, hdf2⟩⟩, _, { i0 with state := .ok x }, ?_, (hstep.weaken (by simp)).trans hstep2 (by
      intro b' hb'
      simp only [List.mem_singleton] at hb'
      subst hb'
      exact o.lt), hcell2, ?_, ?_, ?_⟩
    · intro k hk
      simp only [List.map_cons, List.map_nil, List.mem_singleton] at hk
      exact Or.inr (Or.inr (Or.inl hk))
    · rw [stripF_none hdf hdf2]
      have hent : mapM (entryOf env rs2 b) [(Tags.STATE, j)] u3 = some (.ok [()], u3) := by
        rw [mapM_cons, entryOf_reserved (by change Tags.isReserved Tags.STATE = true; decide)]
        rfl
      rw [variables_run hent]
      unfold restoreSeqTag
      have d1 : dget Tags.SEQ [(Tags.STATE, j)] = none := by
        rw [dget_cons, if_neg (by decide)]; rfl
      have d2 : dget Tags.STATE [(Tags.STATE, j)] = some j := by
        rw [dget_cons, if_pos rfl]
      rw [d1, d2]
      simp only []
      rw [bind_ok (pure_run _ _)]
      unfold restoreState
      rw [bind_ok e2, bind_ok (get_run _)]
      have hinf : (infoOf u4.heap b).hasSetstate = true := by simp only [infoOf, hb, hi.info, hss]
      rw [if_pos hinf]
      rw [bind_ok (modInst_run hb)]
      rfl
    · intro d hd
      simp only [] at hd
      rw [hi.dictCell] at hd
      cases hd
    · have hc := SameCtor.mono hstep.mono o.ctor
      exact .state o.hd o.ok.noReduce hi.cls hss (by simp [savedState, ho, hst, htr]) rfl hiso ⟨hc.noInit, hc.noReduce, hc.newargs, hc.newargsEx, hc.initargs⟩
    · refine fixFactory_none hcell2 ?_ ?_
      · simp only []
        rw [hi.factory, hfac]
      · simp only [hi.attrs]
        simp

end JP.Sim
