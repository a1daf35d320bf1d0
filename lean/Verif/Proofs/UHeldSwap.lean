import Verif.Proofs.UHeldRun
/-!
# When the notes are worked off, lists, dicts and attributes hold no placeholders but those of objects that were given up
-/
namespace JP.Unpickler.Held
open JP PyM

/-- a placeholder only if it is one that nothing was put in the place of -/
def Settled (h : Heap) (v : Val) : Prop := ∀ p, proxyAddr h v = some p → h[p]? = some (.proxy none)

structure Due (s : UState) (R : List (Addr × Slot × Addr)) : Prop where
  cells : Cells Settled s.heap R
  objs : ∀ (n : Nat) v, s.objs[n]? = some v → InR s.heap v ∧ Settled s.heap v
  strs : Strs R

theorem Entry.weaken {h : Heap} {R : List (Addr × Slot × Addr)} {a : Addr} {sl : Slot} {v : Val} (e : Entry never h R a sl v) : Entry Settled h R a sl v :=
  ⟨e.1, .inr (e.2.elim (fun f => False.elim f) id)⟩

theorem CellOk.weaken {h : Heap} {R : List (Addr × Slot × Addr)} {a : Addr} {o : Obj} (c : CellOk never h R a o) : CellOk Settled h R a o := by
  cases o with
  | list vs => exact fun i v hv => (c i v hv).weaken
  | dict es => exact ⟨fun k v hv => ⟨(c.1 k v hv).1, (c.1 k v hv).2.weaken⟩, c.2.imp id (fun f k v hv => .inr ((f k v hv).elim (fun x => False.elim x) id))⟩
  | inst i => exact ⟨c.1, c.2.1, c.2.2.1, fun hb => ⟨(c.2.2.2 hb).1, fun k v hv => ((c.2.2.2 hb).2 k v hv).imp id Entry.weaken⟩⟩
  | proxy w => cases w <;> exact c
  | idproxy n => trivial

theorem Inv.due {s : UState} (hi : Inv s) : Due s s.proxies :=
  ⟨fun a o ho => (hi.cells a o ho).weaken, fun n v hv => ⟨(hi.objs n v hv).1, fun p hp => ((hi.objs n v hv).2 p hp).1⟩, hi.strs⟩

/-- the slot is one that objects of this kind have -/
def Uses : Obj → Slot → Prop
  | .list _, .idx _ => True
  | .dict _, .key _ => True
  | .inst i, .attr _ => i.info.base ≠ .dict
  | _, _ => False

theorem Entry.drop {S : Heap → Val → Prop} {h : Heap} {R : List (Addr × Slot × Addr)} {e} {a : Addr} {sl : Slot} {v : Val} (en : Entry S h (e :: R) a sl v) (hne : a = e.1 → sl ≠ e.2.1) :
    Entry S h R a sl v := ⟨en.1, en.2.imp id (fun f p hp => by
  rcases List.mem_cons.1 (f p hp) with h | h
  · exact absurd (congrArg (·.2.1) h) (hne (congrArg (·.1) h))
  · exact h)⟩

theorem CellOk.drop {S : Heap → Val → Prop} {h : Heap} {R : List (Addr × Slot × Addr)} {e} {a : Addr} {o : Obj} (c : CellOk S h (e :: R) a o) (hne : a = e.1 → ¬ Uses o e.2.1) :
    CellOk S h R a o := by
  cases o with
  | list vs => exact fun i v hv => (c i v hv).drop (fun ha he => hne ha (by rw [← he]; trivial))
  | dict es => exact ⟨fun k v hv => ⟨(c.1 k v hv).1, (c.1 k v hv).2.drop (fun ha he => hne ha (by rw [← he]; trivial))⟩, c.2⟩
  | inst i => exact ⟨c.1, c.2.1, c.2.2.1, fun hb => ⟨(c.2.2.2 hb).1, fun k v hv => ((c.2.2.2 hb).2 k v hv).imp id (fun en => en.drop (fun ha he => hne ha (by rw [← he]; exact hb)))⟩⟩
  | proxy w => cases w <;> exact c
  | idproxy n => trivial

theorem strs_tail {e} {R : List (Addr × Slot × Addr)} (h : Strs (e :: R)) : Strs R := fun a k p hm => h a k p (.tail _ hm)

/-- nothing happens -/
theorem Due.skip {s : UState} {e} {R : List (Addr × Slot × Addr)} (d : Due s (e :: R)) (hne : ∀ o, s.heap[e.1]? = some o → ¬ Uses o e.2.1) : Due s R :=
  ⟨fun a o ho => (d.cells a o ho).drop (fun ha => hne o (by rw [← ha]; exact ho)), d.objs, strs_tail d.strs⟩

theorem settled_set {h : Heap} {b : Addr} {o o' : Obj} (ho : h[b]? = some o) (hs : Same o o') (hp : Plain o) {v : Val} (hv : InR h v) (h1 : Settled h v) : Settled (h.set b o') v := by
  intro p hq
  rw [proxyAddr_kept (Kept.set ho hs) hv] at hq
  have := h1 p hq
  rw [List.getElem?_set]
  split
  · next e => subst e; rw [ho] at this; cases this; exact absurd hp (fun h => h)
  · exact this

/-- an object is changed -/
theorem Due.set {s : UState} {e} {R : List (Addr × Slot × Addr)} (d : Due s (e :: R)) {b : Addr} {o o' : Obj} (ho : s.heap[b]? = some o) (hs : Same o o') (hp : Plain o)
    (hc : CellOk Settled (s.heap.set b o') R b o') (hne : b ≠ e.1 → ∀ x, s.heap[e.1]? = some x → ¬ Uses x e.2.1) : Due { s with heap := s.heap.set b o' } R where
  cells := fun a x hx => by
    dsimp only at hx ⊢
    rw [List.getElem?_set] at hx
    split at hx
    · next eq =>
      subst eq
      rw [if_pos (lt_of_get ho)] at hx
      cases hx
      exact hc
    · next hba =>
      exact ((d.cells a x hx).drop (fun ha => hne (fun h => hba (h.trans ha.symm)) x (by rw [← ha]; exact hx))).mono (Kept.set ho hs) (fun _ hv h => settled_set ho hs hp hv h) (fun _ h => h)
  objs := fun n v hv => ⟨inR_kept (Kept.set ho hs) (d.objs n v hv).1, settled_set ho hs hp (d.objs n v hv).1 (d.objs n v hv).2⟩
  strs := strs_tail d.strs

theorem proxyGet_settled {s : UState} {R : List (Addr × Slot × Addr)} (d : Due s R) (p : Addr) : InR s.heap (proxyGet s p) ∧ Settled s.heap (proxyGet s p) := by
  have hnone : InR s.heap .none ∧ Settled s.heap .none := ⟨(fun a h => by cases h), (fun p h => by cases h)⟩
  unfold proxyGet
  split
  · next v hv =>
    have := d.cells p _ hv
    exact ⟨this.1, fun q hq => by rw [this.2] at hq; cases hq⟩
  · next i _ =>
    cases hp : pyIndex s.objs i with
    | none => exact hnone
    | some v =>
      obtain ⟨n, hn⟩ := pyIndex_mem hp
      exact d.objs n v hn
  · exact hnone

theorem due_dict {s : UState} {e} {R : List (Addr × Slot × Addr)} (d : Due s (e :: R)) {b : Addr} {es : List (Val × Val)} (hb : s.heap[b]? = some (.dict es)) (t : Str) {v : Val} (hv : InR s.heap v)
    (hst : Settled s.heap v) (hslot : ∀ l, b = e.1 → .key l = e.2.1 → l = .str t) (hne : b ≠ e.1 → ∀ x, s.heap[e.1]? = some x → ¬ Uses x e.2.1) :
    Due { s with heap := s.heap.set b (.dict (vset (.str t) v es)) } R := by
  have c := d.cells b _ hb
  have hs : Same (.dict es) (.dict (vset (.str t) v es)) := nodup_vset (fun l w h => (c.1 l w h).1)
  have k1 : Kept s.heap (s.heap.set b (.dict (vset (.str t) v es))) := Kept.set hb hs
  have hv1 : Entry Settled (s.heap.set b (.dict (vset (.str t) v es))) R b (.key (.str t)) v := ⟨inR_kept k1 hv, .inl (settled_set hb hs trivial hv hst)⟩
  have old : ∀ l w, (l, w) ∈ es → l ≠ .str t → Entry Settled (s.heap.set b (.dict (vset (.str t) v es))) R b (.key l) w := fun l w hw hl =>
    ((c.1 l w hw).2.drop (fun ha he => hl (hslot l ha he))).mono k1 (fun _ hv h => settled_set hb hs trivial hv h) (fun _ h => h)
  refine d.set hb hs trivial ⟨fun l w hw => ?_, ?_⟩ hne
  · rcases c.2 with hn | hall
    · rcases mem_vset (fun l v h' => (c.1 l v h').1) hn hw with ⟨hlk, hw'⟩ | ⟨rfl, rfl⟩
      · exact ⟨(c.1 l w hw').1, old l w hw' hlk⟩
      · exact ⟨⟨t, rfl⟩, hv1⟩
    · have clean : ∀ l w, (l, w) ∈ es → Entry Settled (s.heap.set b (.dict (vset (.str t) v es))) R b (.key l) w := fun l w hw =>
        ⟨inR_kept k1 (c.1 l w hw).2.1, (hall l w hw).imp (fun h => settled_set hb hs trivial (c.1 l w hw).2.1 h) (fun h p hp => by rw [proxyAddr_kept k1 (c.1 l w hw).2.1, h] at hp; cases hp)⟩
      rcases mem_vset_weak hw with ⟨⟨u, hu⟩, rfl⟩ | hw' | ⟨rfl, rfl⟩
      · exact ⟨(c.1 l u hu).1, hv1.1, .inl (settled_set hb hs trivial hv hst)⟩
      · exact ⟨(c.1 l w hw').1, clean l w hw'⟩
      · exact ⟨⟨t, rfl⟩, hv1⟩
  · rcases c.2 with hn | hall
    · exact .inl (hs hn)
    · refine .inr (fun l w hw => ?_)
      rcases mem_vset_weak hw with ⟨_, rfl⟩ | hw' | ⟨_, rfl⟩
      · exact .inl (settled_set hb hs trivial hv hst)
      · exact (hall l w hw').imp (fun h => settled_set hb hs trivial (c.1 l w hw').2.1 h) (fun h => by rw [proxyAddr_kept k1 (c.1 l w hw').2.1]; exact h)
      · exact .inl (settled_set hb hs trivial hv hst)

theorem due_step {s s' : UState} {e} {R : List (Addr × Slot × Addr)} (d : Due s (e :: R)) (h : swapOne e s = some (.ok (), s')) : Due s' R := by
  obtain ⟨a, sl, p⟩ := e
  obtain ⟨hv, hst⟩ := proxyGet_settled d p
  unfold swapOne at h
  dsimp only at h
  cases sl with
  | idx n =>
    cases ha : s.heap[a]? with
    | none => rw [ha] at h; cases h; exact d.skip (fun o ho => by dsimp only at ho; rw [ha] at ho; cases ho)
    | some o =>
      rw [ha] at h
      cases o with
      | list xs =>
        cases h
        have c := d.cells a _ ha
        have hs : Same (.list xs) (.list (xs.set n (proxyGet s p))) := trivial
        refine d.set ha hs trivial (fun i v hiv => ?_) (fun hb => absurd rfl hb)
        rw [List.getElem?_set] at hiv
        split at hiv
        · split at hiv
          · cases hiv; exact ⟨inR_kept (Kept.set ha hs) hv, .inl (settled_set ha hs trivial hv hst)⟩
          · cases hiv
        · next hni =>
          exact ((c i v hiv).drop (fun _ he => hni (by cases he; rfl))).mono (Kept.set ha hs) (fun _ hv h => settled_set ha hs trivial hv h) (fun _ h => h)
      | _ => cases h; exact d.skip (fun o ho => by dsimp only at ho; rw [ha] at ho; cases ho; exact fun h => h)
  | key k =>
    obtain ⟨t, rfl⟩ := d.strs a k p (.head _)
    cases ha : s.heap[a]? with
    | none => rw [ha] at h; cases h; exact d.skip (fun o ho => by dsimp only at ho; rw [ha] at ho; cases ho)
    | some o =>
      rw [ha] at h
      cases o with
      | dict es => cases h; exact due_dict d ha t hv hst (fun l _ he => by cases he; rfl) (fun hb => absurd rfl hb)
      | _ => cases h; exact d.skip (fun o ho => by dsimp only at ho; rw [ha] at ho; cases ho; exact fun h => h)
  | attr k =>
    cases k with
    | str k =>
      have h : setattr a k (proxyGet s p) s = some (.ok (), s') := by
        revert h
        cases s.heap[a]? with
        | none => exact id
        | some o => cases o <;> exact id
      unfold setattr at h
      cases ha : s.heap[a]? with
      | none => rw [ha] at h; cases h
      | some o =>
        rw [ha] at h
        cases o with
        | inst i =>
          dsimp only at h
          have c := d.cells a _ ha
          split at h
          · cases hd : i.dictCell with
            | none =>
              rw [hd] at h
              cases h
              have hs : Same (.inst i) (.inst { i with attrs := dset k (proxyGet s p) i.attrs, dictCell := none }) := trivial
              have k1 := Kept.set ha hs
              refine d.set ha hs trivial ⟨fun l w hw => inR_kept k1 (c.1 l w hw), fun l w hw => ?_, fun w hw => inR_kept k1 (c.2.2.1 w hw), fun hb => ⟨rfl, fun l w hw => ?_⟩⟩ (fun hb => absurd rfl hb)
              · dsimp only at hw
                rw [dget_dset] at hw
                split at hw
                · cases hw; exact inR_kept k1 hv
                · exact inR_kept k1 (c.2.1 l w hw)
              · dsimp only at hw
                rw [dget_dset] at hw
                split at hw
                · cases hw; exact .inr ⟨inR_kept k1 hv, .inl (settled_set ha hs trivial hv hst)⟩
                · next hlk =>
                  refine ((c.2.2.2 hb).2 l w hw).imp id (fun en => ?_)
                  exact (en.drop (fun _ he => hlk (by cases he; rfl))).mono k1 (fun _ hv h => settled_set ha hs trivial hv h) (fun _ h => h)
            | some b =>
              rw [hd] at h
              dsimp only at h
              have hb : i.info.base = .dict := by
                by_cases hb : i.info.base = .dict
                · exact hb
                · have := (c.2.2.2 hb).1
                  rw [hd] at this; cases this
              have hnu : ∀ x, s.heap[a]? = some x → ¬ Uses x (.attr (.str k)) := fun x hx hu => by rw [ha] at hx; cases hx; exact hu hb
              cases hbc : s.heap[b]? with
              | none => rw [hbc] at h; cases h; exact d.skip hnu
              | some o =>
                rw [hbc] at h
                cases o with
                | dict es => cases h; exact due_dict d hbc k hv hst (fun l _ he => by cases he) (fun _ => hnu)
                | _ => cases h; exact d.skip hnu
          · cases h
        | _ => cases h
    | _ =>
      exfalso
      revert h
      cases s.heap[a]? with
      | none => intro h; cases h
      | some o => cases o <;> intro h <;> cases h

theorem due_all : ∀ (R : List (Addr × Slot × Addr)) (s s' : UState) (us : List Unit), Due s R → PyM.mapM swapOne R s = some (.ok us, s') → Due s' []
  | [], s, s', us, d, h => by cases h; exact d
  | e :: R, s, s', us, d, h => by
    rw [mapM_cons, bind_run] at h
    cases h1 : swapOne e s with
    | none => rw [h1] at h; cases h
    | some q =>
      obtain ⟨r, s1⟩ := q
      rw [h1] at h
      cases r with
      | error x => cases h
      | ok u =>
        dsimp only at h
        rw [bind_run] at h
        cases h2 : PyM.mapM swapOne R s1 with
        | none => rw [h2] at h; cases h
        | some q =>
          obtain ⟨r, s2⟩ := q
          rw [h2] at h
          cases r with
          | error x => cases h
          | ok us' => cases h; exact due_all R s1 _ us' (due_step d h1) h2

/-- what is held when decoding is finished -/
theorem restoreTop_held {env : UEnv} (g : env.Globals) (hk : env.keys = false) (n : Nat) (j : Json) {x : Val} {s : UState} (h : restoreTop env n j true {} = some (.ok x, s)) :
    Cells Settled s.heap [] := by
  unfold restoreTop at h
  rw [if_pos rfl, bind_ok (a := ()) (s' := ({} : UState)) rfl, bind_run] at h
  have hi : Inv ({} : UState) := ⟨(fun a o ho => by cases ho), (fun n v hv => by cases hv), (fun a k p hm => by cases hm)⟩
  cases h1 : restore env n j {} with
  | none => rw [h1] at h; cases h
  | some q =>
    obtain ⟨r, s1⟩ := q
    rw [h1] at h
    cases r with
    | error e => cases h
    | ok v =>
      dsimp only at h
      have hi1 := (keeps_restore g hk n j {} hi _ _ h1).1
      unfold swapProxies at h
      rw [bind_run, bind_ok (a := s1) (s' := s1) rfl, bind_run] at h
      cases h2 : PyM.mapM swapOne s1.proxies s1 with
      | none => rw [h2] at h; cases h
      | some q =>
        obtain ⟨r, s2⟩ := q
        rw [h2] at h
        cases r with
        | error e => cases h
        | ok us =>
          cases h
          exact (due_all _ _ _ _ hi1.due h2).cells

end JP.Unpickler.Held
