import Verif.ApiSpec
import Verif.TreeSpec
import Verif.Touch
import Verif.Proofs.PPlain
import Verif.Proofs.Term
import Verif.Props.C04
import Verif.Props.C06
import Verif.Props.C41
import Verif.SampleProgram
/-!
# C68 — plain data with `unpicklable=False`

Plain data is written out in full, with what occurs more than once written more than once.  `encode` does not finish exactly if a list or dict
contains itself.
-/
namespace JP.C68
open JP PyM Pickler

/-- `None`, a bool, number or string; or a list; or a dict whose keys are different strings, none of which is written in another way -/
def Basic (h : Heap) (cfg : PCfg) : Val → Prop
  | .none | .bool _ | .int _ | .float _ | .str _ => True
  | .ref a => (∃ xs, h[a]? = some (.list xs)) ∨
      ∃ kvs, h[a]? = some (.dict kvs) ∧ (kvs.map (·.1)).Nodup ∧
        ∀ e ∈ kvs, ∃ k, e.1 = .str k ∧ k ∉ Tags.all ∧ (cfg.keys = true → startsWith k p!"json://" = false)
  | _ => False

/-- plain data -/
def Plain (h : Heap) (cfg : PCfg) (v : Val) : Prop := ∀ u, Within h v u → Basic h cfg u

/-- some list or dict of the data contains itself, directly or inside others -/
def ContainsItself (h : Heap) (v : Val) : Prop := ∃ a, Within h v (.ref a) ∧ ∃ x, Touches h (.ref a) x ∧ Within h x (.ref a)

theorem within_trans {h : Heap} {a b c : Val} (h1 : Within h a b) (h2 : Within h b c) : Within h a c := by
  induction h2 with
  | self => exact h1
  | step _ ht ih => exact .step ih ht

theorem Plain.part {h : Heap} {cfg : PCfg} {v u : Val} (hp : Plain h cfg v) (hu : Touches h v u) : Plain h cfg u :=
  fun x hx => hp x (within_trans (.step .self hu) hx)

/-! ### what the encoder writes is the data -/

/-- what the cache holds is right -/
def Good (h : Heap) (s : PState) : Prop := ∀ p ∈ s.flattened, ∀ a, p.1 = .addr a → Reads h (.ref a) p.2

/-- if the run ends, then with a value, for which `Q` holds -/
def Sound (h : Heap) {α : Type} (x : P α) (Q : α → Prop) : Prop :=
  ∀ s r s', Good h s → x s = some (r, s') → ∃ a, r = .ok a ∧ Q a ∧ Good h s'

theorem Sound.pure {h : Heap} {α : Type} {Q : α → Prop} {a : α} (ha : Q a) : Sound h (Pure.pure a) Q :=
  fun s r s' hs he => by cases he; exact ⟨a, rfl, ha, hs⟩

theorem Sound.bind {h : Heap} {α β : Type} {x : P α} {f : α → P β} {Q : α → Prop} {Q' : β → Prop} (hx : Sound h x Q) (hf : ∀ a, Q a → Sound h (f a) Q') :
    Sound h (x >>= f) Q' := by
  intro s r s' hs he
  rw [bind_run] at he
  cases hr : x s with
  | none => rw [hr] at he; cases he
  | some p =>
    obtain ⟨r1, s1⟩ := p
    obtain ⟨a, rfl, ha, h1⟩ := hx s r1 s1 hs hr
    rw [hr] at he
    exact hf a ha s1 r s' h1 he

/-- a step that does not touch the cache -/
theorem Sound.step {h : Heap} {α : Type} {x : P α} {Q : α → Prop} (hx : ∀ s, ∃ a s', x s = some (.ok a, s') ∧ Q a ∧ (s'.flattened = s.flattened ∨ s'.flattened = [])) :
    Sound h x Q := by
  intro s r s' hs he
  obtain ⟨a, s1, h1, h2, h3⟩ := hx s
  rw [h1] at he
  cases he
  refine ⟨a, rfl, h2, fun p hp => ?_⟩
  rcases h3 with h3 | h3
  · rw [h3] at hp; exact hs p hp
  · rw [h3] at hp; cases hp

section
variable {w : World} {cfg : PCfg} (hu : cfg.unpicklable = false) (hr : cfg.makeRefs = true) (hm : cfg.maxDepth = none)
include hu hr hm

theorem cached_sound {a : Addr} {x : P Json} (hx : Sound w.heap x (Reads w.heap (.ref a))) : Sound w.heap (cached cfg (.addr a) x) (Reads w.heap (.ref a)) := by
  intro s r s' hs he
  unfold cached at he
  rw [hu] at he
  simp only [Bool.false_and, Bool.false_eq_true, if_false] at he
  rw [bind_ok (get_run s)] at he
  cases hf : s.flattened.find? (fun p => p.1 == Ident.addr a) with
  | some p =>
    rw [hf] at he
    cases he
    have h1 := List.find?_some hf
    exact ⟨p.2, rfl, hs p (List.mem_of_find?_eq_some hf) a (by simpa using h1), hs⟩
  | none =>
    rw [hf] at he
    refine (hx.bind (fun j hj => ?_)) s r s' hs he
    intro s r s' hs he
    cases he
    refine ⟨j, rfl, hj, fun p hp b hb => ?_⟩
    rcases List.mem_cons.1 hp with rfl | hp
    · cases hb; exact hj
    · exact hs p hp b hb

theorem level_sound {v : Val} {i : Ident} {e : Bool} {rep : Except Exc Str} {body : P Json} {Q : Json → Prop} (hb : Sound w.heap body Q) :
    Sound w.heap (do
      push
      let j ← flattenObjWith cfg v i e rep body
      pop j) Q := by
  refine (Sound.step (x := push) (Q := fun _ => True) fun s => ⟨(), { s with depth := s.depth + 1 }, rfl, trivial, .inl rfl⟩).bind fun _ _ => ?_
  refine Sound.bind (Q := Q) ?_ fun j hj => ?_
  · intro s r s' hs he
    unfold flattenObjWith maxReached at he
    rw [bind_ok (modify_run _ _), bind_ok (gets_run _ _)] at he
    simp only [hm, hr] at he
    have hin : ∀ s, (do
        let cyc ← inCycle i e (some (s : PState).depth == none) true
        if cyc then do
          let r ← ofExcept rep
          Pure.pure (.str r)
        else body) = body := by
      intro s
      funext t
      refine (bind_ok (a := false) (s' := t) ?_).trans rfl
      simp [inCycle]
    simp only [hin] at he
    unfold PyM.tryCatch at he
    cases hr : body { s with seen := s.seen ++ [v] } with
    | none => rw [hr] at he; cases he
    | some p =>
      obtain ⟨r1, s1⟩ := p
      obtain ⟨a, rfl, h1, h2⟩ := hb { s with seen := s.seen ++ [v] } r1 s1 hs hr
      rw [hr] at he
      cases he
      exact ⟨a, rfl, h1, h2⟩
  · refine Sound.step fun s => ⟨j, _, rfl, hj, ?_⟩
    by_cases h : s.depth - 1 == -1
    · exact .inr (by simp [h])
    · exact .inl (by simp [h])

theorem mkref_sound {i : Ident} : Sound w.heap (mkref cfg i) (fun b => b = true) := by
  refine Sound.step fun s => ?_
  unfold mkref
  rw [hu]
  by_cases h : s.objs.contains i = true
  · exact ⟨true, s, (bind_ok (a := false) (s' := s) (by simp only [logRef]; rw [if_pos h])).trans rfl, rfl, .inl rfl⟩
  · exact ⟨true, { s with objs := s.objs ++ [i] }, (bind_ok (a := true) (s' := { s with objs := s.objs ++ [i] }) (by simp only [logRef]; rw [if_neg h])).trans rfl, rfl, .inl rfl⟩

theorem mapM_sound {fl : Val → P Json} : ∀ {xs : List Val}, (∀ x ∈ xs, Sound w.heap (fl x) (Reads w.heap x)) → Sound w.heap (mapM fl xs) (ReadsAll w.heap xs)
  | [], _ => .pure rfl
  | x :: xs, h => by
    rw [mapM_cons]
    exact (h x (by simp)).bind fun j hj => (mapM_sound fun y hy => h y (by simp [hy])).bind fun js hjs => .pure ⟨_, _, rfl, hj, hjs⟩

theorem fold_sound {fl : Val → P Json} : ∀ {es : List (Val × Val)} {d : List (Str × Json)}, (∀ e ∈ es, Sound w.heap (fl e.2) (Reads w.heap e.2)) →
    (∀ e ∈ es, ∃ k, e.1 = .str k ∧ Pickler.KeyOk cfg k) → (∀ e ∈ es, ∀ n, e.2 ≠ .lambda n) → (es.map (·.1)).Nodup → (∀ e ∈ es, ∀ k, e.1 = .str k → k ∉ d.map (·.1)) →
    Sound w.heap (foldM (fun d (kv : Val × Val) => flattenEntry w cfg fl kv.1 kv.2 d) d es) (fun d' => ∃ js, d' = d ++ js ∧ ReadsEntries w.heap es js)
  | [], d, _, _, _, _, _ => .pure ⟨[], by simp, rfl⟩
  | (k, v) :: es, d, h, hk, hv, hn, hd => by
    obtain ⟨k, e, hok⟩ := hk (k, v) (by simp)
    cases e
    rw [foldM_cons, flattenEntry_str hok (hv (.str k, v) (by simp)) (hd (.str k, v) (by simp) k rfl)]
    rw [List.map_cons, List.nodup_cons] at hn
    refine Sound.bind (Q := fun d' => ∃ j, d' = d ++ [(k, j)] ∧ Reads w.heap v j) ((h (.str k, v) (by simp)).bind fun j hj => .pure ⟨j, rfl, hj⟩) ?_
    rintro _ ⟨j, rfl, hj⟩
    intro s r s' hs he
    obtain ⟨a, h1, ⟨js, h2, h3⟩, h4⟩ := fold_sound (es := es) (d := d ++ [(k, j)]) (fun e he => h e (by simp [he])) (fun e he => hk e (by simp [he]))
      (fun e he => hv e (by simp [he])) hn.2 (fun e hme k' hk' hm => by
        rw [List.map_append, List.mem_append] at hm
        rcases hm with hm | hm
        · exact hd e (by simp [hme]) k' hk' hm
        · simp at hm
          subst hm
          exact hn.1 (List.mem_map.2 ⟨e, hme, hk'⟩)) s r s' hs he
    exact ⟨a, h1, ⟨(k, j) :: js, by simp [h2], ⟨_, _, rfl, hj, h3⟩⟩, h4⟩

/-- If the encoder finishes, it has written the data. -/
theorem flatten_sound : ∀ (n : Nat) (v : Val), Plain w.heap cfg v → Sound w.heap (flatten w cfg n v) (Reads w.heap v)
  | 0, _, _ => fun s r s' _ he => by cases he
  | n + 1, v, hp => by
    have hb := hp v .self
    show Sound w.heap (flattenStep w cfg (flatten w cfg n) v) _
    cases v with
    | none => exact .pure rfl
    | bool b => exact .pure rfl
    | int b => exact .pure rfl
    | float b => exact .pure rfl
    | str b => exact .pure rfl
    | ref a =>
      refine cached_sound hu hr hm (level_sound hu hr hm ?_)
      rcases hb with ⟨xs, hx⟩ | ⟨kvs, hx, hn, hk⟩
      · simp only [flattenBy, hx]
        refine (mkref_sound hu hr hm).bind fun b hb => ?_
        subst hb
        exact (mapM_sound hu hr hm fun x hx' => flatten_sound n x (hp.part (.list hx hx'))).bind fun js hjs => .pure ⟨a, xs, rfl, hx, hjs⟩
      · simp only [flattenBy, hx]
        refine (mkref_sound hu hr hm).bind fun b hb => ?_
        subst hb
        simp only [if_true]
        rw [entries_str fun e he => (hk e he).imp fun _ h => h.1]
        refine (fold_sound hu hr hm (fun e he => flatten_sound n e.2 (hp.part (.dictVal hx he))) (fun e he => ?_) (fun e he n h => ?_) hn (fun _ _ _ _ h => by cases h)).bind ?_
        · obtain ⟨k, h1, h2, h3⟩ := hk e he
          refine ⟨k, h1, ?_, h3⟩
          rw [Bool.eq_false_iff]
          intro h
          exact h2 (List.mem_append_left _ (List.contains_iff_mem.1 h))
        · have := hp e.2 (.step .self (.dictVal hx he))
          rw [h] at this
          exact this
        · rintro d ⟨js, rfl, hjs⟩
          exact .pure ⟨a, kvs, rfl, hx, hjs⟩
    | _ => exact hb.elim
end

/-! ### data that does not contain itself -/

mutual
/-- the document that data denotes is unique -/
theorem reads_unique {h : Heap} : ∀ {j j' : Json} {v : Val}, Reads h v j → Reads h v j' → j = j'
  | .null, j', v, h1, h2 => by cases h1; cases j' <;> simp_all [Reads]
  | .bool _, j', v, h1, h2 => by cases h1; cases j' <;> simp_all [Reads]
  | .int _, j', v, h1, h2 => by cases h1; cases j' <;> simp_all [Reads]
  | .float _, j', v, h1, h2 => by cases h1; cases j' <;> simp_all [Reads]
  | .str _, j', v, h1, h2 => by cases h1; cases j' <;> simp_all [Reads]
  | .arr xs, j', v, ⟨a, vs, e, ha, hr⟩, h2 => by
    subst e
    cases j' with
    | arr ys =>
      obtain ⟨b, ws, e, hb, hr'⟩ := h2
      cases e
      rw [ha] at hb
      cases hb
      rw [reads_uniqueL hr hr']
    | obj ys =>
      obtain ⟨b, ws, e, hb, _⟩ := h2
      cases e
      rw [ha] at hb
      cases hb
    | _ => cases h2
  | .obj xs, j', v, ⟨a, vs, e, ha, hr⟩, h2 => by
    subst e
    cases j' with
    | obj ys =>
      obtain ⟨b, ws, e, hb, hr'⟩ := h2
      cases e
      rw [ha] at hb
      cases hb
      rw [reads_uniqueKv hr hr']
    | arr ys =>
      obtain ⟨b, ws, e, hb, _⟩ := h2
      cases e
      rw [ha] at hb
      cases hb
    | _ => cases h2
theorem reads_uniqueL {h : Heap} : ∀ {xs ys : List Json} {vs : List Val}, ReadsAll h vs xs → ReadsAll h vs ys → xs = ys
  | [], [], _, _, _ => rfl
  | [], y :: ys, vs, h1, ⟨_, _, e, _⟩ => by cases h1; cases e
  | x :: xs, [], vs, ⟨_, _, e, _⟩, h2 => by cases h2; cases e
  | x :: xs, y :: ys, vs, ⟨v, vs', e, hx, hxs⟩, ⟨w, ws', e', hy, hys⟩ => by
    subst e
    cases e'
    rw [reads_unique hx hy, reads_uniqueL hxs hys]
theorem reads_uniqueKv {h : Heap} : ∀ {xs ys : List (Str × Json)} {vs : List (Val × Val)}, ReadsEntries h vs xs → ReadsEntries h vs ys → xs = ys
  | [], [], _, _, _ => rfl
  | [], y :: ys, vs, h1, ⟨_, _, e, _⟩ => by cases h1; cases e
  | x :: xs, [], vs, ⟨_, _, e, _⟩, h2 => by cases h2; cases e
  | x :: xs, y :: ys, vs, ⟨v, vs', e, hx, hxs⟩, ⟨w, ws', e', hy, hys⟩ => by
    subst e
    injection e' with e1 e2
    injection e1 with e1 e3
    injection e1 with e1
    subst e2 e3
    rw [show x = (x.1, x.2) from rfl, show y = (y.1, y.2) from rfl, e1, reads_unique hx hy, reads_uniqueKv hxs hys]
end

theorem readsAll_mem {h : Heap} {v : Val} : ∀ {xs : List Json} {vs : List Val}, ReadsAll h vs xs → v ∈ vs → ∃ x ∈ xs, Reads h v x
  | [], _, h1, hv => by cases h1; cases hv
  | x :: xs, _, ⟨u, us, e, hx, hxs⟩, hv => by
    subst e
    rcases List.mem_cons.1 hv with rfl | hv
    · exact ⟨x, by simp, hx⟩
    · obtain ⟨y, h1, h2⟩ := readsAll_mem hxs hv
      exact ⟨y, by simp [h1], h2⟩

theorem readsEntries_mem {h : Heap} {k v : Val} : ∀ {xs : List (Str × Json)} {vs : List (Val × Val)}, ReadsEntries h vs xs → (k, v) ∈ vs →
    ∃ e ∈ xs, k = .str e.1 ∧ Reads h v e.2
  | [], _, h1, hv => by cases h1; cases hv
  | (l, x) :: xs, _, ⟨u, us, e, hx, hxs⟩, hv => by
    subst e
    rcases List.mem_cons.1 hv with e | hv
    · cases e; exact ⟨(l, x), by simp, rfl, hx⟩
    · obtain ⟨y, h1, h2⟩ := readsEntries_mem hxs hv
      exact ⟨y, by simp [h1], h2⟩

/-- what is inside has a document of fewer levels -/
theorem reads_part {h : Heap} {v u : Val} {j : Json} (hr : Reads h v j) (ht : Touches h v u) : ∃ i, Reads h u i ∧ i.depth < j.depth := by
  cases j with
  | arr xs =>
    obtain ⟨a, vs, rfl, ha, hx⟩ := hr
    cases ht with
    | list h1 h2 =>
      rw [ha] at h1; cases h1
      obtain ⟨x, h3, h4⟩ := readsAll_mem hx h2
      exact ⟨x, h4, Nat.lt_succ_of_le (Json.depthL_le.1 (Nat.le_refl _) x h3)⟩
    | dictKey h1 _ => rw [ha] at h1; cases h1
    | dictVal h1 _ => rw [ha] at h1; cases h1
    | inst h1 _ => rw [ha] at h1; cases h1
  | obj xs =>
    obtain ⟨a, vs, rfl, ha, hx⟩ := hr
    cases ht with
    | list h1 _ => rw [ha] at h1; cases h1
    | dictKey h1 h2 =>
      rw [ha] at h1; cases h1
      obtain ⟨e, h3, h4, _⟩ := readsEntries_mem hx h2
      exact ⟨.str e.1, h4, Nat.succ_pos _⟩
    | dictVal h1 h2 =>
      rw [ha] at h1; cases h1
      obtain ⟨e, h3, _, h4⟩ := readsEntries_mem hx h2
      exact ⟨e.2, h4, Nat.lt_succ_of_le (Json.depthKv_le.1 (Nat.le_refl _) e h3)⟩
    | inst h1 _ => rw [ha] at h1; cases h1
  | _ => cases hr; cases ht

theorem reads_within {h : Heap} {v u : Val} {j : Json} (hr : Reads h v j) (hw : Within h v u) : ∃ i, Reads h u i ∧ i.depth ≤ j.depth := by
  induction hw with
  | self => exact ⟨j, hr, Nat.le_refl _⟩
  | step _ ht ih =>
    obtain ⟨i, h1, h2⟩ := ih
    obtain ⟨k, h3, h4⟩ := reads_part h1 ht
    exact ⟨k, h3, by omega⟩

/-- data that contains itself denotes no document -/
theorem not_itself {h : Heap} {v : Val} {j : Json} (hr : Reads h v j) : ¬ ContainsItself h v := by
  rintro ⟨a, h1, x, h2, h3⟩
  obtain ⟨i, h4, _⟩ := reads_within hr h1
  obtain ⟨k, h5, h6⟩ := reads_part h4 h2
  obtain ⟨l, h7, h8⟩ := reads_within h5 h3
  rw [reads_unique h7 h4] at h8
  omega

theorem sub_touches {h : Heap} {o : Obj → Bool} {x y : Val} (hs : Sub h o x y) : Touches h y x := by
  cases hs with
  | tuple h => exact h
  | set h => exact h
  | ref _ _ h => exact h

theorem noLoop_of {h : Heap} {v : Val} (hn : ¬ ContainsItself h v) (o : Obj → Bool) : NoLoop h o v := by
  intro a hw ht
  refine hn ⟨a, hw, ?_⟩
  have key : ∀ x y, Relation.TransGen (Sub h o) x y → ∃ z, Touches h y z ∧ Within h z x := by
    intro x y hxy
    induction hxy with
    | single h1 => exact ⟨x, sub_touches h1, .self⟩
    | tail _ h2 ih =>
      obtain ⟨z, h3, h4⟩ := ih
      exact ⟨_, sub_touches h2, within_trans (.step .self h3) h4⟩
  exact key _ _ ht

/-! ### the property -/

/-- the encoder does not finish -/
theorem diverges_of_not_finishes {w : World} {cfg : PCfg} {v : Val} (h : ¬ C04.Finishes w cfg v) : C04.Diverges w cfg v := by
  intro m s
  cases hr : flattenTop w cfg m v true s with
  | none => rfl
  | some x =>
    refine absurd (C04.finishes_of (n := m) (x := x) ?_) h
    exact hr

/-- **Written out.**  Plain data that denotes the document `j`, with any sharing, is written as `j`. -/
theorem written_out (w : World) (cfg : PCfg) (hu : cfg.unpicklable = false) (hr : cfg.makeRefs = true) (hm : cfg.maxDepth = none) (v : Val)
    (hp : Plain w.heap cfg v) (j : Json) (hj : Reads w.heap v j) : Encodes w cfg v (w.dumps j) := by
  obtain ⟨n, r, s', h⟩ := C04.terminates_partial w cfg v (noLoop_of (not_itself hj) _)
  have h0 := h n {} (Nat.le_refl _)
  obtain ⟨i, rfl, hi, _⟩ := flatten_sound hu hr hm n v hp {} r s' (fun _ h => by cases h) h0
  refine ⟨n, s', fun m s hm => ?_⟩
  refine (bind_ok (x := flattenTop w cfg m v true) (h m s hm)).trans ?_
  rw [reads_unique hi hj]
  rfl

/-- **Exactly the data that contains itself is refused**: for plain data the following are the same: `encode` finishes; the data denotes a (finite)
document; no list or dict contains itself. -/
theorem finishes_iff (w : World) (cfg : PCfg) (hu : cfg.unpicklable = false) (hr : cfg.makeRefs = true) (hm : cfg.maxDepth = none) (v : Val)
    (hp : Plain w.heap cfg v) :
    (C04.Finishes w cfg v ↔ ¬ ContainsItself w.heap v) ∧ ((∃ j, Reads w.heap v j) ↔ ¬ ContainsItself w.heap v) := by
  have h1 : ¬ ContainsItself w.heap v → C04.Finishes w cfg v := fun h => C04.terminates_partial w cfg v (noLoop_of h _)
  have h2 : C04.Finishes w cfg v → ∃ j, Reads w.heap v j := by
    rintro ⟨n, r, s', h⟩
    have h0 := h n {} (Nat.le_refl _)
    obtain ⟨i, _, hi, _⟩ := flatten_sound hu hr hm n v hp {} r s' (fun _ h => by cases h) h0
    exact ⟨i, hi⟩
  have h3 : (∃ j, Reads w.heap v j) → ¬ ContainsItself w.heap v := fun ⟨_, h⟩ => not_itself h
  exact ⟨⟨fun h => h3 (h2 h), h1⟩, ⟨h3, fun h => h2 (h1 h)⟩⟩

/-- data that contains itself is walked through for ever (Python ends this with a `RecursionError`) -/
theorem refused (w : World) (cfg : PCfg) (hu : cfg.unpicklable = false) (hr : cfg.makeRefs = true) (hm : cfg.maxDepth = none) (v : Val)
    (hp : Plain w.heap cfg v) (hc : ContainsItself w.heap v) : C04.Diverges w cfg v :=
  diverges_of_not_finishes fun h => (finishes_iff w cfg hu hr hm v hp).1.1 h hc

section
variable {h : Heap} {cfg : PCfg}

theorem readsEntries_keys : ∀ {xs : List (Str × Json)} {vs : List (Val × Val)}, ReadsEntries h vs xs → vs.map (·.1) = xs.map fun e => Val.str e.1
  | [], _, h1 => by cases h1; rfl
  | (l, x) :: xs, _, ⟨u, us, e, hx, hxs⟩ => by
    subst e
    simp [readsEntries_keys hxs]

mutual
theorem plain_doc : ∀ {j : Json} {v : Val}, Plain h cfg v → Reads h v j →
    j.Distinct ∧ ∀ k ∈ j.keys, k ∉ Tags.all ∧ (cfg.keys = true → startsWith k p!"json://" = false)
  | .null, _, _, _ => ⟨trivial, fun _ h => by cases h⟩
  | .bool _, _, _, _ => ⟨trivial, fun _ h => by cases h⟩
  | .int _, _, _, _ => ⟨trivial, fun _ h => by cases h⟩
  | .float _, _, _, _ => ⟨trivial, fun _ h => by cases h⟩
  | .str _, _, _, _ => ⟨trivial, fun _ h => by cases h⟩
  | .arr xs, v, hp, ⟨a, vs, e, ha, hr⟩ => by
    subst e
    exact plain_docL (fun x hx => hp.part (.list ha hx)) hr
  | .obj xs, v, hp, ⟨a, vs, e, ha, hr⟩ => by
    subst e
    have hb := hp _ .self
    rcases hb with ⟨ys, hy⟩ | ⟨kvs, hx, hn, hk⟩
    · rw [ha] at hy; cases hy
    rw [ha] at hx
    cases hx
    have h1 := plain_docKv (fun e he => hp.part (.dictVal ha he)) hk hr
    refine ⟨⟨?_, h1.1⟩, h1.2⟩
    rw [readsEntries_keys hr] at hn
    have : (xs.map fun e => Val.str e.1) = (xs.map (·.1)).map Val.str := by simp
    rw [this] at hn
    exact (List.pairwise_map.1 hn).imp fun h e => h (by rw [e])
theorem plain_docL : ∀ {xs : List Json} {vs : List Val}, (∀ v ∈ vs, Plain h cfg v) → ReadsAll h vs xs →
    Json.DistinctL xs ∧ ∀ k ∈ Json.keysL xs, k ∉ Tags.all ∧ (cfg.keys = true → startsWith k p!"json://" = false)
  | [], _, _, _ => ⟨trivial, fun _ h => by cases h⟩
  | x :: xs, vs, hp, ⟨v, vs', e, hx, hxs⟩ => by
    subst e
    have h1 := plain_doc (hp v (by simp)) hx
    have h2 := plain_docL (fun u hu => hp u (by simp [hu])) hxs
    refine ⟨⟨h1.1, h2.1⟩, fun k hk => ?_⟩
    rcases List.mem_append.1 hk with hk | hk
    · exact h1.2 k hk
    · exact h2.2 k hk
theorem plain_docKv : ∀ {xs : List (Str × Json)} {vs : List (Val × Val)}, (∀ e ∈ vs, Plain h cfg e.2) →
    (∀ e ∈ vs, ∃ k, e.1 = .str k ∧ k ∉ Tags.all ∧ (cfg.keys = true → startsWith k p!"json://" = false)) → ReadsEntries h vs xs →
    Json.DistinctKv xs ∧ ∀ k ∈ Json.keysKv xs, k ∉ Tags.all ∧ (cfg.keys = true → startsWith k p!"json://" = false)
  | [], _, _, _, _ => ⟨trivial, fun _ h => by cases h⟩
  | (l, x) :: xs, vs, hp, hk, ⟨v, vs', e, hx, hxs⟩ => by
    subst e
    have h1 := plain_doc (hp (.str l, v) (by simp)) hx
    have h2 := plain_docKv (fun u hu => hp u (by simp [hu])) (fun e he => hk e (by simp [he])) hxs
    refine ⟨⟨h1.1, h2.1⟩, fun k hm => ?_⟩
    rcases List.mem_cons.1 hm with rfl | hm
    · obtain ⟨k', e, h3⟩ := hk (.str k, v) (by simp)
      cases e
      exact h3
    · rcases List.mem_append.1 hm with hm | hm
      · exact h1.2 k hm
      · exact h2.2 k hm
end
end

/-- **Read back.**  Decoding gives the data, made of new lists and dicts, with what was shared now in several copies.  (`keys` is the same on both sides;
`loads` inverts `dumps`: C41.) -/
theorem read_back (w : World) (cfg : PCfg) (env : UEnv) (hu : cfg.unpicklable = false) (hr : cfg.makeRefs = true) (hm : cfg.maxDepth = none) (hk : env.keys = cfg.keys) (v : Val)
    (hp : Plain w.heap cfg v) (j : Json) (hj : Reads w.heap v j) (hl : env.loads (w.dumps j) = some j) (u : UState) :
    ∃ text x u', Encodes w cfg v text ∧ Decodes env text u x u' ∧ IsTree u'.heap x j := by
  obtain ⟨h1, h2⟩ := plain_doc hp hj
  have hsub : ∀ k, k ∈ wireTags → k ∈ Tags.all := by decide +kernel
  obtain ⟨x, u', h3, h4, _⟩ := C06.decodes_itself env _ j hl h1 (fun k hk' hw => (h2 k hk').1 (hsub k hw)) (fun h k hk' => (h2 k hk').2 (by rw [← hk]; exact h)) u
  exact ⟨_, x, u', written_out w cfg hu hr hm v hp j hj, h3, h4⟩

/-! ### examples -/

/-- `l = [1]; {"a": l, "b": [l, l]}` -/
def shared : Heap := [.dict [(.str p!"a", .ref 1), (.str p!"b", .ref 2)], .list [.int 1], .list [.ref 1, .ref 1]]

/-- everything in the heap is plain, and refers to the heap -/
theorem plain_of {h : Heap} {cfg : PCfg} (hb : ∀ v, Basic h cfg v → ∀ u, Touches h v u → Basic h cfg u) {v : Val} (hv : Basic h cfg v) : Plain h cfg v := by
  intro u hu
  induction hu with
  | self => exact hv
  | step _ ht ih => exact hb _ ih _ ht

theorem shared_plain : Plain shared { unpicklable := false } (.ref 0) := by
  have h0 : Basic shared { unpicklable := false } (.ref 0) := .inr ⟨_, rfl, by decide, fun e he => by
    simp at he
    rcases he with rfl | rfl
    · exact ⟨_, rfl, by decide, fun h => by cases h⟩
    · exact ⟨_, rfl, by decide, fun h => by cases h⟩⟩
  have h1 : Basic shared { unpicklable := false } (.ref 1) := .inl ⟨_, rfl⟩
  have h2 : Basic shared { unpicklable := false } (.ref 2) := .inl ⟨_, rfl⟩
  refine plain_of (fun v hv u ht => ?_) h0
  cases ht with
  | tuple _ => exact hv.elim
  | set _ => exact hv.elim
  | @list a xs x ha hx =>
    match a, ha with
    | 1, ha => cases ha; simp at hx; subst hx; trivial
    | 2, ha => cases ha; simp at hx; subst hx; exact h1
    | n + 3, ha => simp [shared] at ha
  | @dictKey a kvs k v ha hx =>
    match a, ha with
    | 0, ha => cases ha; simp at hx; rcases hx with ⟨rfl, _⟩ | ⟨rfl, _⟩ <;> trivial
    | n + 3, ha => simp [shared] at ha
  | @dictVal a kvs k v ha hx =>
    match a, ha with
    | 0, ha => cases ha; simp at hx; rcases hx with ⟨_, rfl⟩ | ⟨_, rfl⟩; exact h1; exact h2
    | n + 3, ha => simp [shared] at ha
  | @inst a i x ha hx =>
    match a, ha with
    | n + 3, ha => simp [shared] at ha

def sharedDoc : Json := .obj [(p!"a", .arr [.int 1]), (p!"b", .arr [.arr [.int 1], .arr [.int 1]])]

theorem shared_reads : Reads shared (.ref 0) sharedDoc :=
  have h1 : Reads shared (.ref 1) (.arr [.int 1]) := ⟨1, _, rfl, rfl, ⟨_, _, rfl, rfl, rfl⟩⟩
  ⟨0, _, rfl, rfl, ⟨_, _, rfl, h1, ⟨_, _, rfl, ⟨2, _, rfl, rfl, ⟨_, _, rfl, h1, ⟨_, _, rfl, h1, rfl⟩⟩⟩, rfl⟩⟩⟩

example : Encodes (Sample.program.world shared) { unpicklable := false } (.ref 0) ((Sample.program.world shared).dumps sharedDoc) :=
  written_out _ _ rfl rfl rfl _ shared_plain _ shared_reads

/-- and it comes back as a tree -/
example : ∃ text x u', Encodes (Sample.program.world shared) { unpicklable := false } (.ref 0) text ∧ Decodes Sample.program.env text {} x u' ∧ IsTree u'.heap x sharedDoc :=
  read_back (Sample.program.world shared) { unpicklable := false } Sample.program.env rfl rfl rfl rfl _ shared_plain _ shared_reads (by rfl) {}

/-- `l = []; l.append({"l": l})` -/
def loop : Heap := [.list [.ref 1], .dict [(.str p!"l", .ref 0)]]

theorem loop_plain : Plain loop { unpicklable := false } (.ref 0) := by
  have h0 : Basic loop { unpicklable := false } (.ref 0) := .inl ⟨_, rfl⟩
  have h1 : Basic loop { unpicklable := false } (.ref 1) := .inr ⟨_, rfl, by decide, fun e he => by
    simp at he
    subst he
    exact ⟨_, rfl, by decide, fun h => by cases h⟩⟩
  refine plain_of (fun v hv u ht => ?_) h0
  cases ht with
  | tuple _ => exact hv.elim
  | set _ => exact hv.elim
  | @list a xs x ha hx =>
    match a, ha with
    | 0, ha => cases ha; simp at hx; subst hx; exact h1
    | n + 2, ha => simp [loop] at ha
  | @dictKey a kvs k v ha hx =>
    match a, ha with
    | 1, ha => cases ha; simp at hx; rcases hx with ⟨rfl, _⟩; trivial
    | n + 2, ha => simp [loop] at ha
  | @dictVal a kvs k v ha hx =>
    match a, ha with
    | 1, ha => cases ha; simp at hx; rcases hx with ⟨_, rfl⟩; exact h0
    | n + 2, ha => simp [loop] at ha
  | @inst a i x ha hx =>
    match a, ha with
    | n + 2, ha => simp [loop] at ha

example : C04.Diverges (Sample.program.world loop) { unpicklable := false } (.ref 0) :=
  refused _ _ rfl rfl rfl _ loop_plain ⟨0, .self, .ref 1, .list rfl (by simp), .step .self (.dictVal (k := .str p!"l") rfl (by simp))⟩

end JP.C68
