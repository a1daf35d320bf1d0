import Verif.WarnSpec
/-!
# The encoder with and without reports
-/
namespace JP.Warn
open JP PyM Pickler

variable {w : World} {cfg : PCfg} {wr : Bool} {V : Val → Prop} {α β γ : Type}

/-- forget the reports -/
def erase : Option (Except Exc α × WState) → Option (Except Exc α × PState)
  | none => none
  | some (r, s) => some (r, s.base)

/-- the cached documents have no `null` -/
def Clean (p : PState) : Prop := ∀ e ∈ p.flattened, e.2.NoNull

/-- `x` does what `y` does and reports objects that cannot be written.  If the reports are none (and `A` holds), the result is as `Q` says. -/
def Good (w : World) (cfg : PCfg) (wr : Bool) (A : Prop) (S Q : α → Prop) (x : W α) (y : P α) : Prop := ∀ s,
  ((wr = false ∨ StrOk w cfg) → erase (x s) = y s.base) ∧
  (∀ r s', x s = some (r, s') → ∃ new, s'.reports = s.reports ++ new ∧ (∀ u ∈ new, wr = true ∧ Refused w cfg u) ∧ (∀ a, r = .ok a → S a) ∧
    (wr = true → A → Clean s.base → new = [] → Clean s'.base ∧ ∀ a, r = .ok a → Q a))

/-- nothing to say -/
def T : α → Prop := fun _ => True

namespace Good
variable {A B : Prop} {S S' Q Q' : α → Prop} {x x' : W α} {y y' : P α}

theorem weaken (h : Good w cfg wr B S Q x y) (hA : A → B) (hS : ∀ a, S a → S' a) (hQ : A → ∀ a, S a → Q a → Q' a) :
    Good w cfg wr A S' Q' x y := by
  intro s
  refine ⟨(h s).1, fun r s' hx => ?_⟩
  obtain ⟨new, h1, h2, h3, h4⟩ := (h s).2 r s' hx
  refine ⟨new, h1, h2, fun a ha => hS a (h3 a ha), fun hw hA' hc hn => ?_⟩
  obtain ⟨h5, h6⟩ := h4 hw (hA hA') hc hn
  exact ⟨h5, fun a ha => hQ hA' a (h3 a ha) (h6 a ha)⟩

theorem pure {a : α} (hS : S a) (hQ : A → Q a) : Good w cfg wr A S Q (Pure.pure a) (Pure.pure a) := by
  intro s
  refine ⟨fun _ => rfl, fun r s' hx => ?_⟩
  injection hx with hx
  injection hx with h1 h2
  subst h1 h2
  refine ⟨[], by simp, by simp, fun b hb => ?_, fun _ hA hc _ => ⟨hc, fun b hb => ?_⟩⟩
  · injection hb with hb; subst hb; exact hS
  · injection hb with hb; subst hb; exact hQ hA

theorem bind {S1 Q1 : β → Prop} {u : W β} {v : P β} {f : β → W α} {g : β → P α} (h1 : Good w cfg wr A S1 Q1 u v)
    (h2 : ∀ b, S1 b → Good w cfg wr (A ∧ Q1 b) S Q (f b) (g b)) : Good w cfg wr A S Q (u >>= f) (v >>= g) := by
  intro s
  obtain ⟨he, hr⟩ := h1 s
  constructor
  · intro hs
    have he := he hs
    rw [bind_run, bind_run, ← he]
    cases hu : u s with
    | none => rfl
    | some p =>
      obtain ⟨r, s1⟩ := p
      cases r with
      | error e => rfl
      | ok b =>
        obtain ⟨_, _, _, hS, _⟩ := hr _ _ hu
        exact (h2 b (hS b rfl) s1).1 hs
  · intro r s' hx
    rw [bind_run] at hx
    cases hu : u s with
    | none => rw [hu] at hx; cases hx
    | some p =>
      obtain ⟨r1, s1⟩ := p
      obtain ⟨n1, e1, m1, hS, c1⟩ := hr _ _ hu
      rw [hu] at hx
      cases r1 with
      | error e =>
        injection hx with hx
        injection hx with h3 h4
        subst h3 h4
        exact ⟨n1, e1, m1, (fun a ha => by cases ha), fun hw hA hc hn => ⟨(c1 hw hA hc hn).1, (fun a ha => by cases ha)⟩⟩
      | ok b =>
        obtain ⟨n2, e2, m2, hS2, c2⟩ := (h2 b (hS b rfl) s1).2 r s' hx
        refine ⟨n1 ++ n2, by rw [e2, e1, List.append_assoc], fun u hu => ?_, hS2, fun hw hA hc hn => ?_⟩
        · rcases List.mem_append.1 hu with h | h
          · exact m1 u h
          · exact m2 u h
        · obtain ⟨hn1, hn2⟩ := List.append_eq_nil_iff.1 hn
          obtain ⟨hc1, hq1⟩ := c1 hw hA hc hn1
          exact c2 hw ⟨hA, hq1 b rfl⟩ hc1 hn2

theorem ofExcept {r : Except Exc α} (hS : ∀ a, r = .ok a → S a) (hQ : A → ∀ a, r = .ok a → Q a) :
    Good w cfg wr A S Q (PyM.ofExcept r) (PyM.ofExcept r) := by
  intro s
  refine ⟨fun _ => rfl, fun r' s' hx => ?_⟩
  injection hx with hx
  injection hx with h1 h2
  subst h1 h2
  exact ⟨[], by simp, by simp, hS, fun _ hA hc _ => ⟨hc, hQ hA⟩⟩

theorem throw {e : Exc} : Good w cfg wr A S Q (PyM.throw e : W α) (PyM.throw e) := by
  intro s
  refine ⟨fun _ => rfl, fun r' s' hx => ?_⟩
  injection hx with hx
  injection hx with h1 h2
  subst h1 h2
  exact ⟨[], by simp, by simp, (fun a ha => by cases ha), fun _ hA hc _ => ⟨hc, (fun a ha => by cases ha)⟩⟩

theorem outOfFuel : Good w cfg wr A S Q (PyM.outOfFuel : W α) PyM.outOfFuel := fun _ => ⟨fun _ => rfl, (fun r s' hx => by cases hx)⟩

theorem tryCatch {p : Exc → Bool} {h : Exc → W α} {g : Exc → P α} (h1 : Good w cfg wr A S Q x y)
    (h2 : ∀ e, Good w cfg wr A S Q (h e) (g e)) : Good w cfg wr A S Q (PyM.tryCatch x p h) (PyM.tryCatch y p g) := by
  intro s
  obtain ⟨he, hr⟩ := h1 s
  constructor
  · intro hs
    have he := he hs
    unfold PyM.tryCatch
    rw [← he]
    cases hu : x s with
    | none => rfl
    | some q =>
      obtain ⟨r, s1⟩ := q
      cases r with
      | error e =>
        show erase (if p e = true then h e s1 else _) = if p e = true then g e s1.base else _
        by_cases hp : p e = true
        · rw [if_pos hp, if_pos hp]; exact (h2 e s1).1 hs
        · rw [if_neg hp, if_neg hp]; rfl
      | ok b => rfl
  · intro r s' hx
    unfold PyM.tryCatch at hx
    cases hu : x s with
    | none => rw [hu] at hx; cases hx
    | some q =>
      obtain ⟨r1, s1⟩ := q
      rw [hu] at hx
      cases r1 with
      | error e =>
        change (if p e = true then h e s1 else some (.error e, s1)) = some (r, s') at hx
        obtain ⟨n1, e1, m1, hS, c1⟩ := hr _ _ hu
        by_cases hp : p e = true
        · rw [if_pos hp] at hx
          obtain ⟨n2, e2, m2, hS2, c2⟩ := (h2 e s1).2 r s' hx
          refine ⟨n1 ++ n2, by rw [e2, e1, List.append_assoc], fun u hu => ?_, hS2, fun hw hA hc hn => ?_⟩
          · rcases List.mem_append.1 hu with h | h
            · exact m1 u h
            · exact m2 u h
          · obtain ⟨hn1, hn2⟩ := List.append_eq_nil_iff.1 hn
            exact c2 hw hA (c1 hw hA hc hn1).1 hn2
        · rw [if_neg hp] at hx
          injection hx with hx
          injection hx with h3 h4
          subst h3 h4
          exact ⟨n1, e1, m1, hS, c1⟩
      | ok b =>
        injection hx with hx
        injection hx with h3 h4
        subst h3 h4
        exact hr _ _ hu

theorem ite {c : Prop} [Decidable c] (h1 : c → Good w cfg wr A S Q x y) (h2 : ¬ c → Good w cfg wr A S Q x' y') :
    Good w cfg wr A S Q (if c then x else x') (if c then y else y') := by
  by_cases h : c
  · rw [if_pos h, if_pos h]; exact h1 h
  · rw [if_neg h, if_neg h]; exact h2 h

theorem mapM {f : β → W γ} {g : β → P γ} {Q : γ → Prop} {xs : List β} (h : ∀ b ∈ xs, Good w cfg wr A T Q (f b) (g b)) :
    Good w cfg wr A (fun ys => ys.length = xs.length) (fun ys => ∀ y ∈ ys, Q y) (PyM.mapM f xs) (PyM.mapM g xs) := by
  induction xs with
  | nil => exact pure rfl (fun _ y hy => by cases hy)
  | cons b xs ih =>
    refine bind (h b (List.mem_cons_self ..)) (fun c _ => bind ((ih (fun b hb => h b (List.mem_cons_of_mem _ hb))).weaken (And.left) (fun _ h => h) (fun _ _ _ h => h)) (fun cs hl => pure (by simp [hl]) ?_))
    rintro ⟨⟨_, h1⟩, h2⟩ y hy
    rcases List.mem_cons.1 hy with h | h
    · exact h ▸ h1
    · exact h2 y h

theorem foldM {f : γ → β → W γ} {g : γ → β → P γ} {S Q : γ → Prop} {xs : List β}
    (h : ∀ b ∈ xs, ∀ d, S d → Good w cfg wr (A ∧ Q d) S Q (f d b) (g d b)) :
    ∀ {d : γ}, S d → Good w cfg wr (A ∧ Q d) S Q (PyM.foldM f d xs) (PyM.foldM g d xs) := by
  induction xs with
  | nil => exact fun hS => pure hS (fun hA => hA.2)
  | cons b xs ih =>
    intro d hS
    exact bind (h b (List.mem_cons_self ..) d hS) (fun c hc => (ih (fun b hb => h b (List.mem_cons_of_mem _ hb)) hc).weaken (fun hA => ⟨hA.1.1, hA.2⟩) (fun _ h => h) (fun _ _ _ h => h))

theorem mapM_append {f : β → W γ} {g : β → P γ} {Q R : γ → Prop} {xs zs : List β} (h : ∀ b ∈ xs, Good w cfg wr A T Q (f b) (g b))
    (h' : ∀ b ∈ zs, Good w cfg wr A T R (f b) (g b)) :
    Good w cfg wr A T (fun ys => ∃ a b, ys = a ++ b ∧ a.length = xs.length ∧ (∀ y ∈ a, Q y) ∧ ∀ y ∈ b, R y) (PyM.mapM f (xs ++ zs)) (PyM.mapM g (xs ++ zs)) := by
  induction xs with
  | nil => exact (mapM h').weaken id (fun _ _ => trivial) (fun _ ys _ hy => ⟨[], ys, rfl, rfl, (fun y hy => by cases hy), hy⟩)
  | cons b xs ih =>
    refine bind (h b (List.mem_cons_self ..)) (fun c _ => bind ((ih (fun b hb => h b (List.mem_cons_of_mem _ hb))).weaken (And.left) (fun _ h => h) (fun _ _ _ h => h)) (fun cs hl => pure trivial ?_))
    rintro ⟨⟨_, h1⟩, p, q, e1, e2, e3, e4⟩
    refine ⟨c :: p, q, by rw [e1]; rfl, by simp [e2], fun y hy => ?_, e4⟩
    rcases List.mem_cons.1 hy with h | h
    · exact h ▸ h1
    · exact e3 y h

/-- what holds if `A` does not hold need not be shown -/
theorem assume (h : Good w cfg wr False S Q' x y) (h' : A → Good w cfg wr A S Q x y) : Good w cfg wr A S Q x y := by
  by_cases hA : A
  · exact h' hA
  · exact h.weaken hA (fun _ h => h) (fun hA' => absurd hA' hA)

/-- steps that report nothing -/
theorem lift {z : P α} (h : ∀ p r p', z p = some (r, p') → (∀ a, r = .ok a → S a) ∧ (A → Clean p → Clean p' ∧ ∀ a, r = .ok a → Q a)) :
    Good w cfg wr A S Q (Warned.lift z) z := by
  intro s
  unfold Warned.lift
  cases hz : z s.base with
  | none => exact ⟨fun _ => rfl, (fun r s' hx => by cases hx)⟩
  | some q =>
    obtain ⟨r, p⟩ := q
    refine ⟨fun _ => rfl, fun r' s' hx => ?_⟩
    injection hx with hx
    injection hx with h1 h2
    subst h1 h2
    exact ⟨[], by simp, by simp, (h _ _ _ hz).1, fun _ hA hc _ => (h _ _ _ hz).2 hA hc⟩

theorem warning {v : Val} (hv : Refused w cfg v) {B : Prop} :
    Good w cfg wr A (T (α := Unit)) (fun _ => B) (Warned.warning w wr v) (Pure.pure ()) := by
  intro s
  unfold Warned.warning
  by_cases hw : wr = true
  · rw [if_pos hw]
    rw [bind_run]
    simp only [ofExcept_run]
    cases hp : w.pystr v with
    | error e =>
      refine ⟨fun hs => ?_, fun r s' hx => ?_⟩
      · rcases hs with hs | hs
        · rw [hs] at hw; cases hw
        · obtain ⟨t, ht⟩ := hs v hv; rw [hp] at ht; cases ht
      · injection hx with hx
        injection hx with h1 h2
        subst h1 h2
        exact ⟨[], by simp, by simp, (fun a ha => by cases ha), fun _ _ hc _ => ⟨hc, (fun a ha => by cases ha)⟩⟩
    | ok t =>
      refine ⟨fun _ => rfl, fun r s' hx => ?_⟩
      injection hx with hx
      injection hx with h1 h2
      subst h1 h2
      refine ⟨[v], rfl, fun u hu => ?_, fun _ _ => trivial, fun _ _ _ hn => by cases hn⟩
      rcases List.mem_cons.1 hu with h | h
      · exact ⟨hw, h ▸ hv⟩
      · cases h
  · rw [if_neg hw]
    refine ⟨fun _ => rfl, fun r s' hx => ?_⟩
    injection hx with hx
    injection hx with h1 h2
    subst h1 h2
    exact ⟨[], by simp, by simp, fun _ _ => trivial, fun h => absurd h hw⟩

theorem refuse {v : Val} (hv : Refused w cfg v) {Q : Json → Prop} : Good w cfg wr A T Q (Warned.refuse w wr v) (Pure.pure .null) := by
  have : Good w cfg wr A T Q (Warned.refuse w wr v) (do let _ ← (Pure.pure () : P Unit); Pure.pure Json.null) :=
    bind (warning hv (B := False)) (fun _ _ => pure trivial (fun h => h.2.elim))
  exact this

/-- steps that leave the cache alone -/
theorem liftKeep {z : P α} (h : ∀ p r p', z p = some (r, p') → p'.flattened = p.flattened ∧ ∀ a, r = .ok a → S a ∧ (A → Q a)) :
    Good w cfg wr A S Q (Warned.lift z) z := by
  apply lift
  intro p r p' hz
  obtain ⟨h1, h2⟩ := h p r p' hz
  refine ⟨fun a ha => (h2 a ha).1, fun hA hc => ⟨?_, fun a ha => (h2 a ha).2 hA⟩⟩
  unfold Clean
  rw [h1]
  exact hc

end Good

/-- the hypotheses of the statement about `null` -/
structure Ok (w : World) (cfg : PCfg) (V : Val → Prop) : Prop where
  free : NoneFree w V
  unpicklable : cfg.unpicklable = true
  safe : SafeFull cfg

/-- the entries so far have no `null` -/
def DataOk (d : List (Str × Json)) : Prop := ∀ kv ∈ d, kv.2.NoNull

theorem DataOk.dset {d : List (Str × Json)} (h : DataOk d) {j : Json} (hj : j.NoNull) (k : Str) : DataOk (dset k j d) := by
  induction d with
  | nil =>
    intro kv hkv
    rcases List.mem_cons.1 hkv with h | h
    · exact h ▸ hj
    · cases h
  | cons x d ih =>
    obtain ⟨k', v'⟩ := x
    intro kv hkv
    unfold JP.dset at hkv
    by_cases hk : k' = k
    · rw [if_pos hk] at hkv
      rcases List.mem_cons.1 hkv with h' | h'
      · exact h' ▸ hj
      · exact h kv (List.mem_cons_of_mem _ h')
    · rw [if_neg hk] at hkv
      rcases List.mem_cons.1 hkv with h' | h'
      · exact h' ▸ h (k', v') (List.mem_cons_self ..)
      · exact ih (fun kv hkv => h kv (List.mem_cons_of_mem _ hkv)) kv h'

theorem dset_ne_nil (k : Str) (j : Json) (d : List (Str × Json)) : dset k j d ≠ [] := by
  cases d with
  | nil => intro h; cases h
  | cons x d =>
    intro h
    unfold JP.dset at h
    by_cases hk : x.1 = k
    · rw [if_pos hk] at h; cases h
    · rw [if_neg hk] at h; cases h

theorem bind_pure_eq {σ α : Type} (x : PyM σ α) : (x >>= fun a => Pure.pure a) = x := by
  funext s
  rw [bind_run]
  cases h : x s with
  | none => rfl
  | some p =>
    obtain ⟨r, s1⟩ := p
    cases r <;> rfl

section
variable {A : Prop} {S Q : α → Prop}

/-- register, and either go on or write a reference -/
theorem refOr {i : Ident} {x : W α} {y : P α} {g : Json → W α} {g' : Json → P α} (h1 : Good w cfg wr A S Q x y)
    (h2 : ∀ j, Good w cfg wr (A ∧ j.NoNull) S Q (g j) (g' j)) :
    Good w cfg wr A S Q (Warned.lift (mkref cfg i) >>= fun new => if new = true then x else Warned.lift (getref i) >>= g)
      (mkref cfg i >>= fun new => if new = true then y else getref i >>= g') := by
  have hmk : ∀ p : PState, ∃ b p', mkref cfg i p = some (.ok b, p') ∧ p'.flattened = p.flattened ∧ (b = false → p'.objs.contains i = true) := by
    intro p
    by_cases hc : p.objs.contains i = true
    · have hl : logRef i p = some (.ok false, p) := by
        unfold logRef
        rw [if_pos hc]
      exact ⟨_, _, bind_ok hl, rfl, fun _ => hc⟩
    · have hl : logRef i p = some (.ok true, { p with objs := p.objs ++ [i] }) := by
        unfold logRef
        rw [if_neg hc]
      exact ⟨_, _, bind_ok hl, rfl, fun h => by simp at h⟩
  intro s
  obtain ⟨b, p', e1, e2, e3⟩ := hmk s.base
  have l1 : Warned.lift (mkref cfg i) s = some (.ok b, { s with base := p' }) := by
    unfold Warned.lift
    rw [e1]
  have hcl : Clean s.base → Clean p' := by
    unfold Clean
    rw [e2]
    exact id
  rw [bind_run, bind_run, l1, e1]
  dsimp only
  cases b with
  | true =>
    rw [if_pos rfl, if_pos rfl]
    obtain ⟨ha, hb⟩ := h1 { s with base := p' }
    refine ⟨ha, fun r s' hx => ?_⟩
    obtain ⟨new, c1, c2, c3, c4⟩ := hb r s' hx
    exact ⟨new, c1, c2, c3, fun hw hA hc hn => c4 hw hA (hcl hc) hn⟩
  | false =>
    rw [if_neg (by decide), if_neg (by decide)]
    have hg : getref i p' = some (.ok (.obj [(Tags.ID, .int (p'.objs.idxOf i))]), p') := by
      unfold getref
      rw [if_pos (e3 rfl)]
    have lg : Warned.lift (getref i) { s with base := p' } = some (.ok (.obj [(Tags.ID, .int (p'.objs.idxOf i))]), { s with base := p' }) := by
      unfold Warned.lift
      rw [hg]
    rw [bind_run, bind_run, lg, hg]
    dsimp only
    have hj : (Json.obj [(Tags.ID, .int (p'.objs.idxOf i))]).NoNull := by
      refine .obj (fun kv hkv => ?_)
      rcases List.mem_cons.1 hkv with h | h
      · subst h; exact .int
      · cases h
    obtain ⟨ha, hb⟩ := h2 _ { s with base := p' }
    refine ⟨ha, fun r s' hx => ?_⟩
    obtain ⟨new, c1, c2, c3, c4⟩ := hb r s' hx
    exact ⟨new, c1, c2, c3, fun hw hA hc hn => c4 hw ⟨hA, hj⟩ (hcl hc) hn⟩

theorem refOr' {i : Ident} {x : W Json} {y : P Json} (h1 : Good w cfg wr A T Json.NoNull x y) :
    Good w cfg wr A T Json.NoNull (Warned.lift (mkref cfg i) >>= fun new => if new = true then x else Warned.lift (getref i))
      (mkref cfg i >>= fun new => if new = true then y else getref i) := by
  have := refOr (i := i) (g := fun j => Pure.pure j) (g' := fun j => Pure.pure j) h1 (fun j => Good.pure trivial (fun h => h.2))
  simpa only [bind_pure_eq] using this

theorem cached {id : Ident} {x : W Json} {y : P Json} (h : Good w cfg wr A T Json.NoNull x y) :
    Good w cfg wr A T Json.NoNull (Warned.cached cfg id x) (Pickler.cached cfg id y) := by
  unfold Warned.cached Pickler.cached
  refine .ite (fun _ => h) (fun _ => ?_)
  refine .bind (S1 := T) (Q1 := Clean) (.lift (fun p r p' hz => ?_)) (fun p _ => ?_)
  · injection hz with hz
    injection hz with h1 h2
    subst h1 h2
    exact ⟨fun _ _ => trivial, fun _ hc => ⟨hc, fun a ha => by injection ha with ha; subst ha; exact hc⟩⟩
  · cases hf : p.flattened.find? (fun q => q.1 == id) with
    | some q => exact .pure trivial (fun hA => hA.2 q (List.mem_of_find?_eq_some hf))
    | none =>
      refine .bind (h.weaken And.left (fun _ h => h) (fun _ _ _ h => h)) (fun j _ => .bind (S1 := T) (Q1 := T) (.lift ?_) (fun _ _ => .pure trivial (fun hA => hA.1.2)))
      intro p r p' hz
      injection hz with hz
      injection hz with h1 h2
      subst h1 h2
      refine ⟨fun _ _ => trivial, fun hA hc => ⟨?_, fun _ _ => trivial⟩⟩
      intro e he
      rcases List.mem_cons.1 he with h | h
      · subst h; exact hA.2
      · exact hc e h

theorem objWith (hok : A → Ok w cfg V) {v : Val} {id : Ident} {en : Bool} {rep : Except Exc Str} {x : W Json} {y : P Json}
    (h : Good w cfg wr A T Json.NoNull x y) :
    Good w cfg wr A T Json.NoNull (Warned.flattenObjWith cfg v id en rep x) (Pickler.flattenObjWith cfg v id en rep y) := by
  unfold Warned.flattenObjWith Pickler.flattenObjWith
  refine .bind (S1 := T) (Q1 := T) (.liftKeep (fun p r p' hz => ?_)) (fun _ _ => ?_)
  · injection hz with hz
    injection hz with h1 h2
    subst h1 h2
    exact ⟨rfl, fun _ _ => ⟨trivial, fun _ => trivial⟩⟩
  refine .bind (S1 := T) (Q1 := T) (.liftKeep (fun p r p' hz => ?_)) (fun m _ => ?_)
  · injection hz with hz
    injection hz with h1 h2
    subst h1 h2
    exact ⟨rfl, fun _ _ => ⟨trivial, fun _ => trivial⟩⟩
  refine .tryCatch (.bind (S1 := T) (Q1 := T) (.liftKeep (fun p r p' hz => ?_)) (fun b _ => ?_)) (fun e => ?_)
  · injection hz with hz
    injection hz with h1 h2
    subst h1 h2
    exact ⟨rfl, fun _ _ => ⟨trivial, fun _ => trivial⟩⟩
  · refine .ite (fun _ => ?_) (fun _ => h.weaken (fun hA => hA.1.1.1) (fun _ h => h) (fun _ _ _ h => h))
    exact .bind (S1 := T) (Q1 := T) (.ofExcept (fun _ _ => trivial) (fun _ _ _ => trivial)) (fun _ _ => .pure trivial (fun _ => .str))
  · cases hf : cfg.failSafe with
    | none => exact .throw
    | some f => exact .ofExcept (fun _ _ => trivial) (fun hA j hj => (hok hA.1.1).safe f e j hf hj)

/-- one level: push, flatten, pop -/
theorem level {x : W Json} {y : P Json} (h : Good w cfg wr A T Json.NoNull x y) :
    Good w cfg wr A T Json.NoNull (do Warned.lift push; let j ← x; Warned.lift (pop j)) (do push; let j ← y; pop j) := by
  refine .bind (S1 := T) (Q1 := T) (.liftKeep (fun p r p' hz => ?_)) (fun _ _ => .bind (h.weaken And.left (fun _ h => h) (fun _ _ _ h => h)) (fun j _ => .lift (fun p r p' hz => ?_)))
  · injection hz with hz
    injection hz with h1 h2
    subst h1 h2
    exact ⟨rfl, fun _ _ => ⟨trivial, fun _ => trivial⟩⟩
  · injection hz with hz
    injection hz with h1 h2
    subst h1 h2
    refine ⟨fun _ _ => trivial, fun hA hc => ⟨?_, fun a ha => by injection ha with ha; subst ha; exact hA.2⟩⟩
    dsimp only
    by_cases hd : (p.depth - 1 == -1) = true
    · rw [if_pos hd]; intro e he; cases he
    · rw [if_neg hd]; exact hc
end

section
variable {A : Prop} {fl : Val → W Json} {fl' : Val → P Json}

theorem rec_ (hfl : ∀ v, Good w cfg wr (Ok w cfg V ∧ V v) T Json.NoNull (fl v) (fl' v)) (hok : A → Ok w cfg V) {v : Val} (hv : A → V v) :
    Good w cfg wr A T Json.NoNull (fl v) (fl' v) := (hfl v).weaken (fun hA => ⟨hok hA, hv hA⟩) (fun _ h => h) (fun _ _ _ h => h)

variable (hfl : ∀ v, Good w cfg wr (Ok w cfg V ∧ V v) T Json.NoNull (fl v) (fl' v)) (hok : A → Ok w cfg V)
include hfl hok

theorem keyValuePair {k v : Val} {d : List (Str × Json)} (hv : A → V v) :
    Good w cfg wr (A ∧ DataOk d) T DataOk (Warned.flattenKeyValuePair w fl k v d) (Pickler.flattenKeyValuePair w fl' k v d) := by
  unfold Warned.flattenKeyValuePair Pickler.flattenKeyValuePair
  refine .ite (fun _ => ?_) (fun _ => .pure trivial And.right)
  refine .bind (S1 := T) (Q1 := T) (.ofExcept (fun _ _ => trivial) (fun _ _ _ => trivial)) (fun k' _ => ?_)
  exact .bind (rec_ hfl (fun hA => hok hA.1.1) (fun hA => hv hA.1.1)) (fun j _ => .pure trivial (fun hA => hA.1.1.2.dset hA.2 k'))

theorem escapeKey {k : Val} (hk : A → V k) : Good w cfg wr A T T (Warned.escapeKey w fl k) (Pickler.escapeKey w fl' k) :=
  .bind (rec_ hfl hok hk) (fun _ _ => .pure trivial (fun _ => trivial))

theorem nonString {k v : Val} {d : List (Str × Json)} (hk : A → V k) (hv : A → V v) :
    Good w cfg wr (A ∧ DataOk d) T DataOk (Warned.flattenNonString w cfg fl k v d) (Pickler.flattenNonString w cfg fl' k v d) := by
  unfold Warned.flattenNonString Pickler.flattenNonString
  refine .ite (fun _ => ?_) (fun _ => .pure trivial And.right)
  have key : ∀ k, (A → V k) → Good w cfg wr (A ∧ DataOk d) T DataOk
      (if cfg.keys = true then do let k' ← Warned.escapeKey w fl k; let j ← fl v; Pure.pure (dset k' j d) else Pure.pure d)
      (if cfg.keys = true then do let k' ← Pickler.escapeKey w fl' k; let j ← fl' v; Pure.pure (dset k' j d) else Pure.pure d) := by
    intro k hk
    refine .ite (fun _ => ?_) (fun _ => .pure trivial And.right)
    refine .bind (escapeKey hfl (fun hA => hok hA.1) (fun hA => hk hA.1)) (fun k' _ => ?_)
    exact .bind (rec_ hfl (fun hA => hok hA.1.1) (fun hA => hv hA.1.1)) (fun j _ => .pure trivial (fun hA => hA.1.1.2.dset hA.2 k'))
  cases k with
  | str s => exact .pure trivial And.right
  | _ => exact key _ hk

theorem stringTail {k v : Val} {d : List (Str × Json)} (hv : A → V v) :
    Good w cfg wr (A ∧ DataOk d) T DataOk (Warned.flattenStringTail w cfg fl k v d) (Pickler.flattenStringTail w cfg fl' k v d) := by
  unfold Warned.flattenStringTail Pickler.flattenStringTail
  refine .ite (fun _ => .ite (fun _ => ?_) (fun _ => ?_)) (fun _ => .pure trivial And.right)
  · cases k with
    | str s => exact .bind (rec_ hfl (fun hA => hok hA.1) (fun hA => hv hA.1)) (fun j _ => .pure trivial (fun hA => hA.1.2.dset hA.2 _))
    | _ => exact .pure trivial And.right
  · refine .bind (S1 := T) (Q1 := T) (.ofExcept (fun _ _ => trivial) (fun _ _ _ => trivial)) (fun k' _ => ?_)
    exact .bind (rec_ hfl (fun hA => hok hA.1.1) (fun hA => hv hA.1.1)) (fun j _ => .pure trivial (fun hA => hA.1.1.2.dset hA.2 k'))

theorem string {k v : Val} {d : List (Str × Json)} (hk : A → V k) (hv : A → V v) :
    Good w cfg wr (A ∧ DataOk d) T DataOk (Warned.flattenString w cfg fl k v d) (Pickler.flattenString w cfg fl' k v d) := by
  unfold Warned.flattenString Pickler.flattenString
  cases k with
  | str s =>
    refine .ite (fun _ => ?_) (fun _ => stringTail hfl hok hv)
    refine .bind (rec_ hfl (fun hA => hok hA.1) (fun hA => hv hA.1)) (fun j _ => ?_)
    exact .bind (escapeKey hfl (fun hA => hok hA.1.1) (fun hA => hk hA.1.1)) (fun k' _ => .pure trivial (fun hA => hA.1.1.2.dset hA.1.2 k'))
  | _ => exact stringTail hfl hok hv

theorem entries {kvs : List (Val × Val)} {ex : List Str} {d : List (Str × Json)} (hkv : A → ∀ kv ∈ kvs, V kv.1 ∧ V kv.2) :
    Good w cfg wr (A ∧ DataOk d) T DataOk (Warned.flattenEntries w cfg fl kvs ex d) (Pickler.flattenEntries w cfg fl' kvs ex d) := by
  have hm : ∀ kv ∈ itemsExcl ex kvs, kv ∈ kvs := fun kv h => (List.mem_filter.1 h).1
  unfold Warned.flattenEntries Pickler.flattenEntries
  refine .ite (fun _ => ?_) (fun _ => ?_)
  · refine .bind (.foldM (S := T) (Q := DataOk) (fun kv h d _ => string hfl hok (fun hA => (hkv hA kv (hm kv h)).1) (fun hA => (hkv hA kv (hm kv h)).2)) trivial) (fun d' _ => ?_)
    exact (Good.foldM (S := T) (Q := DataOk) (fun kv h d _ => nonString hfl hok (fun hA => (hkv hA kv (hm kv h)).1) (fun hA => (hkv hA kv (hm kv h)).2)) trivial).weaken
      (fun hA => ⟨hA.1.1, hA.2⟩) (fun _ h => h) (fun _ _ _ h => h)
  · exact .foldM (S := T) (Q := DataOk) (fun kv h d _ => keyValuePair hfl hok (fun hA => (hkv hA kv (hm kv h)).2)) trivial

theorem clone {v : Val} (hv : A → V v) : Good w cfg wr A T Json.NoNull (Warned.flattenClone w cfg fl v) (Pickler.flattenClone w cfg fl' v) := by
  unfold Warned.flattenClone Pickler.flattenClone
  refine .bind ((entries (A := A) hfl hok (fun hA kv h => ?_)).weaken (fun hA => ⟨hA, ?_⟩) (fun _ h => h) (fun _ _ _ h => h)) (fun d _ => .pure trivial (fun hA => .obj hA.2))
  · rcases List.mem_cons.1 h with h | h
    · subst h; exact ⟨(hok hA).free.str _, hv hA⟩
    · cases h
  · rw [(hok hA).unpicklable]
    intro kv h
    rcases List.mem_cons.1 h with h | h
    · subst h; exact .str
    · cases h

theorem factory {f : Val} {ex : Except Exc Val} (hv : A → ∀ v, ex = .ok v → V v) :
    Good w cfg wr A T Json.NoNull (Warned.flattenFactory w cfg fl f ex) (Pickler.flattenFactory w cfg fl' f ex) := by
  unfold Warned.flattenFactory Pickler.flattenFactory
  have key : ∀ i, Good w cfg wr A T Json.NoNull
      (do let new ← Warned.lift (mkref cfg i); if new = true then (do let x ← PyM.ofExcept ex; Warned.flattenClone w cfg fl x) else Warned.lift (getref i))
      (do let new ← mkref cfg i; if new = true then (do let x ← PyM.ofExcept ex; Pickler.flattenClone w cfg fl' x) else getref i) :=
    fun i => refOr' (.bind (S1 := T) (Q1 := V) (.ofExcept (fun _ _ => trivial) hv) (fun v _ => clone hfl (fun hA => hok hA.1) And.right))
  cases f with
  | type n =>
    refine .pure trivial (fun _ => .obj (fun kv h => ?_))
    rcases List.mem_cons.1 h with h | h
    · subst h; exact .str
    · cases h
  | _ => exact key _

theorem default {f : Option Val} {ex : Except Exc Val} {d : List (Str × Json)} (hv : A → f.isSome = true → ∀ v, ex = .ok v → V v) :
    Good w cfg wr (A ∧ DataOk d) T DataOk (Warned.flattenDefault w cfg fl f ex d) (Pickler.flattenDefault w cfg fl' f ex d) := by
  unfold Warned.flattenDefault Pickler.flattenDefault
  cases f with
  | none => exact .pure trivial And.right
  | some f => exact .bind (factory hfl (fun hA => hok hA.1) (fun hA => hv hA.1 rfl)) (fun j _ => .pure trivial (fun hA => hA.1.2.dset hA.2 _))

section
variable {a : Addr} {i : Inst} (hi : w.heap[a]? = some (.inst i)) (hV : A → V (.ref a))
include hi hV

omit hfl in
theorem dictItems_ok (hA : A) : ∀ kv ∈ dictItems w i, V kv.1 ∧ V kv.2 := by
  intro kv hkv
  unfold dictItems at hkv
  cases hd : i.dictCell with
  | none =>
    rw [hd] at hkv
    obtain ⟨p, hp, rfl⟩ := List.mem_map.1 hkv
    exact ⟨(hok hA).free.str _, (hok hA).free.attrs (hV hA) hi p hp⟩
  | some d =>
    rw [hd] at hkv
    dsimp only at hkv
    cases hc : w.heap[d]? with
    | none => rw [hc] at hkv; cases hkv
    | some o =>
      rw [hc] at hkv
      cases o with
      | dict kvs => exact (hok hA).free.dictCell (hV hA) hi hd hc kv hkv
      | _ => cases hkv

theorem ownDict {ex : List Str} {d : List (Str × Json)} :
    Good w cfg wr (A ∧ DataOk d) T DataOk (Warned.flattenOwnDict w cfg fl a i ex d) (Pickler.flattenOwnDict w cfg fl' a i ex d) := by
  unfold Warned.flattenOwnDict Pickler.flattenOwnDict
  refine .ite (fun _ => ?_) (fun _ => .pure trivial And.right)
  refine refOr (.bind ((entries (A := A) hfl hok (dictItems_ok hok hi hV)).weaken (fun hA => ⟨hA.1, fun kv h => by cases h⟩) (fun _ h => h) (fun _ _ _ h => h)) (fun dd _ => ?_)) (fun j => ?_)
  · exact .pure trivial (fun hA => hA.1.2.dset (.obj hA.2) _)
  · exact .pure trivial (fun hA => hA.1.2.dset hA.2 _)

theorem dictSub {d : List (Str × Json)} :
    Good w cfg wr (A ∧ DataOk d) T DataOk (Warned.flattenDictSub w cfg fl a i d) (Pickler.flattenDictSub w cfg fl' a i d) := by
  unfold Warned.flattenDictSub Pickler.flattenDictSub
  refine .bind (entries hfl hok (fun hA => (hok hA).free.items (hV hA) hi)) (fun d1 _ => ?_)
  refine .bind ((default (A := A) hfl hok (fun hA hf v hv => ?_)).weaken (fun hA => ⟨hA.1.1, hA.2⟩) (fun _ h => h) (fun _ _ _ h => h)) (fun d2 _ => ?_)
  · have : v = i.exemplar := by
      unfold outcome at hv
      split at hv
      · injection hv with hv; exact hv.symm
      · cases hv
    exact this ▸ (hok hA).free.exemplar (hV hA) hi hf
  · exact (ownDict (A := A) hfl hok hi hV).weaken (fun hA => ⟨hA.1.1.1, hA.2⟩) (fun _ h => h) (fun _ _ _ h => h)

omit hi hV in
theorem objAttrs {lookup : List (Str × Val)} {names : List Str} {d : List (Str × Json)} (hl : A → ∀ kv ∈ lookup, V kv.2) :
    Good w cfg wr (A ∧ DataOk d) T (fun r => DataOk r.2) (Warned.flattenObjAttrs w fl i lookup names d) (Pickler.flattenObjAttrs w fl' i lookup names d) := by
  unfold Warned.flattenObjAttrs Pickler.flattenObjAttrs
  refine .foldM (S := T) (Q := fun r : Bool × List (Str × Json) => DataOk r.2) (fun k _ acc _ => ?_) trivial
  refine .ite (fun _ => .pure trivial And.right) (fun _ => .tryCatch ?_ (fun _ => .pure trivial And.right))
  refine .bind (S1 := T) (Q1 := V) (.ofExcept (fun _ _ => trivial) (fun hA v hv => ?_)) (fun v _ => ?_)
  · split at hv
    · next h => injection hv with hv; subst hv; exact hl hA.1 _ (dget_mem h)
    · cases hv
  · exact .bind ((keyValuePair (A := A ∧ V v) hfl (fun hA => hok hA.1) And.right).weaken (fun hA => ⟨⟨hA.1.1, hA.2⟩, hA.1.2⟩) (fun _ h => h) (fun _ _ _ h => h))
      (fun d _ => .pure trivial And.right)

theorem slots {d : List (Str × Json)} :
    Good w cfg wr (A ∧ DataOk d) T Json.NoNull (Warned.flattenSlots w fl i d) (Pickler.flattenSlots w fl' i d) := by
  unfold Warned.flattenSlots Pickler.flattenSlots
  refine .bind (objAttrs hfl hok (fun hA => (hok hA).free.attrs (hV hA) hi)) (fun r _ => .ite (fun _ => .pure trivial (fun hA => .obj hA.2)) (fun _ => ?_))
  exact .bind ((objAttrs (A := A) hfl hok (fun hA => (hok hA).free.dirAttrs (hV hA) hi)).weaken (fun hA => ⟨hA.1.1, hA.2⟩) (fun _ h => h) (fun _ _ _ h => h))
    (fun r _ => .pure trivial (fun hA => .obj hA.2))

theorem seqAttrs {d : List (Str × Json)} :
    Good w cfg wr (A ∧ DataOk d) T DataOk (Warned.flattenSeqAttrs w cfg fl i d) (Pickler.flattenSeqAttrs w cfg fl' i d) := by
  unfold Warned.flattenSeqAttrs Pickler.flattenSeqAttrs
  exact .ite (fun _ => entries hfl hok (dictItems_ok hok hi hV)) (fun _ => .pure trivial And.right)

theorem sequence {d : List (Str × Json)} :
    Good w cfg wr (A ∧ DataOk d) T Json.NoNull (Warned.flattenSequence w cfg fl i d) (Pickler.flattenSequence w cfg fl' i d) := by
  unfold Warned.flattenSequence Pickler.flattenSequence
  refine .bind (seqAttrs hfl hok hi hV) (fun d1 _ => ?_)
  refine .bind (.mapM (Q := Json.NoNull) (fun x hx => rec_ hfl (fun hA => hok hA.1.1) (fun hA => (hok hA.1.1).free.elems (hV hA.1.1) hi x hx))) (fun js _ => ?_)
  exact .ite (fun _ => .pure trivial (fun hA => .obj (hA.1.2.dset (.arr hA.2) _))) (fun _ => .pure trivial (fun hA => .arr hA.2))

omit hi hV in
theorem filteredState {kvs : List (Val × Val)} {ex : List Str} (hkv : A → ∀ kv ∈ kvs, V kv.1 ∧ V kv.2) :
    Good w cfg wr A T Json.NoNull (Warned.flattenFilteredState w cfg fl a kvs ex) (Pickler.flattenFilteredState w cfg fl' a kvs ex) := by
  unfold Warned.flattenFilteredState Pickler.flattenFilteredState
  refine cached (level (objWith hok (refOr' (.bind ((entries (A := A) hfl hok (fun hA kv h => ?_)).weaken (fun hA => ⟨hA, fun kv h => by cases h⟩) (fun _ h => h) (fun _ _ _ h => h)) (fun d _ => .pure trivial (fun hA => .obj hA.2))))))
  exact hkv hA kv (List.mem_filter.1 h).1

theorem rest (hh : w.handler i.cls = none) {d : List (Str × Json)} (hne : cfg.unpicklable = true → d ≠ []) :
    Good w cfg wr (A ∧ DataOk d) T Json.NoNull (Warned.flattenRest w cfg wr fl a i d) (Pickler.flattenRest w cfg fl' a i d) := by
  unfold Warned.flattenRest Pickler.flattenRest
  cases hb : i.info.base with
  | dict => exact .bind (dictSub hfl hok hi hV) (fun d _ => .pure trivial (fun hA => .obj hA.2))
  | list => exact sequence hfl hok hi hV
  | set => exact sequence hfl hok hi hV
  | tuple => exact sequence hfl hok hi hV
  | plain =>
    dsimp only
    refine .ite (fun _ => ?_) (fun hit => .ite (fun _ => ?_) (fun hdi => .ite (fun _ => slots hfl hok hi hV) (fun hsl => .ite (fun _ => .pure trivial (fun hA => .obj hA.2)) (fun hem => ?_))))
    · refine .bind (.mapM (Q := Json.NoNull) (fun x hx => rec_ hfl (fun hA => hok hA.1) (fun hA => (hok hA.1).free.elems (hV hA.1) hi x ?_))) (fun js _ => ?_)
      · unfold iterated at hx
        split at hx
        · exact hx
        · exact List.mem_of_mem_take hx
      · exact .bind (S1 := T) (Q1 := T) (.ofExcept (fun _ _ => trivial) (fun _ _ _ => trivial)) (fun _ _ => .pure trivial (fun hA => .obj (hA.1.1.2.dset (.arr hA.1.2) _)))
    · exact .bind (entries hfl hok (dictItems_ok hok hi hV)) (fun d _ => .pure trivial (fun hA => .obj hA.2))
    · have hemp : d = [] := by cases d with
        | nil => rfl
        | cons x d => exact absurd rfl hem
      have hu : cfg.unpicklable = false := by
        cases hu : cfg.unpicklable with
        | false => rfl
        | true => exact absurd hemp (hne hu)
      have href : Refused w cfg (.ref a) := .nothing hi hh hu hb (Bool.eq_false_iff.2 hit) (Bool.eq_false_iff.2 hdi) (Bool.eq_false_iff.2 hsl)
      have hno : A → False := fun hA => by have := (hok hA).unpicklable; rw [hu] at this; cases this
      refine .ite (fun h => by rw [hu] at h; cases h) (fun _ => ?_)
      generalize (if i.info.reduces = true then i.reduce else .nothing) = r
      cases r with
      | tup xs =>
        exact .ite (fun _ => rec_ hfl (fun hA => hok hA.1) (fun hA => (hno hA.1).elim)) (fun _ => .ite (fun _ => rec_ hfl (fun hA => hok hA.1) (fun hA => (hno hA.1).elim)) (fun _ => .refuse href))
      | raise e => exact .ite (fun _ => .refuse href) (fun _ => .throw)
      | str v => exact .refuse href
      | nothing => exact .refuse href

omit hfl hok hi hV in
theorem putState {j : Json} {d : List (Str × Json)} (hd : DataOk d) (hj : j.NoNull) : (Pickler.putState cfg j d).NoNull := by
  unfold Pickler.putState
  split
  · exact .obj (hd.dset hj _)
  · exact hj

theorem getstate (hh : w.handler i.cls = none) {d : List (Str × Json)} (hne : cfg.unpicklable = true → d ≠ []) :
    Good w cfg wr (A ∧ DataOk d) T Json.NoNull (Warned.flattenGetstate w cfg wr fl a i d) (Pickler.flattenGetstate w cfg fl' a i d) := by
  unfold Warned.flattenGetstate Pickler.flattenGetstate
  refine .ite (fun hown => ?_) (fun _ => rest hfl hok hi hV hh hne)
  cases hst : i.state with
  | error e =>
    refine .ite (fun he => .refuse (.getstate hi hh hown ?_)) (fun _ => .throw)
    rw [hst, beq_iff_eq.1 he]
  | ok st =>
    dsimp only
    have h1 : Good w cfg wr (A ∧ DataOk d) T Json.NoNull
        (if truthy w.heap st = true then (do let j ← fl st; Pure.pure (Pickler.putState cfg j d)) else Warned.flattenRest w cfg wr fl a i d)
        (if truthy w.heap st = true then (do let j ← fl' st; Pure.pure (Pickler.putState cfg j d)) else Pickler.flattenRest w cfg fl' a i d) := by
      refine .ite (fun ht => ?_) (fun _ => rest hfl hok hi hV hh hne)
      exact .bind (rec_ hfl (fun hA => hok hA.1) (fun hA => (hok hA.1).free.state (hV hA.1) hi hown hst ht)) (fun j _ => .pure trivial (fun hA => putState hA.1.2 hA.2))
    cases st with
    | ref c =>
      dsimp only
      cases hc : w.heap[c]? with
      | none => exact h1
      | some o =>
        cases o with
        | dict kvs =>
          dsimp only
          by_cases hex : i.exclude.isEmpty = true
          · rw [if_pos hex]; exact h1
          · rw [if_neg hex]
            dsimp only
            refine .ite (fun _ => rest hfl hok hi hV hh hne) (fun hem => ?_)
            refine .bind (filteredState (A := A ∧ DataOk d) hfl (fun hA => hok hA.1) (fun hA => ?_)) (fun j _ => .pure trivial (fun hA => putState hA.1.2 hA.2))
            refine (hok hA.1).free.dict ((hok hA.1).free.state (hV hA.1) hi hown hst ?_) hc
            cases kvs with
            | nil => exact absurd rfl hem
            | cons x kvs => simp [truthy, hc]
        | _ => exact h1
    | _ => exact h1

theorem newargs {d : List (Str × Json)} (hne : cfg.unpicklable = true → d ≠ []) :
    Good w cfg wr (A ∧ DataOk d) (fun d => cfg.unpicklable = true → d ≠ []) DataOk (Warned.flattenNewargs fl i d) (Pickler.flattenNewargs fl' i d) := by
  unfold Warned.flattenNewargs Pickler.flattenNewargs
  refine .ite (fun hx => ?_) (fun _ => .ite (fun hx => ?_) (fun _ => .pure hne And.right))
  · refine .bind (S1 := T) (Q1 := fun p => V p.1 ∧ V p.2) (.ofExcept (fun _ _ => trivial) (fun hA p hp => ?_)) (fun p _ => ?_)
    · have : p = i.newargsEx := by
        unfold outcome at hp
        split at hp
        · injection hp with hp; exact hp.symm
        · cases hp
      exact this ▸ (hok hA.1).free.newargsEx (hV hA.1) hi hx
    · refine .bind (rec_ hfl (fun hA => hok hA.1.1) (fun hA => hA.2.1)) (fun x _ => .bind (rec_ hfl (fun hA => hok hA.1.1.1) (fun hA => hA.1.2.2)) (fun y _ => .pure (fun _ => dset_ne_nil _ _ _) (fun hA => hA.1.1.1.2.dset (.arr (fun z hz => ?_)) _)))
      rcases List.mem_cons.1 hz with h | h
      · exact h ▸ hA.1.2
      · rcases List.mem_cons.1 h with h | h
        · exact h ▸ hA.2
        · cases h
  · refine .bind (S1 := T) (Q1 := V) (.ofExcept (fun _ _ => trivial) (fun hA p hp => ?_)) (fun p _ => ?_)
    · have : p = i.newargs := by
        unfold outcome at hp
        split at hp
        · injection hp with hp; exact hp.symm
        · cases hp
      exact this ▸ (hok hA.1).free.newargs (hV hA.1) hi hx
    · exact .bind (rec_ hfl (fun hA => hok hA.1.1) (fun hA => hA.2)) (fun x _ => .pure (fun _ => dset_ne_nil _ _ _) (fun hA => hA.1.1.2.dset hA.2 _))

theorem initargs {d : List (Str × Json)} (hne : cfg.unpicklable = true → d ≠ []) :
    Good w cfg wr (A ∧ DataOk d) (fun d => cfg.unpicklable = true → d ≠ []) DataOk (Warned.flattenInitargs fl i d) (Pickler.flattenInitargs fl' i d) := by
  unfold Warned.flattenInitargs Pickler.flattenInitargs
  refine .ite (fun hx => ?_) (fun _ => .pure hne And.right)
  refine .bind (S1 := T) (Q1 := V) (.ofExcept (fun _ _ => trivial) (fun hA p hp => ?_)) (fun p _ => ?_)
  · have : p = i.initargs := by
      unfold outcome at hp
      split at hp
      · injection hp with hp; exact hp.symm
      · cases hp
    exact this ▸ (hok hA.1).free.initargs (hV hA.1) hi hx
  · exact .bind (rec_ hfl (fun hA => hok hA.1.1) (fun hA => hA.2)) (fun x _ => .pure (fun _ => dset_ne_nil _ _ _) (fun hA => hA.1.1.2.dset hA.2 _))

omit hfl hok hi hV in
theorem objTag_ok : DataOk (objTag cfg i) := by
  unfold objTag
  intro kv h
  split at h
  · rcases List.mem_cons.1 h with h | h
    · subst h; exact .str
    · cases h
  · cases h

theorem body (hh : w.handler i.cls = none) :
    Good w cfg wr A T Json.NoNull (Warned.flattenBody w cfg wr fl a i) (Pickler.flattenBody w cfg fl' a i) := by
  unfold Warned.flattenBody Pickler.flattenBody
  refine .bind ((newargs (A := A) (d := objTag cfg i) hfl hok hi hV (fun hu => ?_)).weaken (fun hA => ⟨hA, objTag_ok⟩) (fun _ h => h) (fun _ _ _ h => h)) (fun d1 h1 => ?_)
  · unfold objTag; rw [if_pos hu]; intro h; cases h
  refine .bind (initargs hfl hok hi hV h1) (fun d2 h2 => ?_)
  exact (getstate (A := A) hfl hok hi hV hh h2).weaken (fun hA => ⟨hA.1.1, hA.2⟩) (fun _ h => h) (fun _ _ _ h => h)

omit hfl hok hi hV in
theorem trim_ok {p q : List Json} (h1 : 2 ≤ p.length) (h2 : ∀ y ∈ p, y.NoNull) (h3 : ∀ y ∈ q, y = .null) : ∀ y ∈ trimReduce (p ++ q), y.NoNull := by
  have hdw : ∀ (l m : List Json), (∀ y ∈ l, y = .null) → (l ++ m).dropWhile isNullJ = m.dropWhile isNullJ := by
    intro l m hl
    induction l with
    | nil => rfl
    | cons x l ih =>
      rw [hl x (List.mem_cons_self ..)]
      exact ih (fun y hy => hl y (List.mem_cons_of_mem _ hy))
  intro y hy
  apply h2
  unfold trimReduce at hy
  rw [List.take_append_of_le_length h1, List.drop_append_of_le_length h1, List.reverse_append, hdw _ _ (fun y hy => h3 y (List.mem_reverse.1 hy))] at hy
  rcases List.mem_append.1 hy with h | h
  · exact List.mem_of_mem_take h
  · exact List.mem_of_mem_drop (List.mem_reverse.1 ((List.dropWhile_sublist _).mem (List.mem_reverse.1 h)))

theorem reduce_ (hn : Good w cfg wr True T (fun j => j = .null) (fl .none) (fl' .none)) (hh : w.handler i.cls = none) :
    Good w cfg wr A T Json.NoNull (Warned.flattenReduce w cfg wr fl a i) (Pickler.flattenReduce w cfg fl' a i) := by
  unfold Warned.flattenReduce Pickler.flattenReduce
  have hb := body (wr := wr) hfl hok hi hV hh
  generalize hr : (if (cfg.unpicklable && i.info.reduces) = true then i.reduce else .nothing) = r
  cases r with
  | nothing => exact hb
  | raise e => exact .ite (fun _ => hb) (fun _ => .throw)
  | str v =>
    by_cases hc : (cfg.unpicklable && i.info.reduces) = true
    · rw [if_pos hc] at hr
      cases v with
      | none => exact hb
      | some v => exact .tryCatch (rec_ hfl hok (fun hA => (hok hA).free.target (hV hA) hi (Bool.and_eq_true_iff.1 hc).2 hr)) (fun _ => hb)
    · rw [if_neg hc] at hr; cases hr
  | tup xs =>
    by_cases hc : (cfg.unpicklable && i.info.reduces) = true
    · rw [if_pos hc] at hr
      refine .ite (fun _ => hb) (fun _ => .ite (fun _ => ?_) (fun _ => hb))
      refine .assume (Q' := T) (.bind (Good.mapM (Q := Json.NoNull) (fun x _ => (hfl x).weaken False.elim (fun _ h => h) (fun h => h.elim))) (fun js _ => .pure trivial (fun _ => trivial))) (fun hA => ?_)
      obtain ⟨ys, k, e1, e2, e3⟩ := (hok hA).free.reduce (hV hA) hi (Bool.and_eq_true_iff.1 hc).2 hr
      have e4 : ∃ zs m, newobjMark (padReduce xs) = zs ++ List.replicate m Val.none ∧ 2 ≤ zs.length ∧ ∀ z ∈ zs, V z := by
        have e5 : padReduce xs = ys ++ List.replicate (k + (6 - xs.length)) Val.none := by
          unfold padReduce
          conv => lhs; rw [e1]
          rw [List.append_assoc, List.replicate_append_replicate, ← e1]
        rw [e5]
        cases ys with
        | nil => simp at e2
        | cons y ys =>
          have h1 : ∀ n, V y → V (if shortOf n == p!"__newobj__" then .str Tags.NEWOBJ else y) := by
            intro n h
            split
            · exact (hok hA).free.str _
            · exact h
          have h2 : ∀ y', V y' → ∀ z ∈ y' :: ys, V z := by
            intro y' h z hz
            rcases List.mem_cons.1 hz with h' | h'
            · exact h' ▸ h
            · exact e3 z (List.mem_cons_of_mem _ h')
          have hy := e3 y (List.mem_cons_self ..)
          cases y with
          | func n => exact ⟨_ :: ys, _, rfl, e2, h2 _ (h1 n hy)⟩
          | type n => exact ⟨_ :: ys, _, rfl, e2, h2 _ (h1 n hy)⟩
          | _ => exact ⟨_ :: ys, _, rfl, e2, e3⟩
      obtain ⟨zs, m, e5, e6, e7⟩ := e4
      rw [e5]
      refine .bind (.mapM_append (Q := Json.NoNull) (R := fun j => j = .null) (fun z hz => rec_ hfl hok (fun _ => e7 z hz)) (fun z hz => ?_)) (fun js _ => .pure trivial ?_)
      · rw [(List.mem_replicate.1 hz).2]; exact hn.weaken (fun _ => trivial) (fun _ h => h) (fun _ _ _ h => h)
      · rintro ⟨_, p, q, f1, f2, f3, f4⟩
        refine .obj (fun kv hkv => ?_)
        rcases List.mem_cons.1 hkv with h | h
        · subst h; rw [f1]; exact .arr (trim_ok (by omega) f3 f4)
        · cases h
    · rw [if_neg hc] at hr; cases hr

theorem date (hh : w.handler i.cls = some .datetime) :
    Good w cfg wr A T Json.NoNull (Warned.flattenDate w cfg fl a i) (Pickler.flattenDate w cfg fl' a i) := by
  unfold Warned.flattenDate Pickler.flattenDate
  refine .ite (fun _ => ?_) (fun hu => ?_)
  · refine .bind (.mapM (Q := Json.NoNull) (fun x hx => rec_ hfl hok (fun hA => ?_))) (fun js hl => ?_)
    · obtain ⟨kv, hkv, e⟩ := List.mem_map.1 hx
      exact e ▸ (hok hA).free.fields (hV hA) hi (by rw [hh]; rfl) kv (List.mem_of_mem_tail hkv)
    · refine .bind (S1 := T) (Q1 := T) (.ofExcept (fun _ _ => trivial) (fun _ _ _ => trivial)) (fun _ _ => .pure trivial (fun hA => .obj (objTag_ok.dset (.arr (fun z hz => ?_)) _)))
      have hlen := (hok hA.1.1).free.date (hV hA.1.1) hi hh
      have hne : js ≠ [] := by
        intro e
        rw [e] at hl
        simp at hl
        omega
      rcases List.mem_cons.1 hz with h | h
      · subst h
        rw [List.getLastD_eq_getLast?, List.getLast?_eq_some_getLast hne]
        exact hA.1.2 _ (List.getLast_mem hne)
      · rcases List.mem_cons.1 h with h | h
        · subst h
          refine .arr (fun z hz => ?_)
          rcases List.mem_cons.1 hz with h | h
          · subst h; exact .str
          · exact hA.1.2 _ (List.dropLast_subset _ h)
        · cases h
  · exact .bind (S1 := T) (Q1 := T) (.ofExcept (fun _ _ => trivial) (fun _ _ _ => trivial)) (fun _ _ => .bind (S1 := T) (Q1 := T) (.ofExcept (fun _ _ => trivial) (fun _ _ _ => trivial)) (fun _ _ => .pure trivial (fun _ => .str)))

theorem inst_ (hn : Good w cfg wr True T (fun j => j = .null) (fl .none) (fl' .none)) :
    Good w cfg wr A T Json.NoNull (Warned.flattenInst w cfg wr fl a i) (Pickler.flattenInst w cfg fl' a i) := by
  unfold Warned.flattenInst Pickler.flattenInst
  have hunit : ∀ {B : Prop} {r : Except Exc Unit}, Good w cfg wr B T T (PyM.ofExcept r) (PyM.ofExcept r) := .ofExcept (fun _ _ => trivial) (fun _ _ _ => trivial)
  cases hh : w.handler i.cls with
  | none => exact reduce_ hfl hok hi hV hn hh
  | some k =>
    cases k with
    | record =>
      refine .bind (S1 := T) (Q1 := DataOk) ((Good.foldM (A := A) (S := T) (Q := DataOk) (fun kv hkv d _ => ?_) trivial).weaken (fun hA => ⟨hA, objTag_ok⟩) (fun _ h => h) (fun _ _ _ h => h)) (fun d _ => .bind hunit (fun _ _ => .pure trivial (fun hA => .obj hA.1.2)))
      exact .bind (rec_ hfl (fun hA => hok hA.1) (fun hA => (hok hA.1).free.fields (hV hA.1) hi (by rw [hh]; rfl) kv hkv)) (fun j _ => .pure trivial (fun hA => hA.1.2.dset hA.2 _))
    | datetime => exact date hfl hok hi hV hh
    | «opaque» => exact .bind hunit (fun _ _ => .pure trivial (fun _ => .obj objTag_ok))
    | drop => exact .bind hunit (fun _ _ => .refuse (.handler hi hh))

end

omit hok hfl in
theorem refObj (hu : A → cfg.unpicklable = true) {id : Ident} {isEnum : Bool} {x : W Json} {y : P Json} (h : Good w cfg wr A T Json.NoNull x y) :
    Good w cfg wr A T Json.NoNull (Warned.refObjInstance cfg id isEnum x) (Pickler.refObjInstance cfg id isEnum y) := by
  unfold Warned.refObjInstance Pickler.refObjInstance
  refine .ite (fun _ => refOr' h) (fun hne => ?_)
  have hk : ∀ {β : Type} {z : P β}, Good w cfg wr False T T (Warned.lift z) z := .lift (fun _ _ _ _ => ⟨fun _ _ => trivial, False.elim⟩)
  refine (?_ : Good w cfg wr False T Json.NoNull _ _).weaken (fun hA => hne (hu hA)) (fun _ h => h) (fun _ _ _ h => h)
  refine .bind hk (fun m _ => .bind (hk.weaken And.left (fun _ h => h) (fun _ _ _ h => h)) (fun c _ => .ite (fun _ => .pure trivial (fun hA => hA.1.1.elim)) (fun _ => .bind (hk.weaken (fun hA => hA.1.1) (fun _ h => h) (fun _ _ _ h => h)) (fun _ _ => h.weaken (fun hA => hA.1.1.1.elim) (fun _ h => h) (fun _ _ _ h => h)))))

theorem by_ (hn : Good w cfg wr True T (fun j => j = .null) (fl .none) (fl' .none)) {v : Val} (hV : A → V v) :
    Good w cfg wr A T Json.NoNull (Warned.flattenBy w cfg wr fl v) (Pickler.flattenBy w cfg fl' v) := by
  unfold Warned.flattenBy Pickler.flattenBy
  have hone : ∀ {k : Str} {j : Json}, j.NoNull → (Json.obj [(k, j)]).NoNull := by
    intro k j hj
    refine .obj (fun kv hkv => ?_)
    rcases List.mem_cons.1 hkv with h | h
    · subst h; exact hj
    · cases h
  cases v with
  | ref a =>
    dsimp only
    cases ha : w.heap[a]? with
    | none => exact .throw
    | some o =>
      cases o with
      | list xs => exact refOr' (.bind (.mapM (Q := Json.NoNull) (fun x hx => rec_ hfl hok (fun hA => (hok hA).free.list (hV hA) ha x hx))) (fun js _ => .pure trivial (fun hA => .arr hA.2)))
      | dict kvs =>
        exact refOr' (.bind ((entries (A := A) hfl hok (fun hA => (hok hA).free.dict (hV hA) ha)).weaken (fun hA => ⟨hA, (fun kv hkv => by cases hkv)⟩) (fun _ h => h) (fun _ _ _ h => h)) (fun d _ => .pure trivial (fun hA => .obj hA.2)))
      | proxy _ => exact .throw
      | idproxy _ => exact .throw
      | inst i => exact refObj (fun hA => (hok hA).unpicklable) (inst_ hfl hok ha hV hn)
  | tuple i xs =>
    refine .bind (.mapM (Q := Json.NoNull) (fun x hx => rec_ hfl hok (fun hA => (hok hA).free.tuple (hV hA) x hx))) (fun js _ => .pure trivial (fun hA => ?_))
    rw [if_pos (hok hA.1).unpicklable]
    exact hone (.arr hA.2)
  | set i xs =>
    refine .bind (.mapM (Q := Json.NoNull) (fun x hx => rec_ hfl hok (fun hA => (hok hA).free.set (hV hA) x hx))) (fun js _ => .pure trivial (fun hA => ?_))
    rw [if_pos (hok hA.1).unpicklable]
    exact hone (.arr hA.2)
  | func n =>
    refine .pure trivial (fun hA => ?_)
    rw [if_pos (hok hA).unpicklable]
    exact hone .str
  | type n => exact .pure trivial (fun hA => hone .str)
  | module n =>
    refine refObj (fun hA => (hok hA).unpicklable) (.liftKeep (fun p r p' hz => ?_))
    unfold flattenModule at hz
    by_cases hu : cfg.unpicklable = true
    · rw [if_pos hu] at hz
      injection hz with hz
      injection hz with h1 h2
      subst h1 h2
      exact ⟨rfl, fun b hb => ⟨trivial, fun _ => by injection hb with hb; subst hb; exact hone .str⟩⟩
    · rw [if_neg hu, bind_run] at hz
      cases hp : w.pystr (.module n) with
      | error e =>
        rw [hp] at hz
        injection hz with hz
        injection hz with h1 h2
        subst h1 h2
        exact ⟨rfl, (fun b hb => by cases hb)⟩
      | ok s =>
        rw [hp] at hz
        injection hz with hz
        injection hz with h1 h2
        subst h1 h2
        exact ⟨rfl, fun b hb => ⟨trivial, fun _ => by injection hb with hb; subst hb; exact .str⟩⟩
  | lambda n => exact .bind (.warning .lambda (B := True)) (fun _ _ => .refuse .lambda)
  | _ => exact .throw

omit hfl hok in
theorem bytes_ (b : Bytes) : (flattenBytestring cfg b).NoNull := by
  unfold flattenBytestring
  split <;>
  · refine .obj (fun kv hkv => ?_)
    rcases List.mem_cons.1 hkv with h | h
    · subst h; exact .str
    · cases h

theorem impl (hn : Good w cfg wr True T (fun j => j = .null) (fl .none) (fl' .none)) {v : Val} (hV : A → V v) :
    Good w cfg wr A T Json.NoNull (Warned.flattenImpl w cfg wr fl v) (Pickler.flattenImpl w cfg fl' v) := by
  have hb : Good w cfg wr A T Json.NoNull (do Warned.lift push; let j ← Warned.flattenObj w cfg wr fl v; Warned.lift (pop j)) (do push; let j ← Pickler.flattenObj w cfg fl' v; pop j) :=
    level (objWith hok (by_ hfl hok hn hV))
  cases v with
  | none => exact .pure trivial (fun hA => absurd (hV hA) (hok hA).free.none)
  | bool b => exact .pure trivial (fun _ => .bool)
  | int b => exact .pure trivial (fun _ => .int)
  | float b => exact .pure trivial (fun _ => .float)
  | str b => exact .pure trivial (fun _ => .str)
  | bytes i b => exact .pure trivial (fun _ => bytes_ b)
  | bytearray i b =>
    refine .pure trivial (fun _ => .obj (fun kv hkv => ?_))
    rcases List.mem_cons.1 hkv with h | h
    · subst h; exact bytes_ b
    · cases h
  | _ => exact hb

theorem step (hn : Good w cfg wr True T (fun j => j = .null) (fl .none) (fl' .none)) {v : Val} (hV : A → V v) :
    Good w cfg wr A T Json.NoNull (Warned.flattenStep w cfg wr fl v) (Pickler.flattenStep w cfg fl' v) := by
  have h1 := impl hfl hok hn hV
  have h2 : Good w cfg wr A T Json.NoNull (Warned.cached cfg v.ident (Warned.flattenImpl w cfg wr fl v)) (Pickler.cached cfg v.ident (Pickler.flattenImpl w cfg fl' v)) := cached h1
  cases v with
  | none => exact h1
  | bool b => exact h1
  | int b => exact h1
  | float b => exact h1
  | str b => exact h1
  | _ => exact h2

end

/-- the encoder with reports does what the encoder does -/
theorem flatten (n : Nat) : ∀ v, Good w cfg wr (Ok w cfg V ∧ V v) T Json.NoNull (Warned.flatten w cfg wr n v) (Pickler.flatten w cfg n v) := by
  induction n with
  | zero => exact fun v => .outOfFuel
  | succ n ih =>
    intro v
    refine step ih And.left ?_ And.right
    cases n with
    | zero => exact .outOfFuel
    | succ n => exact .pure trivial (fun _ => rfl)

end JP.Warn
