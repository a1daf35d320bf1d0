import Verif.Proofs.PShare
import Verif.Proofs.PShift
import Verif.Proofs.PInst
/-!
# Several values that share nothing, one after the other
-/
namespace JP.Share
open JP PyM Pickler

variable {w : World} {cfg : PCfg}

/-- a value whose objects are not in the table -/
theorem run (H : Rules w cfg) (n : Nat) (v : Val) (s : PState) (hd : 0 ≤ s.depth) (hs : ∀ i ∈ s.objs, ¬ Reach w v i) :
    (flatten w cfg n v s = none ∧ flatten w cfg n v { depth := 0 } = none) ∨
    ∃ r s' t', flatten w cfg n v s = some (r.map (bump s.objs.length), s') ∧ flatten w cfg n v { depth := 0 } = some (r, t') ∧
      s'.objs = s.objs ++ t'.objs ∧ (∀ i ∈ t'.objs, Reach w v i) ∧ 0 ≤ s'.depth := by
  have := sim_flatten (A := Reach w v) (old := s.objs) H (reach_closed w v) (fun i hi hm => hs i hm hi) n v (reach_in w v) s { depth := 0 }
    ⟨by simp, (fun i hi => by cases hi), hd, Int.le_refl _⟩
  rcases this with h | ⟨r, r', s', t', h1, h2, h3, h4, -, -⟩
  · exact .inl h
  · refine .inr ⟨r', s', t', ?_, h2, h4.objs, h4.mine, h4.left⟩
    rw [h1]
    cases r with
    | error e =>
      cases r' with
      | ok b => exact h3.elim
      | error e' => have h3 : e = e' := h3; subst h3; rfl
    | ok a =>
      cases r' with
      | error e' => exact h3.elim
      | ok b => have h3 : a = bump s.objs.length b := h3; subst h3; rfl

/-- what several values give, with `n` as the bound -/
def Outcome (w : World) (cfg : PCfg) (n : Nat) (vs : List Val) (s : PState) : Option (Except Exc (List Json) × PState) → Prop
  | none => ∃ v ∈ vs, flatten w cfg n v { depth := 0 } = none
  | some (.ok js, s') => Docs (Gives w cfg) s.objs.length vs js ∧ 0 ≤ s'.depth
  | some (.error e, _) => Raises (Gives w cfg) vs e

theorem outcome (H : Rules w cfg) (n : Nat) : ∀ (vs : List Val) (s : PState), 0 ≤ s.depth → Apart w vs → (∀ v ∈ vs, ∀ i ∈ s.objs, ¬ Reach w v i) →
    Outcome w cfg n vs s (PyM.mapM (flatten w cfg n) vs s)
  | [], s, hd, _, _ => ⟨.nil, hd⟩
  | v :: vs, s, hd, ha, hs => by
    rw [mapM_cons, bind_run]
    rcases run H n v s hd (hs v (List.mem_cons_self ..)) with ⟨h1, h2⟩ | ⟨r, s', t', h1, h2, h3, h4, h5⟩
    · rw [h1]
      exact ⟨v, List.mem_cons_self .., h2⟩
    · rw [h1]
      cases r with
      | error e => exact ⟨[], v, vs, rfl, fun _ h => (by cases h), _, n, t', h2, rfl⟩
      | ok j =>
        simp only [Except.map]
        have ha' := List.pairwise_cons.1 ha
        have ih := outcome H n vs s' h5 ha'.2 (fun u hu i hi => by
          rw [h3] at hi
          rcases List.mem_append.1 hi with hi | hi
          · exact hs u (List.mem_cons_of_mem _ hu) i hi
          · exact ha'.1 u hu i (h4 i hi))
        have hg : Gives w cfg v (.ok j) t'.objs.length := ⟨n, t', h2, rfl⟩
        match hm : PyM.mapM (flatten w cfg n) vs s', ih with
        | none, ih =>
          rw [bind_run, hm]
          obtain ⟨u, hu, h⟩ := ih
          exact ⟨u, List.mem_cons_of_mem _ hu, h⟩
        | some (.error e, s2), ih =>
          rw [bind_run, hm]
          obtain ⟨pre, u, post, rfl, hp, hu⟩ := ih
          refine ⟨v :: pre, u, post, rfl, fun x hx => ?_, hu⟩
          rcases List.mem_cons.1 hx with rfl | hx
          · exact ⟨_, _, hg⟩
          · exact hp x hx
        | some (.ok js, s2), ih =>
          rw [bind_run, hm]
          refine ⟨.cons hg ?_, ih.2⟩
          have := ih.1
          rw [h3, List.length_append] at this
          exact this

theorem Gives.unique {v : Val} {r r' : Except Exc Json} {m m' : Nat} (h : Gives w cfg v r m) (h' : Gives w cfg v r' m') : r = r' ∧ m = m' := by
  obtain ⟨n, s, h, rfl⟩ := h
  obtain ⟨n', s', h', rfl⟩ := h'
  have a := flatten_mono (Nat.le_max_left n n') h
  have b := flatten_mono (Nat.le_max_right n n') h'
  rw [a] at b
  obtain ⟨e1, e2⟩ := Prod.mk.inj (Option.some.inj b)
  subst e1 e2
  exact ⟨rfl, rfl⟩

theorem Docs.unique {k : Nat} {vs : List Val} {js js' : List Json} (h : Docs (Gives w cfg) k vs js) (h' : Docs (Gives w cfg) k vs js') : js = js' := by
  induction h generalizing js' with
  | nil => cases h'; rfl
  | cons g _ ih =>
    cases h' with
    | cons g' h' =>
      obtain ⟨e1, e2⟩ := g.unique g'
      injection e1 with e1
      subst e1 e2
      rw [ih h']

theorem Docs.gives {k : Nat} {vs : List Val} {js : List Json} (h : Docs (Gives w cfg) k vs js) : ∀ v ∈ vs, ∃ j m, Gives w cfg v (.ok j) m := by
  induction h with
  | nil => intro v hv; cases hv
  | cons g _ ih =>
    intro v hv
    rcases List.mem_cons.1 hv with rfl | hv
    · exact ⟨_, _, g⟩
    · exact ih v hv

theorem Docs.quiet {k : Nat} {vs : List Val} {js : List Json} (h : Docs (Gives w cfg) k vs js) {e : Exc} (he : Raises (Gives w cfg) vs e) : False := by
  obtain ⟨pre, v, post, rfl, -, m, hv⟩ := he
  obtain ⟨j, m', h⟩ := h.gives v (List.mem_append.2 (.inr (List.mem_cons_self ..)))
  cases (h.unique hv).1

theorem Raises.unique : ∀ {vs : List Val} {e e' : Exc}, Raises (Gives w cfg) vs e → Raises (Gives w cfg) vs e' → e = e' := by
  rintro vs e e' ⟨pre, v, post, rfl, hp, m, hv⟩ ⟨pre', v', post', heq, hp', m', hv'⟩
  induction pre generalizing pre' with
  | nil =>
    cases pre' with
    | nil =>
      injection heq with h1 h2
      subst h1
      have := (hv.unique hv').1
      injection this
    | cons u pre' =>
      injection heq with h1 h2
      subst h1
      obtain ⟨j, m2, h⟩ := hp' _ (List.mem_cons_self ..)
      cases (h.unique hv).1
  | cons u pre ih =>
    cases pre' with
    | nil =>
      injection heq with h1 h2
      subst h1
      obtain ⟨j, m2, h⟩ := hp _ (List.mem_cons_self ..)
      cases (h.unique hv').1
    | cons u' pre' =>
      injection heq with h1 h2
      exact ih (fun x hx => hp x (List.mem_cons_of_mem _ hx)) pre' h2 (fun x hx => hp' x (List.mem_cons_of_mem _ hx))

/-- a bound that is enough for all -/
theorem bound : ∀ {vs : List Val}, (∀ v ∈ vs, ∃ r m, Gives w cfg v r m) → ∃ n, ∀ m, n ≤ m → ∀ v ∈ vs, flatten w cfg m v { depth := 0 } ≠ none
  | [], _ => ⟨0, fun _ _ _ h => by cases h⟩
  | v :: vs, h => by
    obtain ⟨r, k, n1, s, h1, -⟩ := h v (List.mem_cons_self ..)
    obtain ⟨n2, h2⟩ := bound (vs := vs) (fun u hu => h u (List.mem_cons_of_mem _ hu))
    refine ⟨max n1 n2, fun m hm u hu => ?_⟩
    rcases List.mem_cons.1 hu with rfl | hu
    · rw [flatten_mono (Nat.le_trans (Nat.le_max_left ..) hm) h1]
      exact fun h => by cases h
    · exact h2 m (Nat.le_trans (Nat.le_max_right ..) hm) u hu

/-- the documents of several values are what comes out, for large enough bounds -/
theorem run_docs (H : Rules w cfg) {vs : List Val} {s : PState} (hd : 0 ≤ s.depth) (ha : Apart w vs) (hs : ∀ v ∈ vs, ∀ i ∈ s.objs, ¬ Reach w v i)
    {js : List Json} (h : Docs (Gives w cfg) s.objs.length vs js) : ∃ n s', PyM.mapM (flatten w cfg n) vs s = some (.ok js, s') ∧ 0 ≤ s'.depth := by
  obtain ⟨n, hn⟩ := bound (fun v hv => (h.gives v hv).elim fun j h => ⟨.ok j, h⟩)
  have ho := outcome H n vs s hd ha hs
  match hm : PyM.mapM (flatten w cfg n) vs s, ho with
  | none, ho =>
    obtain ⟨v, hv, h0⟩ := ho
    exact (hn n (Nat.le_refl _) v hv h0).elim
  | some (.error e, s2), ho => exact (h.quiet ho).elim
  | some (.ok js', s2), ho =>
    rw [h.unique ho.1]
    exact ⟨n, s2, hm, ho.2⟩

/-- up to the value that raises, every run ends -/
theorem prefix_ends (H : Rules w cfg) {n : Nat} : ∀ (pre : List Val) (v : Val) (post : List Val) (s : PState), 0 ≤ s.depth → Apart w (pre ++ v :: post) →
    (∀ u ∈ pre ++ v :: post, ∀ i ∈ s.objs, ¬ Reach w u i) → (∀ u ∈ pre, ∃ j t, flatten w cfg n u { depth := 0 } = some (.ok j, t)) → ∀ {e : Exc} {t : PState},
    flatten w cfg n v { depth := 0 } = some (.error e, t) → ∃ s', PyM.mapM (flatten w cfg n) (pre ++ v :: post) s = some (.error e, s')
  | [], v, post, s, hd, _, hs, _, e, t, hv => by
    rw [List.nil_append, mapM_cons, bind_run]
    rcases run H n v s hd (hs v (List.mem_cons_self ..)) with ⟨h1, h2⟩ | ⟨r, s', t', h1, h2, -⟩
    · rw [h2] at hv; cases hv
    · rw [h2] at hv
      obtain ⟨e1, -⟩ := Prod.mk.inj (Option.some.inj hv)
      subst e1
      rw [h1]
      exact ⟨s', rfl⟩
  | u :: pre, v, post, s, hd, ha, hs, hp, e, t, hv => by
    rw [List.cons_append, mapM_cons, bind_run]
    obtain ⟨j, t1, hu⟩ := hp u (List.mem_cons_self ..)
    rcases run H n u s hd (hs u (List.mem_cons_self ..)) with ⟨h1, h2⟩ | ⟨r, s', t', h1, h2, h3, h4, h5⟩
    · rw [h2] at hu; cases hu
    · rw [h2] at hu
      obtain ⟨e1, -⟩ := Prod.mk.inj (Option.some.inj hu)
      subst e1
      rw [h1]
      have ha' := List.pairwise_cons.1 ha
      obtain ⟨s2, ih⟩ := prefix_ends H pre v post s' h5 ha'.2 (fun x hx i hi => by
        rw [h3] at hi
        rcases List.mem_append.1 hi with hi | hi
        · exact hs x (List.mem_cons_of_mem _ hx) i hi
        · exact ha'.1 x hx i (h4 i hi)) (fun x hx => hp x (List.mem_cons_of_mem _ hx)) hv
      simp only [Except.map]
      rw [bind_run, ih]
      exact ⟨s2, rfl⟩

theorem bound_ok : ∀ {vs : List Val}, (∀ v ∈ vs, ∃ j m, Gives w cfg v (.ok j) m) → ∃ n, ∀ m, n ≤ m → ∀ v ∈ vs, ∃ j t, flatten w cfg m v { depth := 0 } = some (.ok j, t)
  | [], _ => ⟨0, fun _ _ _ h => by cases h⟩
  | v :: vs, h => by
    obtain ⟨r, k, n1, s, h1, -⟩ := h v (List.mem_cons_self ..)
    obtain ⟨n2, h2⟩ := bound_ok (vs := vs) (fun u hu => h u (List.mem_cons_of_mem _ hu))
    refine ⟨max n1 n2, fun m hm u hu => ?_⟩
    rcases List.mem_cons.1 hu with rfl | hu
    · exact ⟨_, _, flatten_mono (Nat.le_trans (Nat.le_max_left ..) hm) h1⟩
    · exact h2 m (Nat.le_trans (Nat.le_max_right ..) hm) u hu

theorem run_raises (H : Rules w cfg) {vs : List Val} {s : PState} (hd : 0 ≤ s.depth) (ha : Apart w vs) (hs : ∀ v ∈ vs, ∀ i ∈ s.objs, ¬ Reach w v i)
    {e : Exc} (h : Raises (Gives w cfg) vs e) : ∃ n s', PyM.mapM (flatten w cfg n) vs s = some (.error e, s') := by
  obtain ⟨pre, v, post, rfl, hp, m, n1, t, hv, -⟩ := h
  obtain ⟨n2, h2⟩ := bound_ok hp
  exact ⟨max n1 n2, prefix_ends H pre v post s hd ha hs (h2 _ (Nat.le_max_right ..)) (flatten_mono (Nat.le_max_left ..) hv)⟩

end JP.Share
