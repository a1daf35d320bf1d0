import Verif.PathSpec
import Verif.Proofs.SimBase
/-! # Isomorphic graphs agree on all access paths -/
namespace JP
open Sim

variable {handled : Str → Bool} {hS hT : Heap} {R : Addr → Addr → Prop}

theorem All2.get {α β : Type} {p : α → β → Prop} : ∀ {xs : List α} {ys : List β}, All2 p xs ys → ∀ {n : Nat} {x : α}, xs[n]? = some x →
    ∃ y, ys[n]? = some y ∧ p x y
  | x :: xs, y :: ys, h, 0, z, hz => by
    simp only [List.getElem?_cons_zero, Option.some.injEq] at hz
    subst hz
    exact ⟨y, rfl, h.1⟩
  | x :: xs, y :: ys, h, n + 1, z, hz => by
    simp only [List.getElem?_cons_succ] at hz ⊢
    exact All2.get h.2 hz

/-- an element of a rebuilt recipe is not a function named `__newobj__` -/
theorem recipe_iso {xs vals : List Val} (h : VIsos R (recipe p!"py/newobj" xs) vals) : recipe p!"py/newobj" vals = vals := by
  have h2 := VIsos_iff.1 h
  have hlen : ∀ {α β : Type} {p : α → β → Prop} {xs : List α} {ys : List β}, All2 p xs ys → xs.length = ys.length := by
    intro α β p xs
    induction xs with
    | nil => intro ys h; cases ys <;> simp_all [All2]
    | cons x xs ih => intro ys h; cases ys with
      | nil => simp [All2] at h
      | cons y ys => simp [ih h.2]
  have hl := hlen h2
  have h6 : 6 ≤ vals.length := by
    rw [← hl]
    unfold recipe
    split
    · split <;> simp <;> omega
    · simp; omega
  have e0 : 6 - vals.length = 0 := by omega
  unfold recipe
  rw [e0]
  simp only [List.replicate_zero, List.append_nil]
  split
  · next n r =>
    split
    · next hn =>
      exfalso
      unfold recipe at h
      split at h
      · split at h
        · simp [VIsos, VIso] at h
        · next hn' =>
          simp only [List.cons_append, VIsos, VIso] at h
          rw [h.1] at hn'
          exact hn' hn
      · next hne =>
        cases xs with
        | nil => simp [VIsos, VIso, List.replicate] at h
        | cons x xs =>
          simp only [List.cons_append, VIsos] at h
          cases x <;> simp only [VIso, false_and] at h
          exact hne _ _ rfl
    · rfl
  · rfl

variable {order : List (Val × Val) → List (Val × Val)}

theorem savedState_some {h : Heap} {i : Inst} {st : Val} (q : savedState h i = some st) : i.state = .ok st := by
  unfold savedState at q
  split at q
  · split at q
    · next hst =>
      split at q
      · cases q; exact hst
      · cases q
    · cases q
  · cases q

theorem savedAttrs_nostate {h : Heap} {i : Inst} (q : savedState h i = none) : savedAttrs h i = instAttrs h i := by
  unfold savedAttrs
  rw [q]
  cases i.info.hasSetstate <;> rfl

theorem savedState_of_none {h : Heap} {i : Inst} (q : i.state = .ok .none) : savedState h i = none := by
  unfold savedState
  rw [q]
  simp [truthy]

theorem savedAttrs_none {h : Heap} {i : Inst} (q : i.state = .ok .none) : savedAttrs h i = instAttrs h i :=
  savedAttrs_nostate (savedState_of_none q)

theorem savedAttrs_dict {h : Heap} {i : Inst} {d : Addr} {kvs : List (Val × Val)} (q1 : i.info.hasSetstate = false)
    (q2 : savedState h i = some (.ref d)) (q3 : h[d]? = some (.dict kvs)) : savedAttrs h i = kvs := by
  unfold savedAttrs
  rw [q1, q2]
  simp only [q3]

theorem access_iso (hR : ∀ a b, R a b → ∃ o o', hS[a]? = some o ∧ hT[b]? = some o' ∧ SameCell order handled hS hT R o o')
    {v x : Val} (hv : VIso R v x) {p : Access} {y : Val} (h : access order (saved handled hS) hS v p = some y) :
    ∃ z, access id anyPart hT x p = some z ∧ VIso R y z := by
  cases v with
  | tuple i xs =>
    cases x <;> simp only [VIso] at hv
    cases p <;> simp only [access, reduceCtorEq] at h
    exact All2.get (VIsos_iff.1 hv) h
  | set i xs =>
    cases x <;> simp only [VIso] at hv
    cases p <;> simp only [access, reduceCtorEq] at h
    exact All2.get (VIsos_iff.1 hv) h
  | ref a =>
    cases x <;> simp only [VIso] at hv
    rename_i b
    obtain ⟨o, o', h1, h2, h3⟩ := hR a b hv
    simp only [access, h1] at h
    simp only [access, h2]
    cases o with
    | list xs =>
      cases o' <;> simp only [SameCell] at h3
      cases p <;> simp only [reduceCtorEq] at h
      exact All2.get (VIsos_iff.1 h3) h
    | dict kvs =>
      cases o' <;> simp only [SameCell] at h3
      cases p <;> simp only [reduceCtorEq, Option.map_eq_some_iff] at h
      obtain ⟨kv, e1, e2⟩ := h
      obtain ⟨kv', e3, e4⟩ := All2.get h3 e1
      exact ⟨kv'.2, by simp [e3], e2 ▸ e4.2⟩
    | inst i =>
      cases o' with
      | inst i' =>
        simp only [SameCell] at h3
        simp only [anyPart, if_true] at h ⊢
        by_cases hb : saved handled hS i p = true
        · rw [if_pos hb] at h
          cases p with
          | elem n =>
            simp only [saved, Bool.and_eq_true, Bool.not_eq_true', Option.isNone_iff_eq_none] at hb
            cases h3 with
            | handled q => rw [hb.1.1] at q; cases q
            | reduced _ q => rw [hb.1.2] at q; cases q
            | state _ _ _ _ q => rw [hb.2] at q; cases q
            | stateAttrs _ _ _ _ q => rw [hb.2] at q; cases q
            | fields _ _ _ _ _ q1 q2 q3 _ _ => exact All2.get (VIsos_iff.1 q3) h
          | entry n =>
            simp only [saved, Bool.and_eq_true, Bool.not_eq_true', Option.isNone_iff_eq_none] at hb
            cases h3 with
            | handled q => rw [hb.1.1] at q; cases q
            | reduced _ q => rw [hb.1.2] at q; cases q
            | state _ _ _ _ q => rw [hb.2] at q; cases q
            | stateAttrs _ _ _ _ q => rw [hb.2] at q; cases q
            | fields _ _ _ _ _ q1 q2 q3 _ _ =>
              simp only [instPart, Option.map_eq_some_iff] at h
              obtain ⟨kv, e1, e2⟩ := h
              obtain ⟨kv', e3, e4⟩ := All2.get q2 e1
              exact ⟨kv'.2, by simp [instPart, e3], e2 ▸ e4.2⟩
          | attr n =>
            simp only [saved, Bool.and_eq_true, Bool.not_eq_true', Bool.or_eq_true, Option.isNone_iff_eq_none] at hb
            cases h3 with
            | handled q => rw [hb.1.1] at q; cases q
            | reduced _ q => rw [hb.1.2] at q; cases q
            | state _ _ _ q q' =>
              rcases hb.2 with e | e
              · rw [e] at q; cases q
              · rw [e] at q'; cases q'
            | stateAttrs _ _ _ q1 q2 q3 q4 q5 q6 =>
              simp only [instPart, Option.map_eq_some_iff, savedAttrs_dict q1 q2 q3] at h
              simp only [instPart, savedAttrs_none q4, instAttrs, q6]
              obtain ⟨kv, e1, e2⟩ := h
              rw [List.getElem?_map, Option.map_eq_some_iff] at e1
              obtain ⟨e, e1, e3⟩ := e1
              obtain ⟨kv', e4, e5⟩ := All2.get q5 e1
              refine ⟨kv'.2, by simp [e4], ?_⟩
              subst e3
              exact e2 ▸ e5.2
            | fields _ _ _ q0 q0' q1 q2 q3 _ _ =>
              simp only [instPart, Option.map_eq_some_iff, savedAttrs_nostate q0] at h
              obtain ⟨kv, e1, e2⟩ := h
              obtain ⟨kv', e3, e4⟩ := All2.get q1 e1
              exact ⟨kv'.2, by simp [instPart, savedAttrs_none q0', e3], e2 ▸ e4.2⟩
          | state =>
            simp only [saved, Bool.and_eq_true, Bool.not_eq_true', Option.isSome_iff_ne_none] at hb
            cases h3 with
            | handled q => rw [hb.1.1.1] at q; cases q
            | reduced _ q => rw [hb.1.1.2] at q; cases q
            | fields _ _ _ q => exact absurd q hb.2
            | stateAttrs _ _ _ q => rw [hb.1.2] at q; cases q
            | state _ _ _ _ q q' q'' _ =>
              refine ⟨_, by simp only [instPart, q']; rfl, ?_⟩
              simp only [instPart, savedState_some q] at h
              cases h
              exact q''
          | recipe n =>
            simp only [saved, Bool.and_eq_true, Bool.not_eq_true'] at hb
            cases h3 with
            | handled q => rw [hb.1] at q; cases q
            | state _ q => rw [hb.2] at q; cases q
            | stateAttrs _ q => rw [hb.2] at q; cases q
            | fields _ q => rw [hb.2] at q; cases q
            | reduced _ _ q q' q'' =>
              simp only [instPart, q, q'] at h ⊢
              rw [recipe_iso q'']
              exact All2.get (VIsos_iff.1 q'') h
          | field n =>
            simp only [saved] at hb
            cases h3 with
            | reduced q => rw [hb] at q; cases q
            | state q => rw [hb] at q; cases q
            | stateAttrs q => rw [hb] at q; cases q
            | fields q => rw [hb] at q; cases q
            | handled _ _ _ q =>
              simp only [instPart, Option.map_eq_some_iff] at h
              obtain ⟨kv, e1, e2⟩ := h
              obtain ⟨kv', e3, e4⟩ := All2.get q e1
              exact ⟨kv'.2, by simp [instPart, e3], e2 ▸ e4.2⟩
        · rw [if_neg hb] at h; cases h
      | list | dict | proxy | idproxy => simp only [SameCell] at h3
    | proxy | idproxy => cases h
  | _ => cases p <;> simp only [access, reduceCtorEq] at h

theorem walk_iso (hR : ∀ a b, R a b → ∃ o o', hS[a]? = some o ∧ hT[b]? = some o' ∧ SameCell order handled hS hT R o o') :
    ∀ (ps : List Access) {v x : Val}, VIso R v x → ∀ {y}, walk order (saved handled hS) hS v ps = some y →
    ∃ z, walk id anyPart hT x ps = some z ∧ VIso R y z
  | [], _, _, hv, _, h => by cases h; exact ⟨_, rfl, hv⟩
  | p :: ps, _, _, hv, _, h => by
    simp only [walk, Option.bind_eq_some_iff] at h
    obtain ⟨y1, e1, e2⟩ := h
    obtain ⟨z1, e3, e4⟩ := access_iso hR hv e1
    obtain ⟨z, e5, e6⟩ := walk_iso hR ps e4 e2
    exact ⟨z, by simp [walk, e3, e5], e6⟩

/-- the part of an isomorphic graph found under a path is isomorphic to what the path finds in the original -/
theorem SameGraph.sub {v x y : Val} (h : SameGraph order handled hS v hT x) {ps : List Access}
    (hy : walk order (saved handled hS) hS v ps = some y) :
    ∃ z, walk id anyPart hT x ps = some z ∧ SameGraph order handled hS y hT z := by
  obtain ⟨R, f, g, hv, hR⟩ := h
  obtain ⟨z, h1, h2⟩ := walk_iso hR ps hv hy
  exact ⟨z, h1, R, f, g, h2, hR⟩

/-- two paths lead to the same object of the original exactly if they do in the isomorphic graph -/
theorem SameGraph.sharing {v x : Val} (h : SameGraph order handled hS v hT x) {ps qs : List Access} {a a' : Addr}
    (hp : walk order (saved handled hS) hS v ps = some (.ref a)) (hq : walk order (saved handled hS) hS v qs = some (.ref a')) :
    ∃ b b', walk id anyPart hT x ps = some (.ref b) ∧ walk id anyPart hT x qs = some (.ref b') ∧ (a = a' ↔ b = b') := by
  obtain ⟨R, f, g, hv, hR⟩ := h
  obtain ⟨z, h1, h2⟩ := walk_iso hR ps hv hp
  obtain ⟨z', h3, h4⟩ := walk_iso hR qs hv hq
  cases z <;> simp only [VIso] at h2
  cases z' <;> simp only [VIso] at h4
  refine ⟨_, _, h1, h3, ?_, ?_⟩
  · rintro rfl; exact f _ _ _ h2 h4
  · rintro rfl; exact g _ _ _ h2 h4

/-- the object found under a path -/
theorem SameGraph.cell {v x : Val} (h : SameGraph order handled hS v hT x) {ps : List Access} {a : Addr} {o : Obj}
    (hp : walk order (saved handled hS) hS v ps = some (.ref a)) (ho : hS[a]? = some o) :
    ∃ R b o', (∀ a b b', R a b → R a b' → b = b') ∧ (∀ a a' b, R a b → R a' b → a = a') ∧
      (∀ a b, R a b → ∃ o o', hS[a]? = some o ∧ hT[b]? = some o' ∧ SameCell order handled hS hT R o o') ∧
      walk id anyPart hT x ps = some (.ref b) ∧ hT[b]? = some o' ∧ SameCell order handled hS hT R o o' := by
  obtain ⟨R, f, g, hv, hR⟩ := h
  obtain ⟨z, h1, h2⟩ := walk_iso hR ps hv hp
  cases z <;> simp only [VIso] at h2
  rename_i b
  obtain ⟨o1, o', e1, e2, e3⟩ := hR a b h2
  rw [ho] at e1
  cases e1
  exact ⟨R, b, o', f, g, hR, h1, e2, e3⟩

theorem All2.get' {α β : Type} {p : α → β → Prop} : ∀ {xs : List α} {ys : List β}, All2 p xs ys → ∀ {n : Nat} {y : β}, ys[n]? = some y →
    ∃ x, xs[n]? = some x ∧ p x y
  | x :: xs, y :: ys, h, 0, z, hz => by
    simp only [List.getElem?_cons_zero, Option.some.injEq] at hz
    subst hz
    exact ⟨x, rfl, h.1⟩
  | x :: xs, y :: ys, h, n + 1, z, hz => by
    simp only [List.getElem?_cons_succ] at hz ⊢
    exact All2.get' h.2 hz
  | [], _ :: _, h, _, _, _ => h.elim

theorem savedState_truthy {h : Heap} {i : Inst} {st : Val} (q : savedState h i = some st) : truthy h st = true := by
  unfold savedState at q
  split at q
  · split at q
    · split at q
      · next ht => cases q; exact ht
      · cases q
    · cases q
  · cases q

/-- what one finds in the rebuilt graph corresponds to something in the original -/
theorem access_back (hR : ∀ a b, R a b → ∃ o o', hS[a]? = some o ∧ hT[b]? = some o' ∧ SameCell order handled hS hT R o o')
    {v x : Val} (hv : VIso R v x) {p : Access} {z : Val} (h : access id (filled handled) hT x p = some z) :
    ∃ y, access order (saved handled hS) hS v p = some y ∧ VIso R y z := by
  cases x with
  | tuple i xs =>
    cases v <;> simp only [VIso] at hv
    cases p <;> simp only [access, reduceCtorEq] at h
    exact All2.get' (VIsos_iff.1 hv) h
  | set i xs =>
    cases v <;> simp only [VIso] at hv
    cases p <;> simp only [access, reduceCtorEq] at h
    exact All2.get' (VIsos_iff.1 hv) h
  | ref b =>
    cases v <;> simp only [VIso] at hv
    rename_i a
    obtain ⟨o, o', h1, h2, h3⟩ := hR a b hv
    simp only [access, h2] at h
    simp only [access, h1]
    cases o' with
    | list xs =>
      cases o <;> simp only [SameCell] at h3
      cases p <;> simp only [reduceCtorEq] at h
      exact All2.get' (VIsos_iff.1 h3) h
    | dict kvs =>
      cases o <;> simp only [SameCell] at h3
      cases p <;> simp only [reduceCtorEq, Option.map_eq_some_iff] at h
      obtain ⟨kv, e1, e2⟩ := h
      obtain ⟨kv', e3, e4⟩ := All2.get' h3 e1
      exact ⟨kv'.2, by simp [e3], e2 ▸ e4.2⟩
    | inst i' =>
      cases o with
      | inst i =>
        simp only [SameCell] at h3
        simp only at h ⊢
        by_cases hb : filled handled i' p = true
        · rw [if_pos hb] at h
          cases h3 with
          | handled q1 q2 q3 q4 =>
            simp only [filled, q3, q2, q1, if_true] at hb
            cases p <;> simp only [Bool.false_eq_true] at hb
            rw [if_pos (by simp [saved, q1])]
            simp only [instPart, Option.map_eq_some_iff] at h
            obtain ⟨kv, e1, e2⟩ := h
            obtain ⟨kv', e3, e4⟩ := All2.get' q4 e1
            exact ⟨kv'.2, by simp [instPart, e3], e2 ▸ e4.2⟩
          | reduced q1 q2 q3 q4 q5 =>
            simp only [filled, q4] at hb
            cases p <;> simp only [Bool.false_eq_true] at hb
            rw [if_pos (by simp [saved, q1, q2])]
            simp only [instPart, q4, q3] at h ⊢
            rw [recipe_iso q5] at h
            exact All2.get' (VIsos_iff.1 q5) h
          | @state st st' q1 q2 q3 q4 q5 q6 q7 q8 =>
            have hne : st' ≠ .none := by
              rintro rfl
              cases st <;> simp only [VIso] at q7
              have := savedState_truthy q5
              simp [truthy] at this
            have hp : p = .state := by
              unfold filled at hb
              rw [q8.noReduce, q3, q1, q6] at hb
              cases st' <;> first | exact absurd rfl hne | (cases p <;> first | rfl | simp at hb)
            subst hp
            rw [if_pos (by simp [saved, q1, q2, q4, q5])]
            simp only [instPart, q6] at h
            cases h
            exact ⟨st, by simp only [instPart, savedState_some q5], q7⟩
          | stateAttrs q1 q2 q3 q4 q5 q6 q7 q8 q9 q10 q11 q12 q13 =>
            simp only [filled, q13.noReduce, q3, q1, q7, Bool.false_eq_true, if_false] at hb
            cases p with
            | elem n => simp [instPart, q11] at h
            | entry n => simp [instPart, q10] at h
            | attr n =>
              rw [if_pos (by simp [saved, q1, q2, q4])]
              simp only [instPart, savedAttrs_none q7, instAttrs, q9, Option.map_eq_some_iff] at h
              simp only [instPart, savedAttrs_dict q4 q5 q6]
              obtain ⟨kv, e1, e2⟩ := h
              rw [List.getElem?_map, Option.map_eq_some_iff] at e1
              obtain ⟨e, e1, e3⟩ := e1
              obtain ⟨kv', e4, e5⟩ := All2.get' q8 e1
              refine ⟨kv'.2, by simp [e4], ?_⟩
              subst e3
              exact e2 ▸ e5.2
            | state | recipe | field => simp at hb
          | fields q1 q2 q3 q4 q5 q6 q7 q8 q9 q10 =>
            simp only [filled, q10.noReduce, q3, q1, q5, Bool.false_eq_true, if_false] at hb
            have hs : ∀ p : Access, (∃ n, p = .elem n ∨ p = .entry n ∨ p = .attr n) → saved handled hS i p = true := by
              rintro p ⟨n, rfl | rfl | rfl⟩ <;> simp [saved, q1, q2, q4]
            cases p with
            | elem n =>
              rw [if_pos (hs _ ⟨n, .inl rfl⟩)]
              exact All2.get' (VIsos_iff.1 q8) h
            | entry n =>
              rw [if_pos (hs _ ⟨n, .inr (.inl rfl)⟩)]
              simp only [instPart, Option.map_eq_some_iff] at h
              obtain ⟨kv, e1, e2⟩ := h
              obtain ⟨kv', e3, e4⟩ := All2.get' q7 e1
              exact ⟨kv'.2, by simp [instPart, e3], e2 ▸ e4.2⟩
            | attr n =>
              rw [if_pos (hs _ ⟨n, .inr (.inr rfl)⟩)]
              simp only [instPart, savedAttrs_none q5, Option.map_eq_some_iff] at h
              obtain ⟨kv, e1, e2⟩ := h
              obtain ⟨kv', e3, e4⟩ := All2.get' q6 e1
              exact ⟨kv'.2, by simp [instPart, savedAttrs_nostate q4, e3], e2 ▸ e4.2⟩
            | state | recipe | field => simp at hb
        · rw [if_neg hb] at h; cases h
      | list | dict | proxy | idproxy => simp only [SameCell] at h3
    | proxy | idproxy => cases h
  | _ => cases p <;> simp only [access, reduceCtorEq] at h

theorem walk_back (hR : ∀ a b, R a b → ∃ o o', hS[a]? = some o ∧ hT[b]? = some o' ∧ SameCell order handled hS hT R o o') :
    ∀ (ps : List Access) {v x : Val}, VIso R v x → ∀ {z}, walk id (filled handled) hT x ps = some z →
    ∃ y, walk order (saved handled hS) hS v ps = some y ∧ VIso R y z
  | [], _, _, hv, _, h => by cases h; exact ⟨_, rfl, hv⟩
  | p :: ps, _, _, hv, _, h => by
    simp only [walk, Option.bind_eq_some_iff] at h
    obtain ⟨y1, e1, e2⟩ := h
    obtain ⟨z1, e3, e4⟩ := access_back hR hv e1
    obtain ⟨z, e5, e6⟩ := walk_back hR ps e4 e2
    exact ⟨z, by simp [walk, e3, e5], e6⟩

end JP
