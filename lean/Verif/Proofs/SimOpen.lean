import Verif.Proofs.SimDict
/-!
# Rebuilding an instance: from the placeholder to the constructed object
-/
namespace JP.Sim
open JP PyM Unpickler

variable {w : World} {cfg : PCfg} {env : UEnv}
variable {Bad : Ctx}
variable {fl : Val → P Json} {rs rs2 : Json → U Val}

theorem Rel.log {hS : Heap} {P : List Ident} {u : UState} (r : Rel hS Bad P u) (l : List Event) :
    Rel hS Bad P { u with log := l } :=
  ⟨r.len, r.nodup, r.addr, r.mod, r.lt, r.inj, r.idxAddr, r.idxMod, r.bad, r.serve, r.own, r.filled⟩

/-- placeholder registered -/
def proxU (u : UState) (l : List Event) : UState := { regU u (.proxy none) with log := l }

/-- the decoder's state after `proxy.reset(instance)` and `_swapref` -/
def openU (u2 : UState) (p k : Nat) (o : Obj) : UState :=
  { u2 with heap := (u2.heap ++ [o]).set p (.proxy (some (.ref u2.heap.length))), idx := (u2.idx.filter (fun q => q.1 != .addr p && q.1 != .addr u2.heap.length)) ++ [(.addr u2.heap.length, k)], objs := u2.objs.set k (.ref u2.heap.length) }

theorem idxGet_filter {i : Ident} {p : Ident × Nat → Bool} : ∀ {l : List (Ident × Nat)},
    (∀ n, p (i, n) = true) → idxGet i (l.filter p) = idxGet i l
  | [], _ => rfl
  | (j, n) :: l, h => by
    have ih := idxGet_filter (l := l) h
    unfold idxGet at ih ⊢
    by_cases e : j = i
    · subst e
      rw [List.filter_cons_of_pos (h n)]
      simp
    · cases hp : p (j, n) with
      | true =>
        rw [List.filter_cons_of_pos hp, List.find?_cons_of_neg (by simpa using e), List.find?_cons_of_neg (by simpa using e)]
        exact ih
      | false =>
        rw [List.filter_cons_of_neg (by simp [hp]), List.find?_cons_of_neg (by simpa using e)]
        exact ih

theorem idxGet_filter_some {i : Ident} {p : Ident × Nat → Bool} {l : List (Ident × Nat)} {k : Nat}
    (h : idxGet i (l.filter p) = some k) : (∃ n, (i, n) ∈ l) := by
  unfold idxGet at h
  cases hf : (l.filter p).find? (fun q => q.1 == i) with
  | none => rw [hf] at h; cases h
  | some q =>
    have h1 := List.find?_some hf
    have h2 := List.mem_of_find?_eq_some hf
    simp only [beq_iff_eq] at h1
    exact ⟨q.2, by rw [← h1]; exact (List.mem_filter.1 h2).1⟩

theorem idxGet_mem {i : Ident} {l : List (Ident × Nat)} (h : ∃ n, (i, n) ∈ l) : ∃ k, idxGet i l = some k := by
  obtain ⟨n, hn⟩ := h
  unfold idxGet
  cases hf : l.find? (fun q => q.1 == i) with
  | none =>
    rw [List.find?_eq_none] at hf
    have := hf _ hn
    simp at this
  | some q => exact ⟨q.2, rfl⟩

section
variable {a : Addr} {s s1 s2 : PState} {u u2 : UState} {lg : List Event} {o o0 : Obj}

/-- what is known when the constructor arguments have been restored -/
structure Args (w : World) (cfg : PCfg) (Bad : Ctx) (a : Addr) (s s2 : PState) (u u2 : UState) : Prop where
  rel : Rel w.heap Bad s.objs u
  fresh : Ident.addr a ∉ s.objs
  step : ∃ lg, Step w cfg [] (Bad.hold a) { s with objs := s.objs ++ [.addr a] } s2 (proxU u lg) u2

namespace Args
variable (h : Args w cfg Bad a s s2 u u2)
include h

theorem rel2 : Rel w.heap (Bad.hold a) s2.objs u2 := by obtain ⟨_, st⟩ := h.step; exact st.rel

theorem len : u.heap.length + 1 ≤ u2.heap.length := by
  obtain ⟨_, st⟩ := h.step
  have := st.ext.len
  simpa [proxU, regU] using this

theorem cell : u2.heap[u.heap.length]? = some (.proxy none) := by
  obtain ⟨_, st⟩ := h.step
  rw [st.ext.cells _ (by simp [proxU, regU]) (by simp)]
  simp [proxU, regU]

theorem pk : s2.objs[s.objs.length]? = some (.addr a) := by
  obtain ⟨_, st⟩ := h.step
  exact prefix_get st.objs (by simp)

theorem qk : u2.objs[u.objs.length]? = some (.ref u.heap.length) := by
  obtain ⟨_, st⟩ := h.step
  exact prefix_get st.ext.objs (by simp [proxU, regU])

theorem keq : s.objs.length = u.objs.length := h.rel.len

theorem idx : idxGet (.addr u.heap.length) u2.idx = some u.objs.length := by
  obtain ⟨_, st⟩ := h.step
  refine st.ext.idx _ _ ?_
  simp only [proxU, regU]
  rw [idxGet_append]
  cases hg : idxGet (.addr u.heap.length) u.idx with
  | none => simp
  | some n => exact absurd (h.rel.idxAddr _ _ hg) (Nat.lt_irrefl _)

theorem mono {o : Obj} : ∀ x y, Rof (Bad.hold a) s2.objs u2.objs x y →
    Rof Bad s2.objs (openU u2 u.heap.length u.objs.length o).objs x y := by
  rintro x y ⟨h1, k, h2, h3⟩
  refine ⟨fun h' => h1 (List.mem_cons_of_mem _ h'), k, h2, ?_⟩
  simp only [openU]
  rw [List.getElem?_set_ne]
  · exact h3
  · intro e
    subst e
    rw [← h.keq, h.pk] at h2
    injection h2 with h2
    injection h2 with h2
    exact h1 (h2 ▸ List.mem_cons_self)

theorem openRel (ho : w.heap[a]? = some o) (hk : SameKind o o0) (hi : ∃ i, o = .inst i := by exact ⟨_, rfl⟩) :
    Rel w.heap Bad s2.objs (openU u2 u.heap.length u.objs.length o0) := by
  have r := h.rel2
  have hne : ∀ (j b : Nat), j ≠ u.objs.length → u2.objs[j]? = some (.ref b) → b ≠ u.heap.length := fun j b hj hb e => by
    subst e
    exact hj (r.inj _ _ _ hb h.qk)
  have hlt := h.len
  have hklt : u.objs.length < u2.objs.length := get_lt h.qk
  have hget : ∀ (j b : Nat), (openU u2 u.heap.length u.objs.length o0).objs[j]? = some (.ref b) →
      (j = u.objs.length ∧ b = u2.heap.length) ∨ (j ≠ u.objs.length ∧ u2.objs[j]? = some (.ref b)) := by
    intro j b hj
    simp only [openU] at hj
    by_cases e : u.objs.length = j
    · subst e
      rw [List.getElem?_set_self hklt] at hj
      injection hj with hj
      injection hj with hj
      exact Or.inl ⟨rfl, hj.symm⟩
    · rw [List.getElem?_set_ne e] at hj
      exact Or.inr ⟨fun e' => e e'.symm, hj⟩
  refine ⟨by simp [openU, r.len], r.nodup, ?_, ?_, ?_, ?_, ?_, ?_, ?_, r.serve, r.own, ?_⟩
  · intro j a' hja
    by_cases e : j = u.objs.length
    · subst e
      rw [← h.keq, h.pk] at hja
      injection hja with hja
      injection hja with hja
      subst hja
      refine ⟨u2.heap.length, by simp only [openU]; rw [List.getElem?_set_self hklt], fun _ => ⟨o, o0, ho, ?_, hk⟩⟩
      simp only [openU]
      rw [List.getElem?_set_ne (by omega)]
      simp
    · obtain ⟨b, e1, e2⟩ := r.addr j a' hja
      refine ⟨b, by simp only [openU]; rw [List.getElem?_set_ne (fun h => e h.symm)]; exact e1, fun hn => ?_⟩
      have hne' : a' ≠ a := by
        intro e'
        subst e'
        exact e (by rw [← h.keq]; exact nodup_get r.nodup hja h.pk)
      obtain ⟨o1, o2, q1, q2, q3⟩ := e2 (by simp [Ctx.mem_hold, hne', hn])
      refine ⟨o1, o2, q1, ?_, q3⟩
      simp only [openU]
      rw [List.getElem?_set_ne (fun h => hne j b e e1 h.symm), List.getElem?_append_left (get_lt q2)]
      exact q2
  · intro j n hjn
    have := r.mod j n hjn
    simp only [openU]
    rw [List.getElem?_set_ne]
    · exact this
    · intro e
      subst e
      rw [h.qk] at this
      cases this
  · intro j b hj
    simp only [openU, List.length_set, List.length_append, List.length_cons, List.length_nil]
    rcases hget j b hj with ⟨_, e⟩ | ⟨_, e⟩
    · omega
    · have := r.lt _ _ e; omega
  · intro j j' b h1 h2
    rcases hget j b h1 with ⟨e1, e2⟩ | ⟨e1, e2⟩ <;> rcases hget j' b h2 with ⟨e3, e4⟩ | ⟨e3, e4⟩
    · omega
    · subst e2; exact absurd (r.lt _ _ e4) (Nat.lt_irrefl _)
    · subst e4; exact absurd (r.lt _ _ e2) (Nat.lt_irrefl _)
    · exact r.inj _ _ _ e2 e4
  · intro b j hj
    simp only [openU] at hj ⊢
    rw [idxGet_append] at hj
    simp only [List.length_set, List.length_append, List.length_cons, List.length_nil]
    cases hg : idxGet (.addr b) (u2.idx.filter (fun q => q.1 != .addr u.heap.length && q.1 != .addr u2.heap.length)) with
    | some n =>
      obtain ⟨k', hk'⟩ := idxGet_mem (idxGet_filter_some hg)
      have := r.idxAddr _ _ hk'
      omega
    | none =>
      rw [hg] at hj
      by_cases e : Ident.addr u2.heap.length = Ident.addr b
      · injection e with e; subst e; omega
      · simp [e] at hj
  · intro n j hj
    simp only [openU] at hj
    rw [idxGet_append] at hj
    cases hg : idxGet (.mod n) (u2.idx.filter (fun q => q.1 != .addr u.heap.length && q.1 != .addr u2.heap.length)) with
    | some n' =>
      obtain ⟨k', hk'⟩ := idxGet_mem (idxGet_filter_some hg)
      exact r.idxMod _ _ hk'
    | none => rw [hg] at hj; simp at hj
  · intro x hx
    exact r.bad x (List.mem_cons_of_mem _ hx)
  · intro j a' b hja hjb hn hn'
    by_cases e : a' = a
    · obtain ⟨i, rfl⟩ := hi
      exact Filled.inst (e ▸ ho)
    · rcases hget j b hjb with ⟨e1, _⟩ | ⟨e1, e2⟩
      · subst e1
        rw [← h.keq, h.pk] at hja
        injection hja with hja
        injection hja with hja
        exact absurd hja.symm e
      · have hn2 : a' ∉ Bad.hold a := by simp [Ctx.mem_hold, e, hn]
        refine (r.filled j a' b hja e2 hn2 hn').mono h.mono (Or.inr ?_)
        simp only [openU]
        rw [List.getElem?_set_ne (fun h => hne j b e1 e2 h.symm), List.getElem?_append_left (r.lt _ _ e2)]

theorem openExt (ho : ∀ n, o0 ≠ .idproxy n := by intro _ h; cases h) : Ext [] u (openU u2 u.heap.length u.objs.length o0) := by
  obtain ⟨lg, st⟩ := h.step
  have hlen := h.len
  refine ⟨?_, ?_, ?_, ?_, ?_, ?_⟩
  · simp only [openU, List.length_set, List.length_append, List.length_cons, List.length_nil]; omega
  · intro b hb _
    simp only [openU]
    rw [List.getElem?_set_ne (by omega), List.getElem?_append_left (by omega), st.ext.cells b (by simp [proxU, regU]; omega) (by simp)]
    simp only [proxU, regU]
    rw [List.getElem?_append_left hb]
  · have hpre : u.objs <+: u2.objs := List.IsPrefix.trans (by simp [proxU, regU]) st.ext.objs
    obtain ⟨t, ht⟩ := hpre
    simp only [openU]
    rw [← ht, List.set_append_right _ _ (Nat.le_refl _)]
    exact List.prefix_append _ _
  · intro i k hik
    have h1 : idxGet i u2.idx = some k := st.ext.idx i k (by simp only [proxU, regU]; rw [idxGet_append, hik]; rfl)
    simp only [openU]
    rw [idxGet_append, idxGet_filter, h1]
    · rfl
    · intro n
      simp only [Bool.and_eq_true, bne_iff_ne, ne_eq]
      constructor
      · intro e
        subst e
        exact absurd (h.rel.idxAddr _ _ hik) (Nat.lt_irrefl _)
      · intro e
        subst e
        have := h.rel.idxAddr _ _ hik
        omega
  · have : u2.proxies = u.proxies := st.ext.proxies
    exact this
  · intro b n hb
    simp only [openU] at hb
    by_cases e : u.heap.length = b
    · rw [← e, List.getElem?_set_self (by simp; omega)] at hb
      cases hb
    · rw [List.getElem?_set_ne e] at hb
      by_cases hb2 : b < u2.heap.length
      · rw [List.getElem?_append_left hb2] at hb
        have h1 := st.ext.idp b n hb
        simp only [proxU, regU] at h1
        by_cases hb3 : b < u.heap.length
        · rwa [List.getElem?_append_left hb3] at h1
        · rw [List.getElem?_append_right (by omega)] at h1
          have hm := List.mem_of_getElem? h1
          simp at hm
      · rw [List.getElem?_append_right (by omega)] at hb
        have hm := List.mem_of_getElem? hb
        simp only [List.mem_singleton] at hm
        exact absurd hm.symm (ho n)

theorem openCell : (openU u2 u.heap.length u.objs.length o0).heap[u2.heap.length]? = some o0 := by
  have := h.len
  simp only [openU]
  rw [List.getElem?_set_ne (by omega)]
  simp

/-- the object is complete -/
theorem close {s3 : PState} {u4 : UState} {o' : Obj}
    (hst : Step w cfg [u2.heap.length] Bad s2 s3 (openU u2 u.heap.length u.objs.length o0) u4)
    (h1 : w.heap[a]? = some o) (h3 : u4.heap[u2.heap.length]? = some o')
    (h5 : ∀ (i : Inst) (d : Nat), o' = .inst i → i.dictCell = some d → u.heap.length ≤ d ∧ d < u4.heap.length)
    (h6 : SameCell (orderOf cfg) (handledOf w) w.heap u4.heap (Rof Bad s3.objs u4.objs) o o')
    (ho : ∀ n, o0 ≠ .idproxy n := by intro _ h; cases h) :
    Step w cfg [] Bad s s3 u u4 := by
  obtain ⟨lg, st⟩ := h.step
  have hlen := h.len
  have hlen3 : (openU u2 u.heap.length u.objs.length o0).heap.length = u2.heap.length + 1 := by simp [openU]
  refine ⟨hst.depth.trans st.depth, ((List.prefix_append s.objs [Ident.addr a]).trans st.objs).trans hst.objs, hst.rel,
    (h.openExt ho).trans hst.ext (fun b hb hm => by simp only [List.mem_singleton] at hm; subst hm; omega), ?_, ?_⟩
  rotate_left
  · intro x hx
    rcases hst.own x hx with h' | h' | ⟨k, b, q1, q2, q3, q4⟩
    · rcases st.ownOk x h' with h' | h'
      · simp only [List.mem_append, List.mem_singleton] at h'
        rcases h' with h' | h'
        · exact Or.inl h'
        · cases h'
      · exact Or.inr (Or.inl (fun hm => h' (List.mem_append_left _ hm)))
    · exact Or.inr (Or.inl (fun hm => h' (st.objs.subset (List.mem_append_left _ hm))))
    · simp only [List.mem_singleton] at q1
      subst q1
      have hk : s3.objs[s.objs.length]? = some (.addr a) := prefix_get hst.objs h.pk
      have hk' : u4.objs[s.objs.length]? = some (.ref u2.heap.length) := by
        refine prefix_get hst.ext.objs ?_
        simp only [openU]
        rw [h.keq, List.getElem?_set_self (get_lt h.qk)]
      have e := hst.rel.inj _ _ _ q4 hk'
      subst e
      rw [hk] at q3
      injection q3 with q3
      injection q3 with q3
      subst q3
      exact Or.inr (Or.inl h.fresh)
  have hd := st.done
  simp only [List.length_append, List.length_cons, List.length_nil] at hd
  have hd2 := hst.done
  rw [hlen3] at hd2
  have hp0 : (proxU u lg).heap.length = u.heap.length + 1 := by simp [proxU, regU]
  rw [hp0] at hd
  refine (Done.weaken (Done.trans hd (u2 := u4) (Bad' := Bad) ?_ ?_ ?_ hst.objs ?_ hd2 (by omega)) (by omega : u.heap.length ≤ u.heap.length + 1)).close
    (prefix_get hst.objs h.pk) h1 ?_ h3 (by omega) h5 h6
  · intro c hc hc'
    rw [hst.ext.cells c (by omega) (by simp only [List.mem_singleton]; omega)]
    simp only [openU]
    rw [List.getElem?_set_ne (by omega), List.getElem?_append_left hc']
  · have := hst.ext.len; omega
  · intro x y hxy
    exact hst.mono x y (h.mono x y hxy)
  · intro k hk hk'
    have hkl : k < u2.objs.length := by rw [← h.rel2.len]; exact hk'
    have hne : u.objs.length ≠ k := by rw [← h.keq]; omega
    obtain ⟨t, ht⟩ := hst.ext.objs
    rw [← ht, List.getElem?_append_left (by simp [openU]; exact hkl)]
    simp only [openU]
    rw [List.getElem?_set_ne hne]
  · refine prefix_get hst.ext.objs ?_
    simp only [openU]
    rw [h.keq, List.getElem?_set_self (get_lt h.qk)]

theorem iso_new {s3 : PState} {u4 : UState} {X : List Addr}
    (hst : Step w cfg X Bad s2 s3 (openU u2 u.heap.length u.objs.length o0) u4) (hb : a ∉ Bad) :
    Rof Bad s3.objs u4.objs a u2.heap.length := by
  refine ⟨hb, s.objs.length, prefix_get hst.objs h.pk, prefix_get hst.ext.objs ?_⟩
  simp only [openU]
  rw [h.keq, List.getElem?_set_self (get_lt h.qk)]

/-- the three operations -/
theorem run {β : Type} (f : Addr → U β) :
    (alloc o0 >>= fun b => setCell u.heap.length (.proxy (some (.ref b))) >>= fun _ =>
      swapref u.heap.length (.ref b) >>= fun _ => f b) u2 = f u2.heap.length (openU u2 u.heap.length u.objs.length o0) := by
  rw [bind_ok (alloc_run _), bind_ok (setCell_run _ _ _)]
  refine bind_ok (a := ()) ?_
  simp only [swapref, h.idx]
  rfl

end Args
end
end JP.Sim
