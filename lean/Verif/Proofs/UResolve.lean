import Verif.Proofs.UTolerant
import Verif.Proofs.UDenote
/-!
# Placeholders are replaced in lists and dicts
-/
namespace JP.Unpickler
open JP PyM

/-- the value does not refer to a cell that does not exist yet -/
def InR (h : Heap) (v : Val) : Prop := ∀ p : Nat, v = .ref p → p < h.length

/-- placeholders held by lists and dicts are in the list `R` -/
structure Listed (h : Heap) (R : List (Addr × Slot × Addr)) : Prop where
  list : ∀ (a : Addr) vs, h[a]? = some (.list vs) → ∀ (i : Nat) v, vs[i]? = some v → InR h v ∧ ∀ p, proxyAddr h v = some p → (a, .idx i, p) ∈ R
  dict : ∀ (a : Addr) es, h[a]? = some (.dict es) → ∀ k v, (k, v) ∈ es → (∃ s, k = .str s) ∧ InR h v ∧ ∀ p, proxyAddr h v = some p → (a, .key k, p) ∈ R
  nodup : ∀ (a : Addr) es, h[a]? = some (.dict es) → (es.map (·.1)).Nodup
  noProxy : ∀ (p : Addr) v, h[p]? ≠ some (.proxy v)
  slots : ∀ e ∈ R, (∃ i, e.2.1 = .idx i) ∨ ∃ k, e.2.1 = .key (.str k)

/-- the invariant of decoding -/
structure Inv (s : UState) : Prop where
  listed : Listed s.heap s.proxies
  objs : ∀ v ∈ s.objs, InR s.heap v ∧ proxyAddr s.heap v = none

theorem InR.mono {h h' : Heap} (hl : h.length ≤ h'.length) {v : Val} (hi : InR h v) : InR h' v := fun p hp => Nat.lt_of_lt_of_le (hi p hp) hl

/-- an object that is not a placeholder -/
def NotProxy (o : Obj) : Prop := (∀ v, o ≠ .proxy v) ∧ ∀ n, o ≠ .idproxy n

theorem proxyAddr_append {h : Heap} {new : Heap} {v : Val} (hi : InR h v) : proxyAddr (h ++ new) v = proxyAddr h v := by
  cases v with
  | ref p => simp only [proxyAddr, List.getElem?_append_left (hi p rfl)]
  | _ => rfl

theorem proxyAddr_set {h : Heap} {a : Addr} {o : Obj} (ho : NotProxy o) {v : Val} {p : Addr} (hp : proxyAddr (h.set a o) v = some p) : proxyAddr h v = some p := by
  cases v with
  | ref q =>
    simp only [proxyAddr] at hp ⊢
    by_cases he : a = q
    · subst he
      by_cases hl : (a : Nat) < h.length
      · rw [List.getElem?_set, if_pos rfl, if_pos hl] at hp
        cases o with
        | proxy v => exact absurd rfl (ho.1 v)
        | idproxy n => exact absurd rfl (ho.2 n)
        | _ => cases hp
      · rw [List.getElem?_set, if_pos rfl, if_neg hl] at hp
        cases hp
    · rw [List.getElem?_set, if_neg he] at hp
      exact hp
  | _ => cases hp

theorem Listed.mono {h : Heap} {R R' : List (Addr × Slot × Addr)} (hl : Listed h R) (hr : ∀ e ∈ R, e ∈ R')
    (hs : ∀ e ∈ R', (∃ i, e.2.1 = .idx i) ∨ ∃ k, e.2.1 = .key (.str k)) : Listed h R' where
  list a vs ha i v hv := ⟨(hl.list a vs ha i v hv).1, fun p hp => hr _ ((hl.list a vs ha i v hv).2 p hp)⟩
  dict a es ha k v hv := ⟨(hl.dict a es ha k v hv).1, (hl.dict a es ha k v hv).2.1, fun p hp => hr _ ((hl.dict a es ha k v hv).2.2 p hp)⟩
  nodup := hl.nodup
  noProxy := hl.noProxy
  slots := hs

/-- a new cell without placeholders inside -/
theorem Listed.alloc {h : Heap} {R} (hl : Listed h R) {o : Obj} (ho : ∀ v, o ≠ .proxy v) (h1 : ∀ vs, o = .list vs → vs = []) (h2 : ∀ es, o = .dict es → es = []) :
    Listed (h ++ [o]) R where
  list a vs ha i v hv := by
    rcases Nat.lt_trichotomy a h.length with hlt | he | hgt
    · rw [List.getElem?_append_left hlt] at ha
      have := hl.list a vs ha i v hv
      exact ⟨this.1.mono (by simp), fun p hp => this.2 p (by rwa [proxyAddr_append this.1] at hp)⟩
    · rw [he] at ha
      simp only [List.getElem?_concat_length, Option.some.injEq] at ha
      rw [h1 vs ha] at hv; cases hv
    · rw [List.getElem?_eq_none (by simp; exact hgt)] at ha; cases ha
  dict a vs ha i v hv := by
    rcases Nat.lt_trichotomy a h.length with hlt | he | hgt
    · rw [List.getElem?_append_left hlt] at ha
      have := hl.dict a vs ha i v hv
      exact ⟨this.1, this.2.1.mono (by simp), fun p hp => this.2.2 p (by rwa [proxyAddr_append this.2.1] at hp)⟩
    · rw [he] at ha
      simp only [List.getElem?_concat_length, Option.some.injEq] at ha
      rw [h2 vs ha] at hv; cases hv
    · rw [List.getElem?_eq_none (by simp; exact hgt)] at ha; cases ha
  nodup a es ha := by
    rcases Nat.lt_trichotomy a h.length with hlt | he | hgt
    · rw [List.getElem?_append_left hlt] at ha
      exact hl.nodup a es ha
    · rw [he] at ha
      simp only [List.getElem?_concat_length, Option.some.injEq] at ha
      rw [h2 es ha]; exact .nil
    · rw [List.getElem?_eq_none (by simp; exact hgt)] at ha; cases ha
  noProxy p v hp := by
    rcases Nat.lt_trichotomy p h.length with hlt | he | hgt
    · rw [List.getElem?_append_left hlt] at hp
      exact hl.noProxy p v hp
    · rw [he] at hp
      simp only [List.getElem?_concat_length, Option.some.injEq] at hp
      exact ho v hp
    · rw [List.getElem?_eq_none (by simp; exact hgt)] at hp; cases hp
  slots := hl.slots

/-- a list cell is overwritten -/
theorem Listed.setList {h : Heap} {R R'} (hl : Listed h R) {a : Addr} {vs : List Val} (hi : ∀ v ∈ vs, InR h v) (hr : ∀ e ∈ R, (∀ i, e.2.1 = .idx i → e.1 ≠ a) → e ∈ R')
    (hn : ∀ (i : Nat) v, vs[i]? = some v → ∀ p, proxyAddr (h.set a (.list vs)) v = some p → (a, .idx i, p) ∈ R')
    (hs : ∀ e ∈ R', (∃ i, e.2.1 = .idx i) ∨ ∃ k, e.2.1 = .key (.str k)) : Listed (h.set a (.list vs)) R' where
  list x ws hx i v hv := by
    by_cases he : x = a
    · subst he
      rw [List.getElem?_set, if_pos rfl] at hx
      split at hx
      · cases hx
        exact ⟨(hi v (List.mem_of_getElem? hv)).mono (by simp), hn i v hv⟩
      · cases hx
    · rw [List.getElem?_set, if_neg (Ne.symm he)] at hx
      have := hl.list x ws hx i v hv
      exact ⟨this.1.mono (by simp), fun p hp => hr _ (this.2 p (proxyAddr_set ⟨(fun _ h => by cases h), (fun _ h => by cases h)⟩ hp)) (fun _ _ => he)⟩
  dict x es hx k v hv := by
    by_cases he : x = a
    · subst he
      rw [List.getElem?_set, if_pos rfl] at hx
      split at hx <;> cases hx
    · rw [List.getElem?_set, if_neg (Ne.symm he)] at hx
      have := hl.dict x es hx k v hv
      exact ⟨this.1, this.2.1.mono (by simp), fun p hp => hr _ (this.2.2 p (proxyAddr_set ⟨(fun _ h => by cases h), (fun _ h => by cases h)⟩ hp)) (fun _ _ => he)⟩
  nodup x es hx := by
    by_cases he : x = a
    · subst he
      rw [List.getElem?_set, if_pos rfl] at hx
      split at hx <;> cases hx
    · rw [List.getElem?_set, if_neg (Ne.symm he)] at hx
      exact hl.nodup x es hx
  noProxy p v hp := by
    rw [List.getElem?_set] at hp
    split at hp
    · split at hp <;> cases hp
    · exact hl.noProxy p v hp
  slots := hs

theorem vset_keys {k : Str} {w : Val} : ∀ {es : List (Val × Val)}, (∀ l v, (l, v) ∈ es → ∃ s, l = .str s) →
    (vset (.str k) w es).map (·.1) = es.map (·.1) ∨ (.str k ∉ es.map (·.1) ∧ (vset (.str k) w es).map (·.1) = es.map (·.1) ++ [.str k])
  | [], _ => by simp [vset]
  | (l, v) :: es, h => by
    obtain ⟨s, rfl⟩ := h l v (.head _)
    simp only [vset]
    by_cases he : s = k
    · subst he; simp [pyEq]
    · rw [if_neg (show ¬ pyEq (.str s) (.str k) = true by simpa [pyEq] using he)]
      rcases vset_keys (k := k) (w := w) (es := es) (fun l v h' => h l v (.tail _ h')) with ih | ⟨ih1, ih2⟩
      · exact .inl (by simp only [List.map_cons, ih])
      · refine .inr ⟨?_, by simp only [List.map_cons, ih2, List.cons_append]⟩
        simp only [List.map_cons, List.mem_cons, not_or]
        exact ⟨fun hh => he (by cases hh; rfl), ih1⟩

theorem mem_vset {k : Str} {w v : Val} {l : Val} : ∀ {es : List (Val × Val)}, (∀ l v, (l, v) ∈ es → ∃ s, l = .str s) → (es.map (·.1)).Nodup →
    (l, v) ∈ vset (.str k) w es → (l ≠ .str k ∧ (l, v) ∈ es) ∨ (l = .str k ∧ v = w)
  | [], _, _, h => by
    simp only [vset, List.mem_singleton, Prod.mk.injEq] at h
    exact .inr h
  | (m, x) :: es, hs, hn, h => by
    obtain ⟨s, rfl⟩ := hs m x (.head _)
    simp only [List.map_cons, List.nodup_cons] at hn
    simp only [vset] at h
    by_cases he : s = k
    · subst he
      rw [if_pos (show pyEq (.str s) (.str s) = true by simp [pyEq])] at h
      rcases List.mem_cons.1 h with h | h
      · cases h; exact .inr ⟨rfl, rfl⟩
      · refine .inl ⟨fun hl => hn.1 ?_, .tail _ h⟩
        exact List.mem_map.2 ⟨_, h, hl⟩
    · rw [if_neg (show ¬ pyEq (.str s) (.str k) = true by simpa [pyEq] using he)] at h
      rcases List.mem_cons.1 h with h | h
      · cases h; exact .inl ⟨fun hh => he (by cases hh; rfl), .head _⟩
      · rcases mem_vset (fun l v h' => hs l v (.tail _ h')) hn.2 h with ⟨h1, h2⟩ | h
        · exact .inl ⟨h1, .tail _ h2⟩
        · exact .inr h

/-- an entry of a dict is overwritten -/
theorem Listed.setDict {h : Heap} {R R'} (hl : Listed h R) {a : Addr} {es : List (Val × Val)} {k : Str} {w : Val} (ha : h[a]? = some (.dict es)) (hi : InR h w)
    (hr : ∀ e ∈ R, (e.1 = a → e.2.1 ≠ .key (.str k)) → e ∈ R')
    (hn : ∀ p, proxyAddr (h.set a (.dict (vset (.str k) w es))) w = some p → (a, .key (.str k), p) ∈ R')
    (hs : ∀ e ∈ R', (∃ i, e.2.1 = .idx i) ∨ ∃ k, e.2.1 = .key (.str k)) : Listed (h.set a (.dict (vset (.str k) w es))) R' where
  list x ws hx i v hv := by
    by_cases he : x = a
    · subst he
      rw [List.getElem?_set, if_pos rfl] at hx
      split at hx <;> cases hx
    · rw [List.getElem?_set, if_neg (Ne.symm he)] at hx
      have := hl.list x ws hx i v hv
      exact ⟨this.1.mono (by simp), fun p hp => hr _ (this.2 p (proxyAddr_set ⟨(fun _ h => by cases h), (fun _ h => by cases h)⟩ hp)) (fun h => absurd h he)⟩
  dict x ws hx l v hv := by
    by_cases he : x = a
    · subst he
      rw [List.getElem?_set, if_pos rfl] at hx
      split at hx
      · cases hx
        rcases mem_vset (fun l v h' => (hl.dict x es ha l v h').1) (hl.nodup x es ha) hv with ⟨hlk, hv'⟩ | ⟨rfl, rfl⟩
        · have := hl.dict x es ha l v hv'
          refine ⟨this.1, this.2.1.mono (by simp), fun p hp => ?_⟩
          have hp' := proxyAddr_set ⟨(fun _ h => by cases h), (fun _ h => by cases h)⟩ hp
          exact hr _ (this.2.2 p hp') (fun _ h => hlk (by cases h; rfl))
        · exact ⟨⟨k, rfl⟩, hi.mono (by simp), hn⟩
      · cases hx
    · rw [List.getElem?_set, if_neg (Ne.symm he)] at hx
      have := hl.dict x ws hx l v hv
      exact ⟨this.1, this.2.1.mono (by simp), fun p hp => hr _ (this.2.2 p (proxyAddr_set ⟨(fun _ h => by cases h), (fun _ h => by cases h)⟩ hp)) (fun h => absurd h he)⟩
  nodup x ws hx := by
    by_cases he : x = a
    · subst he
      rw [List.getElem?_set, if_pos rfl] at hx
      split at hx
      · cases hx
        have := hl.nodup x es ha
        rcases vset_keys (k := k) (w := w) (fun l v h' => (hl.dict x es ha l v h').1) with hk | ⟨hm, hk⟩
        · rw [hk]; exact this
        · rw [hk, List.nodup_append]
          refine ⟨this, by simp, fun y hy z hz => ?_⟩
          rw [List.mem_singleton.1 hz]
          exact fun he => hm (he ▸ hy)
      · cases hx
    · rw [List.getElem?_set, if_neg (Ne.symm he)] at hx
      exact hl.nodup x ws hx
  noProxy p v hp := by
    rw [List.getElem?_set] at hp
    split at hp
    · split at hp <;> cases hp
    · exact hl.noProxy p v hp
  slots := hs

/-! ### running the decoder -/

/-- from state `s`, `x` keeps the invariant, and its result satisfies `Q` -/
def Keeps {α : Type} (s : UState) (x : U α) (Q : UState → α → Prop) : Prop :=
  Inv s → ∀ r s', x s = some (r, s') → Inv s' ∧ s.heap.length ≤ s'.heap.length ∧ ∀ a, r = .ok a → Q s' a

namespace Keeps
variable {α β : Type} {s : UState}

theorem bind {x : U α} {f : α → U β} {Q : UState → α → Prop} {R : UState → β → Prop} (hx : Keeps s x Q)
    (hf : ∀ a s1, s.heap.length ≤ s1.heap.length → Q s1 a → Keeps s1 (f a) R) : Keeps s (x >>= f) R := by
  intro hi r s' h
  rw [bind_run] at h
  cases hr : x s with
  | none => rw [hr] at h; cases h
  | some p =>
    obtain ⟨r1, s1⟩ := p
    obtain ⟨h1, h2, h3⟩ := hx hi r1 s1 hr
    rw [hr] at h
    cases r1 with
    | error e => cases h; exact ⟨h1, h2, fun a ha => by cases ha⟩
    | ok a =>
      obtain ⟨h4, h5, h6⟩ := hf a s1 h2 (h3 a rfl) h1 r s' h
      exact ⟨h4, Nat.le_trans h2 h5, h6⟩

theorem pure {a : α} {Q : UState → α → Prop} (hq : Q s a) : Keeps s (Pure.pure a : U α) Q := by
  intro hi r s' h
  cases h
  exact ⟨hi, Nat.le_refl _, fun b hb => by cases hb; exact hq⟩

theorem throw {e : Exc} {Q : UState → α → Prop} : Keeps s (PyM.throw e : U α) Q := by
  intro hi r s' h
  cases h
  exact ⟨hi, Nat.le_refl _, fun b hb => by cases hb⟩

theorem ofExcept {x : Except Exc α} : Keeps s (PyM.ofExcept x : U α) (fun _ a => x = .ok a) := by
  intro hi r s' h
  cases h
  exact ⟨hi, Nat.le_refl _, fun b hb => hb⟩

theorem get : Keeps s (PyM.get : U UState) (fun _ _ => True) := by
  intro hi r s' h
  cases h
  exact ⟨hi, Nat.le_refl _, fun b hb => trivial⟩

theorem fresh : Keeps s fresh (fun _ _ => True) := by
  intro hi r s' h
  cases h
  exact ⟨⟨hi.listed, hi.objs⟩, Nat.le_refl _, fun b hb => trivial⟩

theorem imp {x : U α} {Q R : UState → α → Prop} (h : ∀ s a, Q s a → R s a) (hx : Keeps s x Q) : Keeps s x R := by
  intro hi r s' h'
  obtain ⟨h1, h2, h3⟩ := hx hi r s' h'
  exact ⟨h1, h2, fun a ha => h _ _ (h3 a ha)⟩

theorem tryCatch {x : U α} {c : Exc → Bool} {f : Exc → U α} {Q : UState → α → Prop} (hx : Keeps s x Q) (hf : ∀ e s1, s.heap.length ≤ s1.heap.length → Keeps s1 (f e) Q) :
    Keeps s (PyM.tryCatch x c f) Q := by
  intro hi r s' h
  unfold PyM.tryCatch at h
  cases hr : x s with
  | none => rw [hr] at h; cases h
  | some p =>
    obtain ⟨r1, s1⟩ := p
    obtain ⟨h1, h2, h3⟩ := hx hi r1 s1 hr
    rw [hr] at h
    cases r1 with
    | ok a => cases h; exact ⟨h1, h2, h3⟩
    | error e =>
      simp only at h
      split at h
      · obtain ⟨h4, h5, h6⟩ := hf e s1 h2 h1 r s' h
        exact ⟨h4, Nat.le_trans h2 h5, h6⟩
      · cases h; exact ⟨h1, h2, h3⟩

theorem alloc {o : Obj} (ho : ∀ v, o ≠ .proxy v) (h1 : ∀ vs, o = .list vs → vs = []) (h2 : ∀ es, o = .dict es → es = []) :
    Keeps s (alloc o) (fun s' a => InR s'.heap (.ref a) ∧ (NotProxy o → proxyAddr s'.heap (.ref a) = none) ∧ s'.heap[a]? = some o) := by
  intro hi r s' h
  cases h
  refine ⟨⟨hi.listed.alloc ho h1 h2, fun v hv => ?_⟩, by simp, fun b hb => ?_⟩
  · have := hi.objs v hv
    exact ⟨this.1.mono (by simp), by rw [proxyAddr_append this.1]; exact this.2⟩
  · cases hb
    refine ⟨fun p hp => by cases hp; simp, fun hn => ?_, by simp⟩
    simp only [proxyAddr, List.getElem?_concat_length]
    cases o with
    | proxy v => exact absurd rfl (hn.1 v)
    | idproxy n => exact absurd rfl (hn.2 n)
    | _ => rfl

theorem mkref {v : Val} (hv : InR s.heap v) (hp : proxyAddr s.heap v = none) : Keeps s (mkref v) (fun _ _ => True) := by
  intro hi r s' h
  unfold Unpickler.mkref at h
  split at h
  · cases h; exact ⟨hi, Nat.le_refl _, fun _ _ => trivial⟩
  · cases h
    refine ⟨⟨hi.listed, fun w hw => ?_⟩, Nat.le_refl _, fun _ _ => trivial⟩
    rcases List.mem_append.1 hw with hw | hw
    · exact hi.objs w hw
    · rw [List.mem_singleton.1 hw]; exact ⟨hv, hp⟩

theorem mapM {f : α → U Val} : ∀ (xs : List α) (s : UState), (∀ x ∈ xs, ∀ s, Keeps s (f x) (fun s' v => InR s'.heap v)) →
    Keeps s (PyM.mapM f xs) (fun s' vs => ∀ v ∈ vs, InR s'.heap v)
  | [], s, _ => pure (fun _ h => by cases h)
  | x :: xs, s, h => by
    rw [mapM_cons]
    refine bind (h x (.head _) s) (fun v s1 _ hv => ?_)
    intro hi r s' hr
    refine bind (R := fun s' vs => ∀ v ∈ vs, InR s'.heap v) (mapM xs s1 (fun y hy => h y (.tail _ hy))) (fun vs s2 hl hvs => ?_) hi r s' hr
    refine pure (fun w hw => ?_)
    rcases List.mem_cons.1 hw with rfl | hw
    · exact hv.mono hl
    · exact hvs w hw

theorem mapU {f : α → U Unit} : ∀ (xs : List α) (s : UState), (∀ x ∈ xs, ∀ s, Keeps s (f x) (fun _ _ => True)) → Keeps s (PyM.mapM f xs) (fun _ _ => True)
  | [], s, _ => pure trivial
  | x :: xs, s, h => by
    rw [mapM_cons]
    exact bind (h x (.head _) s) (fun v s1 _ hv => bind (mapU xs s1 (fun y hy => h y (.tail _ hy))) (fun _ _ _ _ => pure trivial))

theorem foldM {f : List Val → α → U (List Val)} : ∀ (xs : List α) (s : UState) (b : List Val), (∀ b, ∀ x ∈ xs, ∀ s, Keeps s (f b x) (fun _ _ => True)) →
    Keeps s (PyM.foldM f b xs) (fun _ _ => True)
  | [], s, b, _ => pure trivial
  | x :: xs, s, b, h => by
    rw [foldM_cons]
    exact bind (h b x (.head _) s) (fun v s1 _ hv => foldM xs s1 v (fun b y hy => h b y (.tail _ hy)))

end Keeps

/-- a list that is filled -/
theorem keeps_fill {s : UState} {a : Addr} {vs : List Val} (hv : ∀ v ∈ vs, InR s.heap v) :
    Keeps s (do setCell a (.list vs); noteList a 0 vs) (fun s' _ => s'.heap.length = s.heap.length) := by
  intro hi r s' h
  rw [bind_ok (a := ()) (s' := { s with heap := s.heap.set a (.list vs) }) rfl, noteList_eq] at h
  cases h
  refine ⟨⟨?_, fun v hv => ?_⟩, by simp, fun _ _ => by simp⟩
  · refine hi.listed.setList hv (fun e he _ => List.mem_append_left _ he) (fun i v hi p hp => ?_) (fun e he => ?_)
    · refine List.mem_append_right _ ?_
      have := mem_notesOf (a := a) (n := 0) hi hp
      rwa [Nat.zero_add] at this
    · rcases List.mem_append.1 he with he | he
      · exact hi.listed.slots e he
      · obtain ⟨i, v, p, h1, _⟩ := notesOf_mem he
        exact .inl ⟨_, by rw [h1]⟩
  · have := hi.objs v hv
    refine ⟨this.1.mono (by simp), ?_⟩
    cases hp : proxyAddr (s.heap.set a (.list vs)) v with
    | none => rfl
    | some p =>
      rw [proxyAddr_set ⟨(fun _ h => by cases h), (fun _ h => by cases h)⟩ hp] at this
      cases this.2

/-- an entry that is stored and noted -/
theorem keeps_entry {s : UState} {a : Addr} {k : Str} {v : Val} (hv : InR s.heap v) :
    Keeps s (do dictSet a (.str k) v; noteProxy a (.key (.str k)) v) (fun _ _ => True) := by
  intro hi r s' h
  have hslots : ∀ (h : Heap) (R : List (Addr × Slot × Addr)), (∀ e ∈ R, (∃ i, e.2.1 = .idx i) ∨ ∃ k, e.2.1 = .key (.str k)) →
      ∀ e ∈ R ++ (match proxyAddr h v with | some p => [(a, .key (.str k), p)] | none => []), (∃ i, e.2.1 = .idx i) ∨ ∃ k, e.2.1 = .key (.str k) := by
    intro h R hR e he
    rcases List.mem_append.1 he with he | he
    · exact hR e he
    · cases hp : proxyAddr h v with
      | none => rw [hp] at he; cases he
      | some p => rw [hp] at he; rw [List.mem_singleton.1 he]; exact .inr ⟨k, rfl⟩
  have hnote : ∀ s : UState, noteProxy a (.key (.str k)) v s = some (.ok (), { s with proxies := s.proxies ++ (match proxyAddr s.heap v with | some p => [(a, .key (.str k), p)] | none => []) }) := by
    intro s
    simp only [noteProxy, PyM.modify]
    cases proxyAddr s.heap v <;> simp
  have hset : dictSet a (.str k) v s = some (.ok (), s) ∨ ∃ es, s.heap[a]? = some (.dict es) ∧ dictSet a (.str k) v s = some (.ok (), { s with heap := s.heap.set a (.dict (vset (.str k) v es)) }) := by
    unfold dictSet
    rw [if_pos (by rfl)]
    cases ho : s.heap[a]? with
    | none => exact .inl rfl
    | some o =>
      cases o with
      | dict es => exact .inr ⟨es, rfl, rfl⟩
      | _ => exact .inl rfl
  rcases hset with hset | ⟨es, he, hset⟩
  · rw [bind_ok hset, hnote] at h
    cases h
    exact ⟨⟨hi.listed.mono (fun e he => List.mem_append_left _ he) (hslots _ _ hi.listed.slots), hi.objs⟩, Nat.le_refl _, fun _ _ => trivial⟩
  · rw [bind_ok hset, hnote] at h
    cases h
    refine ⟨⟨?_, fun w hw => ?_⟩, by simp, fun _ _ => trivial⟩
    · refine hi.listed.setDict he hv (fun e he _ => List.mem_append_left _ he) (fun p hp => ?_) (hslots _ _ hi.listed.slots)
      refine List.mem_append_right _ ?_
      simp only [hp]
      exact List.mem_singleton.2 rfl
    · have := hi.objs w hw
      refine ⟨this.1.mono (by simp), ?_⟩
      cases hp : proxyAddr (s.heap.set a (.dict (vset (.str k) v es))) w with
      | none => rfl
      | some p =>
        rw [proxyAddr_set ⟨(fun _ h => by cases h), (fun _ h => by cases h)⟩ hp] at this
        cases this.2

section
variable {env : UEnv} {rs : Json → U Val}

/-- a decoder that keeps the invariant -/
def KeepsAll (rs : Json → U Val) (j : Json) : Prop := ∀ s, Keeps s (rs j) (fun s' v => InR s'.heap v)

theorem bind_assoc_run {α β γ : Type} (x : U α) (f : α → U β) (g : β → U γ) (s : UState) : ((x >>= f) >>= g) s = (x >>= fun a => f a >>= g) s := by
  simp only [bind_run]
  cases x s with
  | none => rfl
  | some p => obtain ⟨r, s1⟩ := p; cases r <;> simp only [bind_run]

theorem keeps_restoreList {r : Except Exc (List Json)} (h : ∀ xs, r = .ok xs → ∀ x ∈ xs, KeepsAll rs x) (s : UState) :
    Keeps s (restoreList rs r) (fun s' a => InR s'.heap (.ref a)) := by
  unfold restoreList
  refine Keeps.bind (Keeps.alloc (fun _ h => by cases h) (fun _ h => by cases h; rfl) (fun _ h => by cases h)) (fun a s1 _ ha => ?_)
  refine Keeps.bind (Keeps.mkref ha.1 (ha.2.1 ⟨(fun _ h => by cases h), (fun _ h => by cases h)⟩)) (fun _ s2 l2 _ => ?_)
  refine Keeps.bind Keeps.ofExcept (fun xs s3 l3 hx => ?_)
  refine Keeps.bind (Keeps.mapM xs s3 (h xs hx)) (fun vs s4 l4 hv => ?_)
  have hf := Keeps.bind (R := fun s' a' => InR s'.heap (.ref a')) (keeps_fill (a := a) hv) (f := fun _ => pure a) (fun _ s5 l5 _ => Keeps.pure (ha.1.mono (by omega)))
  intro hi r s' hr
  refine hf hi r s' ?_
  rw [← hr]
  exact bind_assoc_run _ _ _ _

theorem keeps_item {α : Type} {t : Str} {kvs : List (Str × Json)} {f : Json → U α} {Q} {s : UState} (hf : ∀ j s1, (t, j) ∈ kvs → s.heap.length ≤ s1.heap.length → Keeps s1 (f j) Q) :
    Keeps s (PyM.ofExcept (item t kvs) >>= f) Q := by
  refine Keeps.bind Keeps.ofExcept (fun j s1 l1 hj => hf j s1 ?_ l1)
  unfold item at hj
  cases hd : dget t kvs with
  | none => rw [hd] at hj; cases hj
  | some x => rw [hd] at hj; cases hj; exact dget_mem hd

theorem inR_tuple {h : Heap} {n xs} : InR h (.tuple n xs) := fun _ h => by cases h

theorem keeps_ite {α : Type} {c : Prop} [Decidable c] {x y : U α} {Q} {s : UState} (hx : c → Keeps s x Q) (hy : ¬ c → Keeps s y Q) : Keeps s (if c then x else y) Q := by
  by_cases h : c
  · rw [if_pos h]; exact hx h
  · rw [if_neg h]; exact hy h

theorem keeps_restoreTags {m : Nat} {kvs : List (Str × Json)} (hk : env.keys = false) (hb : Below env (m + 1) (.obj kvs)) (h : ∀ x, Below env m x → KeepsAll rs x) (s : UState) :
    Keeps s (restoreTags env rs kvs) (fun s' v => InR s'.heap v) := by
  have hno : ∀ t ∈ wireTags, t ∉ toleratedTags → ¬ dhas t kvs = true := by
    intro t ht hnt hd
    obtain ⟨j, _, hm⟩ := item_ok hd
    have : t ∈ (Json.obj kvs).keys := Json.keysKv_key (List.mem_map.2 ⟨_, hm, rfl⟩)
    exact hnt (hb.tol t this ht)
  have hval : ∀ {k x}, (k, x) ∈ kvs → Below env m x := by
    intro k x hx
    refine hb.of_sub (fun k hk => Json.keysKv_mem hx hk) ?_
    have := Json.depthKv_mem hx
    have := hb.depth
    simp only [Json.depth] at this
    omega
  have hiter : ∀ {t j xs}, (t, j) ∈ kvs → jsonIter j = .ok xs → ∀ x ∈ xs, KeepsAll rs x := by
    intro t j xs ht hj x hx
    have h1 := jsonIter_mem hj hx
    exact h x ((hval ht).of_sub h1.1 (Nat.le_trans h1.2 (hval ht).depth))
  unfold restoreTags
  refine keeps_ite (fun _ => ?_) (fun _ => ?_)
  · unfold restoreTuple
    refine Keeps.bind (Q := fun _ _ => True) (Keeps.tryCatch (keeps_item (fun j s1 hj _ => ?_)) (fun _ _ _ => Keeps.pure trivial)) (fun _ _ _ _ =>
      Keeps.bind Keeps.fresh (fun _ _ _ _ => Keeps.pure (fun _ h => by cases h)))
    exact Keeps.bind Keeps.ofExcept (fun xs s2 _ hx => Keeps.imp (fun _ _ _ => trivial) (Keeps.mapM xs s2 (hiter hj hx)))
  refine keeps_ite (fun _ => ?_) (fun _ => ?_)
  · unfold restoreSet
    refine Keeps.bind (Q := fun _ _ => True) (Keeps.tryCatch (keeps_item (fun j s1 hj _ => ?_)) (fun _ _ _ => Keeps.pure trivial)) (fun _ _ _ _ =>
      Keeps.bind Keeps.fresh (fun _ _ _ _ => Keeps.pure (fun _ h => by cases h)))
    refine Keeps.bind Keeps.ofExcept (fun xs s2 _ hx => Keeps.foldM xs s2 _ (fun b x hxm s => ?_))
    refine Keeps.bind (hiter hj hx x hxm s) (fun v s3 _ _ => Keeps.bind Keeps.get (fun _ _ _ _ => ?_))
    exact keeps_ite (fun _ => Keeps.pure trivial) (fun _ => Keeps.throw)
  refine keeps_ite (fun _ => ?_) (fun _ => ?_)
  · exact Keeps.bind Keeps.ofExcept (fun _ _ _ _ => Keeps.bind Keeps.fresh (fun _ _ _ _ => Keeps.pure (fun _ h => by cases h)))
  refine keeps_ite (fun _ => ?_) (fun _ => ?_)
  · exact Keeps.bind Keeps.ofExcept (fun _ _ _ _ => Keeps.bind Keeps.fresh (fun _ _ _ _ => Keeps.pure (fun _ h => by cases h)))
  rw [if_neg (hno Tags.BYTEARRAY (by decide) (by decide))]
  refine keeps_ite (fun _ => ?_) (fun _ => ?_)
  · unfold restoreId
    have hlook : ∀ n s, Keeps s (idLookup n) (fun s' v => InR s'.heap v) := by
      intro n s
      unfold idLookup
      intro hi r s' hr
      rw [bind_ok (a := s) (s' := s) rfl] at hr
      cases hp : pyIndex s.objs n with
      | some v =>
        rw [hp] at hr
        refine Keeps.pure (s := s) (Q := fun s' v => InR s'.heap v) ?_ hi r s' hr
        refine (hi.objs v ?_).1
        unfold pyIndex at hp
        split at hp
        · exact List.mem_of_getElem? hp
        · split at hp
          · exact List.mem_of_getElem? hp
          · cases hp
      | none =>
        rw [hp] at hr
        exact Keeps.bind (R := fun s' v => InR s'.heap v) (Keeps.alloc (o := .idproxy n) (fun _ h => by cases h) (fun _ h => by cases h) (fun _ h => by cases h))
          (fun a s1 _ ha => Keeps.pure ha.1) hi r s' hr
    refine keeps_item (fun j s1 _ _ => ?_)
    cases j with
    | int n => exact hlook n s1
    | bool b => exact hlook _ s1
    | _ => exact Keeps.pure (fun _ h => by cases h)
  refine keeps_ite (fun _ => ?_) (fun _ => ?_)
  · unfold restoreIterator
    refine Keeps.bind (Q := fun _ _ => True) (Keeps.tryCatch (keeps_item (fun j s1 hj _ => Keeps.imp (fun _ _ _ => trivial) (keeps_restoreList (fun xs hx => hiter hj hx) s1))) (fun _ _ _ => ?_)) (fun a s1 _ _ => ?_)
    · exact Keeps.imp (fun _ _ _ => trivial) (Keeps.alloc (fun _ h => by cases h) (fun _ h => by cases h; rfl) (fun _ h => by cases h))
    · exact Keeps.bind (Keeps.alloc (fun _ h => by cases h) (fun _ h => by cases h) (fun _ h => by cases h)) (fun b _ _ hb => Keeps.pure hb.1)
  rw [if_neg (hno Tags.OBJECT (by decide) (by decide)), if_neg (hno Tags.TYPE (by decide) (by decide)), if_neg (hno Tags.REDUCE (by decide) (by decide)),
    if_neg (hno Tags.FUNCTION (by decide) (by decide)), if_neg (hno Tags.MODULE (by decide) (by decide)), if_neg (hno Tags.REPR (by decide) (by decide))]
  unfold restoreDict
  refine Keeps.bind (Keeps.alloc (fun _ h => by cases h) (fun _ h => by cases h) (fun _ h => by cases h; rfl)) (fun a s1 _ ha => ?_)
  refine Keeps.bind (Q := fun _ _ => True) ?_ (fun _ s2 l2 _ => ?_)
  · unfold mkrefUnlessV1
    exact keeps_ite (fun _ => Keeps.pure trivial) (fun _ => Keeps.bind (Keeps.mkref ha.1 (ha.2.1 ⟨(fun _ h => by cases h), (fun _ h => by cases h)⟩)) (fun _ _ _ _ => Keeps.pure trivial))
  · rw [hk]
    simp only [Bool.false_eq_true, if_false]
    refine Keeps.bind (Keeps.mapU kvs s2 (fun kv hkv s3 => ?_)) (fun _ s4 l4 _ => Keeps.pure (ha.1.mono (by omega)))
    unfold dictEntry
    exact Keeps.bind (h _ (hval hkv) s3) (fun v s4 _ hv => keeps_entry hv)

theorem keeps_restore (hk : env.keys = false) : ∀ (n : Nat) (j : Json), Below env n j → KeepsAll (restore env (n + 1)) j
  | n, j, hb => by
    intro s
    show Keeps s (restoreStep env (restore env n) j) _
    unfold restoreStep
    cases j with
    | arr xs =>
      refine Keeps.bind (keeps_restoreList (fun xs' hxs x hx => ?_) s) (fun a s1 _ ha => Keeps.pure ha)
      cases hxs
      have h1 := Json.depthL_mem hx
      have h2 := hb.depth
      simp only [Json.depth] at h2
      cases n with
      | zero => omega
      | succ n => exact keeps_restore hk n x (hb.of_sub (fun k hk => Json.keysL_mem hx hk) (by omega))
    | obj kvs =>
      cases n with
      | zero => have h2 := hb.depth; simp only [Json.depth] at h2; omega
      | succ n => exact keeps_restoreTags hk hb (fun x hx => keeps_restore hk n x hx) s
    | _ => exact Keeps.pure (fun _ h => by cases h)

end

/-! ### the replacement -/

theorem swap_listed {s : UState} {e : Addr × Slot × Addr} {R : List (Addr × Slot × Addr)} (hl : Listed s.heap (e :: R)) (ho : ∀ v ∈ s.objs, InR s.heap v ∧ proxyAddr s.heap v = none) :
    ∃ s', swapOne e s = some (.ok (), s') ∧ s'.objs = s.objs ∧ Listed s'.heap R ∧ ∀ v ∈ s'.objs, InR s'.heap v ∧ proxyAddr s'.heap v = none := by
  obtain ⟨a, sl, p⟩ := e
  have hw : InR s.heap (proxyGet s p) ∧ proxyAddr s.heap (proxyGet s p) = none := by
    unfold proxyGet
    cases hc : s.heap[p]? with
    | none => exact ⟨(fun _ h => by cases h), rfl⟩
    | some o =>
      cases o with
      | proxy v => exact absurd hc (hl.noProxy p v)
      | idproxy n =>
        cases hp : pyIndex s.objs n with
        | none => simp only [hp]; exact ⟨(fun _ h => by cases h), rfl⟩
        | some v =>
          simp only [hp]
          refine ho v ?_
          unfold pyIndex at hp
          split at hp
          · exact List.mem_of_getElem? hp
          · split at hp
            · exact List.mem_of_getElem? hp
            · cases hp
      | _ => exact ⟨(fun _ h => by cases h), rfl⟩
  have hos : ∀ (o : Obj), NotProxy o → ∀ v ∈ s.objs, InR (s.heap.set a o) v ∧ proxyAddr (s.heap.set a o) v = none := by
    intro o hn v hv
    have := ho v hv
    refine ⟨this.1.mono (by simp), ?_⟩
    cases hp : proxyAddr (s.heap.set a o) v with
    | none => rfl
    | some p => rw [proxyAddr_set hn hp] at this; cases this.2
  have hwn : ∀ (o : Obj), NotProxy o → ∀ q, proxyAddr (s.heap.set a o) (proxyGet s p) ≠ some q := by
    intro o hn q hq
    rw [proxyAddr_set hn hq] at hw
    cases hw.2
  have hslots : ∀ e ∈ R, (∃ i, e.2.1 = .idx i) ∨ ∃ k, e.2.1 = .key (.str k) := fun e he => hl.slots e (.tail _ he)
  rcases hl.slots (a, sl, p) (.head _) with ⟨i, hi⟩ | ⟨k, hk⟩
  · simp only at hi
    subst hi
    unfold swapOne
    cases hc : s.heap[a]? with
    | none =>
      refine ⟨s, rfl, rfl, ⟨?_, ?_, hl.nodup, hl.noProxy, hslots⟩, ho⟩
      · intro x vs hx j v hv
        refine ⟨(hl.list x vs hx j v hv).1, fun q hq => ?_⟩
        rcases List.mem_cons.1 ((hl.list x vs hx j v hv).2 q hq) with he | he
        · cases he; rw [hc] at hx; cases hx
        · exact he
      · intro x es hx j v hv
        refine ⟨(hl.dict x es hx j v hv).1, (hl.dict x es hx j v hv).2.1, fun q hq => ?_⟩
        rcases List.mem_cons.1 ((hl.dict x es hx j v hv).2.2 q hq) with he | he
        · cases he
        · exact he
    | some o =>
      by_cases hlist : ∃ vs, o = .list vs
      · obtain ⟨vs, rfl⟩ := hlist
        have hnp : NotProxy (.list (vs.set i (proxyGet s p))) := ⟨(fun _ h => by cases h), (fun _ h => by cases h)⟩
        refine ⟨{ s with heap := s.heap.set a (.list (vs.set i (proxyGet s p))) }, rfl, rfl, ?_, hos _ hnp⟩
        have hin : ∀ v ∈ vs.set i (proxyGet s p), InR s.heap v := by
          intro v hv
          rcases List.mem_or_eq_of_mem_set hv with hv | hv
          · obtain ⟨j, hj⟩ := List.mem_iff_getElem?.1 hv
            exact (hl.list a vs hc j v hj).1
          · rw [hv]; exact hw.1
        -- first with the old notes, then drop the one that was used
        have h1 : Listed (s.heap.set a (.list (vs.set i (proxyGet s p)))) ((a, .idx i, p) :: R) := by
          refine hl.setList hin (fun e he _ => he) (fun j v hv q hq => ?_) hl.slots
          rw [List.getElem?_set] at hv
          split at hv
          · split at hv
            · cases hv; exact absurd hq (hwn _ hnp q)
            · cases hv
          · exact (hl.list a vs hc j v hv).2 q (proxyAddr_set hnp hq)
        refine ⟨?_, ?_, h1.nodup, h1.noProxy, hslots⟩
        · intro x ws hx j v hv
          refine ⟨(h1.list x ws hx j v hv).1, fun q hq => ?_⟩
          rcases List.mem_cons.1 ((h1.list x ws hx j v hv).2 q hq) with he | he
          · exfalso
            cases he
            rw [List.getElem?_set, if_pos rfl] at hx
            split at hx
            · cases hx
              rw [List.getElem?_set, if_pos rfl] at hv
              split at hv
              · cases hv; exact hwn _ hnp _ hq
              · cases hv
            · cases hx
          · exact he
        · intro x es hx j v hv
          refine ⟨(h1.dict x es hx j v hv).1, (h1.dict x es hx j v hv).2.1, fun q hq => ?_⟩
          rcases List.mem_cons.1 ((h1.dict x es hx j v hv).2.2 q hq) with he | he
          · cases he
          · exact he
      · refine ⟨s, ?_, rfl, ⟨?_, ?_, hl.nodup, hl.noProxy, hslots⟩, ho⟩
        · cases o with
          | list vs => exact absurd ⟨vs, rfl⟩ hlist
          | _ => rfl
        · intro x vs hx j v hv
          refine ⟨(hl.list x vs hx j v hv).1, fun q hq => ?_⟩
          rcases List.mem_cons.1 ((hl.list x vs hx j v hv).2 q hq) with he | he
          · cases he; rw [hc] at hx; cases hx; exact absurd ⟨_, rfl⟩ hlist
          · exact he
        · intro x es hx j v hv
          refine ⟨(hl.dict x es hx j v hv).1, (hl.dict x es hx j v hv).2.1, fun q hq => ?_⟩
          rcases List.mem_cons.1 ((hl.dict x es hx j v hv).2.2 q hq) with he | he
          · cases he
          · exact he
  · simp only at hk
    subst hk
    unfold swapOne
    by_cases hdict : ∃ es, s.heap[a]? = some (.dict es)
    · obtain ⟨es, hc⟩ := hdict
      have hnp : NotProxy (.dict (vset (.str k) (proxyGet s p) es)) := ⟨(fun _ h => by cases h), (fun _ h => by cases h)⟩
      refine ⟨{ s with heap := s.heap.set a (.dict (vset (.str k) (proxyGet s p) es)) }, by simp only [hc], rfl, ?_, hos _ hnp⟩
      refine hl.setDict hc hw.1 (fun e he hne => ?_) (fun q hq => absurd hq (hwn _ hnp q)) hslots
      rcases List.mem_cons.1 he with he | he
      · subst he; exact absurd rfl (hne rfl)
      · exact he
    · refine ⟨s, ?_, rfl, ⟨?_, ?_, hl.nodup, hl.noProxy, hslots⟩, ho⟩
      · cases hc : s.heap[a]? with
        | none => rfl
        | some o =>
          cases o with
          | dict es => exact absurd ⟨es, hc⟩ hdict
          | _ => rfl
      · intro x vs hx j v hv
        refine ⟨(hl.list x vs hx j v hv).1, fun q hq => ?_⟩
        rcases List.mem_cons.1 ((hl.list x vs hx j v hv).2 q hq) with he | he
        · cases he
        · exact he
      · intro x es hx j v hv
        refine ⟨(hl.dict x es hx j v hv).1, (hl.dict x es hx j v hv).2.1, fun q hq => ?_⟩
        rcases List.mem_cons.1 ((hl.dict x es hx j v hv).2.2 q hq) with he | he
        · cases he; exact absurd ⟨_, hx⟩ hdict
        · exact he

theorem swapAll_listed : ∀ (R : List (Addr × Slot × Addr)) (s : UState), Listed s.heap R → (∀ v ∈ s.objs, InR s.heap v ∧ proxyAddr s.heap v = none) →
    ∃ us s', mapM swapOne R s = some (.ok us, s') ∧ Listed s'.heap []
  | [], s, hl, _ => ⟨[], s, rfl, hl⟩
  | e :: R, s, hl, ho => by
    obtain ⟨s1, h1, _, h2, h3⟩ := swap_listed hl ho
    obtain ⟨us, s2, h4, h5⟩ := swapAll_listed R s1 h2 h3
    exact ⟨() :: us, s2, by rw [mapM_cons, bind_ok h1, bind_ok h4]; rfl, h5⟩

theorem restoreTop_listed {env : UEnv} (hk : env.keys = false) (n : Nat) (j : Json) (hb : Below env n j) {r : Except Exc Val} {u' : UState}
    (h : restoreTop env (n + 1) j true {} = some (r, u')) : Listed u'.heap [] := by
  simp only [restoreTop, if_true] at h
  rw [bind_ok (a := ()) (s' := {}) rfl] at h
  have hinv : Inv {} := ⟨⟨(fun a vs h => by cases a <;> cases h), (fun a vs h => by cases a <;> cases h), (fun a vs h => by cases a <;> cases h), (fun a vs h => by cases a <;> cases h), (fun e h => by cases h)⟩, (fun v h => by cases h)⟩
  obtain ⟨v, s1, h1, _⟩ := fine_restore n j hb {} (fun e he => by cases he)
  obtain ⟨h2, _⟩ := keeps_restore hk n j hb {} hinv _ _ h1
  obtain ⟨us, s2, h3, h4⟩ := swapAll_listed s1.proxies s1 h2.listed h2.objs
  have h5 : swapProxies s1 = some (.ok (), { s2 with proxies := [] }) := by
    unfold swapProxies
    rw [bind_ok (a := s1) (s' := s1) rfl, bind_ok h3]
    rfl
  rw [bind_ok h1, bind_ok h5] at h
  cases h
  exact h4

end JP.Unpickler
