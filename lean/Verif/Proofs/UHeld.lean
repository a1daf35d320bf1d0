import Verif.Proofs.UResolve
import Verif.Proofs.SimStep
import Verif.Proofs.SimOpen
/-!
# Placeholders held by lists, dicts and attributes, in any document

`Inv`: a placeholder that is held by a list, a dict or an attribute is noted, and the placeholders among the numbered objects are those of objects that are
not finished.  Every function of the decoder keeps this (`Keeps`), for `keys=False`; the notes are then worked off (`Verif/Proofs/UHeldSwap.lean`).
-/
namespace JP.Unpickler.Held
open JP PyM
open _root_.JP.Sim (idxGet_append idxGet_filter)

/-- the same kind of object; a dict without repeated keys stays one -/
def Same : Obj → Obj → Prop
  | .list _, .list _ => True
  | .dict es, .dict es' => (es.map (·.1)).Nodup → (es'.map (·.1)).Nodup
  | .inst _, .inst _ => True
  | .proxy _, .proxy _ => True
  | .idproxy n, .idproxy m => n = m
  | _, _ => False

theorem Same.refl (o : Obj) : Same o o := by cases o <;> simp [Same]

theorem Same.trans {x y z : Obj} (h1 : Same x y) (h2 : Same y z) : Same x z := by
  cases x <;> cases y <;> cases z <;> simp only [Same] at *
  · exact fun h => h2 (h1 h)
  · exact h1.trans h2

def Kept (h h' : Heap) : Prop := ∀ (a : Addr) (o : Obj), h[a]? = some o → ∃ o', h'[a]? = some o' ∧ Same o o'

theorem Kept.refl (h : Heap) : Kept h h := fun _ o ho => ⟨o, ho, Same.refl o⟩

theorem Kept.trans {h1 h2 h3 : Heap} (a : Kept h1 h2) (b : Kept h2 h3) : Kept h1 h3 := fun x o ho => by
  obtain ⟨o2, e2, k2⟩ := a x o ho
  obtain ⟨o3, e3, k3⟩ := b x o2 e2
  exact ⟨o3, e3, k2.trans k3⟩

theorem lt_of_get {h : Heap} {a : Addr} {o : Obj} (ho : h[a]? = some o) : a < h.length := by
  rcases Nat.lt_or_ge a h.length with q | q
  · exact q
  · rw [List.getElem?_eq_none q] at ho; cases ho

theorem Kept.set {h : Heap} {a : Addr} {o o' : Obj} (ho : h[a]? = some o) (k : Same o o') : Kept h (h.set a o') := by
  intro b x hx
  rw [List.getElem?_set]
  by_cases e : a = b
  · subst e
    rw [ho] at hx
    cases hx
    exact ⟨o', by rw [if_pos rfl, if_pos (lt_of_get ho)], k⟩
  · exact ⟨x, by rw [if_neg e]; exact hx, Same.refl x⟩

theorem Kept.append (h l : Heap) : Kept h (h ++ l) := fun a o ho =>
  ⟨o, by rw [List.getElem?_append_left (lt_of_get ho)]; exact ho, Same.refl o⟩

theorem Kept.length {h h' : Heap} (k : Kept h h') : h.length ≤ h'.length := by
  rcases Nat.lt_or_ge h'.length h.length with q | q
  · obtain ⟨o', e, _⟩ := k h'.length (h[h'.length]) (List.getElem?_eq_getElem q)
    have := lt_of_get e
    exact absurd this (Nat.lt_irrefl _)
  · exact q

theorem inR_kept {h h' : Heap} (k : Kept h h') {v : Val} (hv : InR h v) : InR h' v := hv.mono k.length

theorem proxyAddr_kept {h h' : Heap} (k : Kept h h') {v : Val} (hv : InR h v) : proxyAddr h' v = proxyAddr h v := by
  cases v with
  | ref a =>
    have hl := hv a rfl
    obtain ⟨o, ho⟩ : ∃ o, h[a]? = some o := ⟨_, List.getElem?_eq_getElem hl⟩
    obtain ⟨o', e, s⟩ := k a o ho
    simp only [proxyAddr, e, ho]
    cases o <;> cases o' <;> simp only [Same] at s <;> rfl
  | _ => rfl

/-- an attribute whose placeholder is not replaced: the default factory, and names starting with `__` -/
def Hidden (i : Inst) (k : Str) : Prop := k = p!"default_factory" ∨ ∃ t, k = mangle i (p!"__" ++ t)

/-- what is held in a slot of the object in cell `a`: excused, or noted if it is a placeholder -/
def Entry (S : Heap → Val → Prop) (h : Heap) (R : List (Addr × Slot × Addr)) (a : Addr) (sl : Slot) (v : Val) : Prop :=
  InR h v ∧ (S h v ∨ ∀ p, proxyAddr h v = some p → (a, sl, p) ∈ R)

def CellOk (S : Heap → Val → Prop) (h : Heap) (R : List (Addr × Slot × Addr)) (a : Addr) : Obj → Prop
  | .list vs => ∀ i v, vs[i]? = some v → Entry S h R a (.idx i) v
  | .dict es => (∀ k v, (k, v) ∈ es → (∃ t, k = .str t) ∧ Entry S h R a (.key k) v) ∧
      ((es.map (·.1)).Nodup ∨ ∀ k v, (k, v) ∈ es → S h v ∨ proxyAddr h v = none)
  | .inst i => (∀ k v, (k, v) ∈ i.items → InR h v) ∧ (∀ k v, dget k i.attrs = some v → InR h v) ∧ (∀ v, i.factory = some v → InR h v) ∧
      (i.info.base ≠ .dict → i.dictCell = none ∧ ∀ k v, dget k i.attrs = some v → Hidden i k ∨ Entry S h R a (.attr (.str k)) v)
  | .proxy (some v) => InR h v ∧ proxyAddr h v = none
  | _ => True

variable {S : Heap → Val → Prop}

theorem Entry.mono {h h' : Heap} {R R' : List (Addr × Slot × Addr)} {a : Addr} {sl : Slot} {v : Val} (k : Kept h h') (hS : ∀ v, InR h v → S h v → S h' v)
    (hR : ∀ e ∈ R, e ∈ R') (e : Entry S h R a sl v) : Entry S h' R' a sl v :=
  ⟨inR_kept k e.1, e.2.imp (hS v e.1) (fun f p hp => hR _ (f p (by rw [← proxyAddr_kept k e.1]; exact hp)))⟩

theorem CellOk.mono {h h' : Heap} {R R' : List (Addr × Slot × Addr)} {a : Addr} {o : Obj} (k : Kept h h') (hS : ∀ v, InR h v → S h v → S h' v)
    (hR : ∀ e ∈ R, e ∈ R') (c : CellOk S h R a o) : CellOk S h' R' a o := by
  cases o with
  | list vs => exact fun i v hv => (c i v hv).mono k hS hR
  | dict es =>
    refine ⟨fun l v hv => ⟨(c.1 l v hv).1, (c.1 l v hv).2.mono k hS hR⟩, c.2.imp id (fun f l v hv => ?_)⟩
    exact (f l v hv).imp (hS v (c.1 l v hv).2.1) (fun q => by rw [proxyAddr_kept k (c.1 l v hv).2.1]; exact q)
  | inst i =>
    exact ⟨fun l v hv => inR_kept k (c.1 l v hv), fun l v hv => inR_kept k (c.2.1 l v hv), fun v hv => inR_kept k (c.2.2.1 v hv),
      fun hb => ⟨(c.2.2.2 hb).1, fun l v hv => ((c.2.2.2 hb).2 l v hv).imp id (fun e => e.mono k hS hR)⟩⟩
  | proxy w =>
    cases w with
    | none => trivial
    | some v => exact ⟨inR_kept k c.1, by rw [proxyAddr_kept k c.1]; exact c.2⟩
  | idproxy n => trivial

def Cells (S : Heap → Val → Prop) (h : Heap) (R : List (Addr × Slot × Addr)) : Prop := ∀ (a : Addr) (o : Obj), h[a]? = some o → CellOk S h R a o

/-- all cells are as before, or fine -/
theorem Cells.step {h h' : Heap} {R R' : List (Addr × Slot × Addr)} (c : Cells S h R) (k : Kept h h') (hS : ∀ v, InR h v → S h v → S h' v) (hR : ∀ e ∈ R, e ∈ R')
    (hc : ∀ (a : Addr) (o : Obj), h'[a]? = some o → h[a]? = some o ∨ CellOk S h' R' a o) : Cells S h' R' := fun a o ho =>
  (hc a o ho).elim (fun e => (c a o e).mono k hS hR) id

/-- nothing is excused -/
def never (_ : Heap) (_ : Val) : Prop := False

def ObjsOk (h : Heap) (objs : List Val) (idx : List (Ident × Nat)) : Prop := ∀ (n : Nat) v, objs[n]? = some v → InR h v ∧
  ∀ p, proxyAddr h v = some p → h[p]? = some (.proxy none) ∧ idxGet (.addr p) idx = some n

/-- dict entries are noted under strings -/
def Strs (R : List (Addr × Slot × Addr)) : Prop := ∀ a k p, (a, Slot.key k, p) ∈ R → ∃ t, k = .str t

structure Inv (s : UState) : Prop where
  cells : Cells never s.heap s.proxies
  objs : ObjsOk s.heap s.objs s.idx
  strs : Strs s.proxies

theorem ObjsOk.heap {h h' : Heap} {objs idx} (o : ObjsOk h objs idx) (k : Kept h h') (hp : ∀ p : Addr, h[p]? = some (.proxy none) → h'[p]? = some (.proxy none)) :
    ObjsOk h' objs idx := fun n v hv =>
  ⟨inR_kept k (o n v hv).1, fun p q => by
    rw [proxyAddr_kept k (o n v hv).1] at q
    exact ⟨hp p ((o n v hv).2 p q).1, ((o n v hv).2 p q).2⟩⟩

/-- not a placeholder -/
def Plain : Obj → Prop
  | .proxy _ | .idproxy _ => False
  | _ => True

/-- a cell that is no placeholder is overwritten, and something may be noted -/
theorem Inv.set {s : UState} (hi : Inv s) {a : Addr} {o o' : Obj} (ho : s.heap[a]? = some o) (hs : Same o o') (hp : Plain o) (R : List (Addr × Slot × Addr))
    (hR : ∀ e ∈ s.proxies, e ∈ R) (hN : Strs R) (hc : CellOk never (s.heap.set a o') R a o') : Inv { s with heap := s.heap.set a o', proxies := R } where
  cells := hi.cells.step (Kept.set ho hs) (fun _ _ h => h) hR (fun b x hx => by
    dsimp only at hx ⊢
    rw [List.getElem?_set] at hx
    split at hx
    · next e =>
      subst e
      rw [if_pos (lt_of_get ho)] at hx
      cases hx
      exact .inr hc
    · exact .inl hx)
  objs := hi.objs.heap (Kept.set ho hs) (fun p hq => by
    dsimp only
    rw [List.getElem?_set]
    split
    · next e => subst e; rw [ho] at hq; cases hq; exact absurd hp (fun h => h)
    · exact hq)
  strs := hN

theorem Inv.alloc {s : UState} (hi : Inv s) {o : Obj} (hc : CellOk never (s.heap ++ [o]) s.proxies s.heap.length o) : Inv { s with heap := s.heap ++ [o] } where
  cells := hi.cells.step (Kept.append _ _) (fun _ _ h => h) (fun _ h => h) (fun b x hx => by
    dsimp only at hx ⊢
    rcases Nat.lt_or_ge b s.heap.length with q | q
    · rw [List.getElem?_append_left q] at hx; exact .inl hx
    · have hb : b = s.heap.length := by
        have := lt_of_get hx
        rw [List.length_append] at this
        exact Nat.le_antisymm (Nat.le_of_lt_succ this) q
      subst hb
      rw [List.getElem?_concat_length] at hx
      cases hx
      exact .inr hc)
  objs := hi.objs.heap (Kept.append _ _) (fun p hq => by
    dsimp only
    rw [List.getElem?_append_left (lt_of_get hq)]; exact hq)
  strs := hi.strs

theorem Inv.notes {s : UState} (hi : Inv s) (R : List (Addr × Slot × Addr)) (hR : ∀ e ∈ s.proxies, e ∈ R) (hN : Strs R) : Inv { s with proxies := R } where
  cells := hi.cells.step (Kept.refl _) (fun _ _ h => h) hR (fun _ _ h => .inl h)
  objs := hi.objs
  strs := hN

/-! ### programs -/

def Keeps {α : Type} (s : UState) (x : U α) (Q : UState → α → Prop) : Prop :=
  Inv s → ∀ r s', x s = some (r, s') → Inv s' ∧ Kept s.heap s'.heap ∧ ∀ a, r = .ok a → Q s' a

namespace Keeps
variable {α β : Type} {s : UState}

theorem bind {x : U α} {f : α → U β} {Q : UState → α → Prop} {R : UState → β → Prop} (hx : Keeps s x Q)
    (hf : ∀ a s1, Kept s.heap s1.heap → Q s1 a → Keeps s1 (f a) R) : Keeps s (x >>= f) R := by
  intro hi r s' h
  rw [bind_run] at h
  cases hr : x s with
  | none => rw [hr] at h; cases h
  | some p =>
    obtain ⟨r1, s1⟩ := p
    obtain ⟨h1, h2, h3⟩ := hx hi r1 s1 hr
    rw [hr] at h
    cases r1 with
    | error e => cases h; exact ⟨h1, h2, fun a ha => by cases ha⟩
    | ok a =>
      obtain ⟨h4, h5, h6⟩ := hf a s1 h2 (h3 a rfl) h1 r s' h
      exact ⟨h4, h2.trans h5, h6⟩

theorem pure {a : α} {Q : UState → α → Prop} (hq : Q s a) : Keeps s (Pure.pure a : U α) Q := by
  intro hi r s' h
  cases h
  exact ⟨hi, Kept.refl _, fun b hb => by cases hb; exact hq⟩

theorem pureI {a : α} {Q : UState → α → Prop} (hq : Inv s → Q s a) : Keeps s (Pure.pure a : U α) Q :=
  fun hi => pure (hq hi) hi

theorem throw {e : Exc} {Q : UState → α → Prop} : Keeps s (PyM.throw e : U α) Q := by
  intro hi r s' h
  cases h
  exact ⟨hi, Kept.refl _, fun b hb => by cases hb⟩

theorem ofExcept {x : Except Exc α} : Keeps s (PyM.ofExcept x : U α) (fun _ a => x = .ok a) := by
  intro hi r s' h
  cases h
  exact ⟨hi, Kept.refl _, fun b hb => hb⟩

theorem get : Keeps s (PyM.get : U UState) (fun s' a => a = s' ∧ Inv a) := by
  intro hi r s' h
  cases h
  exact ⟨hi, Kept.refl _, fun b hb => by cases hb; exact ⟨rfl, hi⟩⟩

theorem quiet {x : U α} {Q : UState → α → Prop} (h : ∀ r s', x s = some (r, s') → s'.heap = s.heap ∧ s'.proxies = s.proxies ∧ s'.objs = s.objs ∧ s'.idx = s.idx ∧ ∀ a, r = .ok a → Q s' a) : Keeps s x Q := by
  intro hi r s' hr
  obtain ⟨h1, h2, h3, h4, h5⟩ := h r s' hr
  refine ⟨⟨by rw [h1, h2]; exact hi.cells, by rw [h1, h3, h4]; exact hi.objs, by rw [h2]; exact hi.strs⟩, by rw [h1]; exact Kept.refl _, h5⟩

theorem fresh : Keeps s fresh (fun _ _ => True) := quiet (fun r s' h => by cases h; exact ⟨rfl, rfl, rfl, rfl, fun _ _ => trivial⟩)
theorem emit (e : Event) : Keeps s (emit e) (fun _ _ => True) := quiet (fun r s' h => by cases h; exact ⟨rfl, rfl, rfl, rfl, fun _ _ => trivial⟩)

theorem imp {x : U α} {Q R : UState → α → Prop} (h : ∀ s a, Q s a → R s a) (hx : Keeps s x Q) : Keeps s x R := by
  intro hi r s' h'
  obtain ⟨h1, h2, h3⟩ := hx hi r s' h'
  exact ⟨h1, h2, fun a ha => h _ _ (h3 a ha)⟩

theorem tryCatch {x : U α} {c : Exc → Bool} {f : Exc → U α} {Q : UState → α → Prop} (hx : Keeps s x Q) (hf : ∀ e s1, Kept s.heap s1.heap → Keeps s1 (f e) Q) :
    Keeps s (PyM.tryCatch x c f) Q := by
  intro hi r s' h
  unfold PyM.tryCatch at h
  cases hr : x s with
  | none => rw [hr] at h; cases h
  | some p =>
    obtain ⟨r1, s1⟩ := p
    obtain ⟨h1, h2, h3⟩ := hx hi r1 s1 hr
    rw [hr] at h
    cases r1 with
    | ok a => cases h; exact ⟨h1, h2, h3⟩
    | error e =>
      simp only at h
      split at h
      · obtain ⟨h4, h5, h6⟩ := hf e s1 h2 h1 r s' h
        exact ⟨h4, h2.trans h5, h6⟩
      · cases h; exact ⟨h1, h2, h3⟩

theorem ite {c : Prop} [Decidable c] {x y : U α} {Q} (hx : c → Keeps s x Q) (hy : ¬ c → Keeps s y Q) : Keeps s (if c then x else y) Q := by
  by_cases h : c
  · rw [if_pos h]; exact hx h
  · rw [if_neg h]; exact hy h

theorem alloc {o : Obj} (hc : ∀ h R a, CellOk never h R a o) : Keeps s (alloc o) (fun s' a => s'.heap[a]? = some o) := by
  intro hi r s' h
  cases h
  exact ⟨hi.alloc (hc _ _ _), Kept.append _ _, fun b hb => by cases hb; simp⟩

/-- an object whose parts are known not to be placeholders -/
theorem allocI {o : Obj} (hc : Inv s → ∀ a, CellOk never (s.heap ++ [o]) s.proxies a o) : Keeps s (Unpickler.alloc o) (fun s' a => s'.heap[a]? = some o) := by
  intro hi r s' h
  cases h
  exact ⟨hi.alloc (hc hi _), Kept.append _ _, fun b hb => by cases hb; simp⟩

theorem mkref {v : Val} (hv : InR s.heap v) (hp : ∀ p, proxyAddr s.heap v = some p → s.heap[p]? = some (.proxy none)) : Keeps s (mkref v) (fun _ w => w = v) := by
  intro hi r s' h
  unfold Unpickler.mkref at h
  split at h
  · cases h; exact ⟨hi, Kept.refl _, fun a ha => by cases ha; rfl⟩
  · next hn =>
    cases h
    refine ⟨⟨hi.cells, fun n w hw => ?_, hi.strs⟩, Kept.refl _, fun a ha => by cases ha; rfl⟩
    dsimp only at hw ⊢
    rcases Nat.lt_or_ge n s.objs.length with q | q
    · rw [List.getElem?_append_left q] at hw
      refine ⟨(hi.objs n w hw).1, fun p hq => ⟨((hi.objs n w hw).2 p hq).1, ?_⟩⟩
      rw [idxGet_append, ((hi.objs n w hw).2 p hq).2]
      rfl
    · have hl : n = s.objs.length := by
        rcases Nat.lt_or_ge n (s.objs ++ [v]).length with q' | q'
        · rw [List.length_append] at q'
          simp only [List.length_cons, List.length_nil] at q'
          omega
        · rw [List.getElem?_eq_none q'] at hw; cases hw
      subst hl
      rw [List.getElem?_concat_length] at hw
      cases hw
      refine ⟨hv, fun p hq => ⟨hp p hq, ?_⟩⟩
      have : v = .ref p := by
        cases v with
        | ref a =>
          simp only [proxyAddr] at hq
          split at hq <;> cases hq <;> rfl
        | _ => cases hq
      subst this
      rw [idxGet_append, show idxGet (.addr p) s.idx = none from hn, if_pos (show (Val.ref p).ident = .addr p from rfl)]
      rfl

/-- a placeholder is replaced by what it stands for -/
theorem replace {p : Addr} {v : Val} {k : U α} {Q} (hp : ∃ w, s.heap[p]? = some (.proxy w)) (hv : InR s.heap v) (hn : proxyAddr s.heap v = none)
    (hk : ∀ s1, Kept s.heap s1.heap → Keeps s1 k Q) : Keeps s (setCell p (.proxy (some v)) >>= fun _ => swapref p v >>= fun _ => k) Q := by
  intro hi r s' h
  obtain ⟨w, hw⟩ := hp
  have k1 : Kept s.heap (s.heap.set p (.proxy (some v))) := Kept.set hw trivial
  have hcells : Cells never (s.heap.set p (.proxy (some v))) s.proxies := hi.cells.step k1 (fun _ _ h => h) (fun _ h => h) (fun b x hx => by
    rw [List.getElem?_set] at hx
    split at hx
    · next e =>
      subst e
      rw [if_pos (lt_of_get hw)] at hx
      cases hx
      exact .inr ⟨inR_kept k1 hv, by rw [proxyAddr_kept k1 hv]; exact hn⟩
    · exact .inl hx)
  have hne : ∀ q : Addr, q ≠ p → s.heap[q]? = some (.proxy none) → (s.heap.set p (.proxy (some v)))[q]? = some (.proxy none) := by
    intro q hq h
    rw [List.getElem?_set, if_neg (Ne.symm hq)]
    exact h
  rw [bind_ok (a := ()) (s' := { s with heap := s.heap.set p (.proxy (some v)) }) rfl, bind_run] at h
  unfold swapref at h
  cases hg : idxGet (.addr p) s.idx with
  | none =>
    dsimp only at h
    rw [hg] at h
    cases h
    refine ⟨⟨hcells, fun n x hx => ?_, hi.strs⟩, k1, fun a ha => by cases ha⟩
    dsimp only at hx ⊢
    have := hi.objs n x hx
    refine ⟨inR_kept k1 this.1, fun q hq => ?_⟩
    rw [proxyAddr_kept k1 this.1] at hq
    have h2 := this.2 q hq
    refine ⟨hne q (fun e => ?_) h2.1, h2.2⟩
    rw [e, hg] at h2
    cases h2.2
  | some m =>
    dsimp only at h
    rw [hg] at h
    dsimp only at h
    have hinv : Inv { s with heap := s.heap.set p (.proxy (some v)), idx := (s.idx.filter (fun q => q.1 != .addr p && q.1 != v.ident)) ++ [(v.ident, m)], objs := s.objs.set m v } := by
      refine ⟨hcells, fun n x hx => ?_, hi.strs⟩
      dsimp only at hx ⊢
      rw [List.getElem?_set] at hx
      split at hx
      · split at hx
        · cases hx
          exact ⟨inR_kept k1 hv, fun q hq => by rw [proxyAddr_kept k1 hv, hn] at hq; cases hq⟩
        · cases hx
      · next hmn =>
        have := hi.objs n x hx
        refine ⟨inR_kept k1 this.1, fun q hq => ?_⟩
        rw [proxyAddr_kept k1 this.1] at hq
        have h2 := this.2 q hq
        have hqp : q ≠ p := fun e => by rw [e, hg] at h2; exact hmn (by cases h2.2; rfl)
        have hqv : (Ident.addr q) ≠ v.ident := by
          intro e
          have : v = .ref q := by cases v <;> simp only [Val.ident] at e <;> cases e; rfl
          subst this
          simp only [proxyAddr, h2.1] at hn
          cases hn
        refine ⟨hne q hqp h2.1, ?_⟩
        rw [idxGet_append, idxGet_filter (fun n => by simp [hqp, hqv]), h2.2]
        rfl
    obtain ⟨h4, h5, h6⟩ := hk _ k1 hinv r s' h
    exact ⟨h4, k1.trans h5, h6⟩

theorem modInst (a : Addr) {f : Inst → Inst} (hf : ∀ i, (f i).items = i.items ∧ (f i).attrs = i.attrs ∧ (f i).factory = i.factory ∧ (f i).info = i.info ∧ (f i).dictCell = i.dictCell) :
    Keeps s (modInst a f) (fun _ _ => True) := by
  intro hi r s' h
  unfold Unpickler.modInst at h
  rw [modify_run] at h
  cases h
  split
  · next i ha =>
    have k1 : Kept s.heap (s.heap.set a (.inst (f i))) := Kept.set ha trivial
    refine ⟨hi.set (o' := .inst (f i)) ha trivial trivial s.proxies (fun _ h => h) hi.strs ?_, k1, fun _ _ => trivial⟩
    have c := (hi.cells a _ ha).mono k1 (fun _ _ h => h) (fun _ h => h)
    obtain ⟨h1, h2, h3, h4, h5⟩ := hf i
    refine ⟨by rw [h1]; exact c.1, by rw [h2]; exact c.2.1, by rw [h3]; exact c.2.2.1, fun hb => ?_⟩
    rw [h4] at hb
    refine ⟨by rw [h5]; exact (c.2.2.2 hb).1, fun k v hv => ?_⟩
    rw [h2] at hv
    refine ((c.2.2.2 hb).2 k v hv).imp (fun e => ?_) id
    unfold Hidden mangle at e ⊢
    rw [h4]
    exact e
  · exact ⟨hi, Kept.refl _, fun _ _ => trivial⟩

theorem mapM {f : α → U β} {P : UState → β → Prop} (hP : ∀ s s' b, Kept s.heap s'.heap → P s b → P s' b) : ∀ (xs : List α) (s : UState), (∀ x ∈ xs, ∀ s1, Kept s.heap s1.heap → Keeps s1 (f x) P) →
    Keeps s (PyM.mapM f xs) (fun s' vs => ∀ v ∈ vs, P s' v)
  | [], s, _ => pure (fun _ h => by cases h)
  | x :: xs, s, h => by
    rw [mapM_cons]
    refine bind (h x (.head _) s (Kept.refl _)) (fun v s1 k1 hv => ?_)
    refine bind (mapM hP xs s1 (fun y hy s2 k2 => h y (.tail _ hy) s2 (k1.trans k2))) (fun vs s2 k2 hvs => ?_)
    refine pure (fun w hw => ?_)
    rcases List.mem_cons.1 hw with rfl | hw
    · exact hP _ _ _ k2 hv
    · exact hvs w hw

theorem mapU {f : α → U β} : ∀ (xs : List α) (s : UState), (∀ x ∈ xs, ∀ s1, Kept s.heap s1.heap → Keeps s1 (f x) (fun _ _ => True)) → Keeps s (PyM.mapM f xs) (fun _ _ => True) :=
  fun xs s h => imp (fun _ _ _ => trivial) (mapM (P := fun _ _ => True) (fun _ _ _ _ h => h) xs s h)

theorem foldM {f : List Val → α → U (List Val)} : ∀ (xs : List α) (s : UState) (b : List Val), (∀ b, ∀ x ∈ xs, ∀ s, Keeps s (f b x) (fun _ _ => True)) →
    Keeps s (PyM.foldM f b xs) (fun _ _ => True)
  | [], s, b, _ => pure trivial
  | x :: xs, s, b, h => by
    rw [foldM_cons]
    exact bind (h b x (.head _) s) (fun v s1 _ hv => foldM xs s1 v (fun b y hy => h b y (.tail _ hy)))

end Keeps

theorem inR_get {h : Heap} {a : Addr} {o : Obj} (ho : h[a]? = some o) : InR h (.ref a) := fun p hp => by cases hp; exact lt_of_get ho

theorem inR_kept_get {h h' : Heap} {a : Addr} {o : Obj} (ho : h[a]? = some o) (k : Kept h h') : InR h' (.ref a) := inR_kept k (inR_get ho)

theorem plain_get {h : Heap} {a : Addr} {o : Obj} (ho : h[a]? = some o) (hp : Plain o) : proxyAddr h (.ref a) = none := by
  simp only [proxyAddr, ho]
  cases o <;> simp only [Plain] at hp <;> rfl

theorem proxy_get {h : Heap} {a : Addr} {w} (ho : h[a]? = some (.proxy w)) {h' : Heap} (k : Kept h h') : ∃ w, h'[a]? = some (.proxy w) := by
  obtain ⟨o', e, q⟩ := k _ _ ho
  cases o' <;> simp only [Same] at q
  exact ⟨_, e⟩

/-- a list that is filled -/
theorem keeps_fill {s : UState} {a : Addr} {vs ws : List Val} (ha : s.heap[a]? = some (.list ws)) (hv : ∀ v ∈ vs, InR s.heap v) {α : Type} {k : U α} {Q}
    (hk : ∀ s1, Kept s.heap s1.heap → Keeps s1 k Q) : Keeps s (setCell a (.list vs) >>= fun _ => noteList a 0 vs >>= fun _ => k) Q := by
  intro hi r s' h
  have k1 : Kept s.heap (s.heap.set a (.list vs)) := Kept.set ha trivial
  rw [bind_ok (a := ()) (s' := { s with heap := s.heap.set a (.list vs) }) rfl, bind_ok (noteList_eq a vs 0 _)] at h
  have := hi.set (o' := .list vs) ha trivial trivial (s.proxies ++ notesOf (s.heap.set a (.list vs)) a 0 vs) (fun e he => List.mem_append_left _ he)
    (fun b k p hm => (List.mem_append.1 hm).elim (hi.strs b k p) (fun hm => by obtain ⟨_, _, _, e, _⟩ := notesOf_mem hm; cases e)) (by
    intro i v hiv
    refine ⟨inR_kept k1 (hv v (List.mem_of_getElem? hiv)), .inr (fun p hp => List.mem_append_right _ ?_)⟩
    have := mem_notesOf (a := a) (n := 0) hiv hp
    rwa [Nat.zero_add] at this)
  obtain ⟨h4, h5, h6⟩ := hk _ k1 this r s' h
  exact ⟨h4, k1.trans h5, h6⟩

theorem mem_vset_weak {k : Val} {w v : Val} {l : Val} : ∀ {es : List (Val × Val)}, (l, v) ∈ vset k w es → (∃ u, (l, u) ∈ es) ∧ v = w ∨ (l, v) ∈ es ∨ l = k ∧ v = w
  | [], h => by
    simp only [vset, List.mem_singleton, Prod.mk.injEq] at h
    exact .inr (.inr h)
  | (m, x) :: es, h => by
    simp only [vset] at h
    split at h
    · rcases List.mem_cons.1 h with h | h
      · cases h; exact .inl ⟨⟨x, .head _⟩, rfl⟩
      · exact .inr (.inl (.tail _ h))
    · rcases List.mem_cons.1 h with h | h
      · cases h; exact .inr (.inl (.head _))
      · rcases mem_vset_weak h with ⟨⟨u, hu⟩, e⟩ | h | h
        · exact .inl ⟨⟨u, .tail _ hu⟩, e⟩
        · exact .inr (.inl (.tail _ h))
        · exact .inr (.inr h)

theorem nodup_vset {k : Str} {w : Val} {es : List (Val × Val)} (hk : ∀ l v, (l, v) ∈ es → ∃ s, l = .str s) (hn : (es.map (·.1)).Nodup) :
    ((vset (.str k) w es).map (·.1)).Nodup := by
  rcases vset_keys (k := k) (w := w) hk with e | ⟨hm, e⟩
  · rw [e]; exact hn
  · rw [e, List.nodup_append]
    refine ⟨hn, by simp, fun y hy z hz => ?_⟩
    rw [List.mem_singleton.1 hz]
    exact fun he => hm (he ▸ hy)

theorem strs_key {R : List (Addr × Slot × Addr)} (h : Strs R) {a : Addr} {k : Str} {p : Addr} : Strs (R ++ [(a, .key (.str k), p)]) := fun b l q hm =>
  (List.mem_append.1 hm).elim (h b l q) (fun e => by cases List.mem_singleton.1 e; exact ⟨k, rfl⟩)

theorem strs_attr {R : List (Addr × Slot × Addr)} (h : Strs R) {a : Addr} {k : Val} {p : Addr} : Strs (R ++ [(a, .attr k, p)]) := fun b l q hm =>
  (List.mem_append.1 hm).elim (h b l q) (fun e => by cases List.mem_singleton.1 e)

/-- an entry that is stored and noted -/
theorem keeps_entry {s : UState} {a : Addr} {k : Str} {v : Val} {es : List (Val × Val)} (ha : s.heap[a]? = some (.dict es)) (hn : (es.map (·.1)).Nodup) (hv : InR s.heap v) :
    Keeps s (do dictSet a (.str k) v; noteProxy a (.key (.str k)) v) (fun _ _ => True) := by
  intro hi r s' h
  have hset : dictSet a (.str k) v s = some (.ok (), { s with heap := s.heap.set a (.dict (vset (.str k) v es)) }) := by
    unfold dictSet
    rw [if_pos (by rfl), ha]
  have c := hi.cells a _ ha
  have hs : Same (.dict es) (.dict (vset (.str k) v es)) := nodup_vset (fun l v h => (c.1 l v h).1)
  have k1 : Kept s.heap (s.heap.set a (.dict (vset (.str k) v es))) := Kept.set ha hs
  rw [bind_ok hset] at h
  have key : ∀ R, (∀ e ∈ s.proxies, e ∈ R) → (∀ p, proxyAddr (s.heap.set a (.dict (vset (.str k) v es))) v = some p → (a, .key (.str k), p) ∈ R) →
      Strs R → Inv { s with heap := s.heap.set a (.dict (vset (.str k) v es)), proxies := R } := by
    intro R hR hp hN
    refine hi.set ha hs trivial R hR hN ⟨fun l w hw => ?_, .inl (hs hn)⟩
    rcases mem_vset (fun l v h' => (c.1 l v h').1) hn hw with ⟨hlk, hw'⟩ | ⟨rfl, rfl⟩
    · exact ⟨(c.1 l w hw').1, (c.1 l w hw').2.mono k1 (fun _ _ h => h) hR⟩
    · exact ⟨⟨k, rfl⟩, inR_kept k1 hv, .inr hp⟩
  unfold noteProxy at h
  rw [modify_run] at h
  cases h
  dsimp only
  cases hp : proxyAddr (s.heap.set a (.dict (vset (.str k) v es))) v with
  | none => exact ⟨key _ (fun _ h => h) (fun p hq => by rw [hp] at hq; cases hq) hi.strs, k1, fun _ _ => trivial⟩
  | some p => exact ⟨key _ (fun _ h => List.mem_append_left _ h) (fun q hq => by rw [hp] at hq; cases hq; exact List.mem_append_right _ (.head _)) (strs_key hi.strs), k1, fun _ _ => trivial⟩

end JP.Unpickler.Held
