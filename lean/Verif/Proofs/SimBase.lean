import Verif.GraphSpec
import Verif.JsonSpec
import Verif.Unpickler
/-!
# Relating the encoder's and the decoder's reference tables

Groundwork for the round-trip theorems: the invariant `Rel` between the list of registered ids of the
encoder and the table of objects of the decoder, and `Step`, what one recursive call does to both.
-/
namespace JP.Sim
open JP PyM

/-! ### `VIso` -/

theorem All2.mono {α β : Type} {p q : α → β → Prop} (h : ∀ x y, p x y → q x y) :
    ∀ {xs : List α} {ys : List β}, All2 p xs ys → All2 q xs ys
  | [], [], _ => trivial
  | _ :: _, _ :: _, ⟨a, b⟩ => ⟨h _ _ a, All2.mono h b⟩
  | [], _ :: _, h => h.elim
  | _ :: _, [], h => h.elim

theorem All2.append {α β : Type} {p : α → β → Prop} :
    ∀ {xs : List α} {ys : List β} {xs' : List α} {ys' : List β},
      All2 p xs ys → All2 p xs' ys' → All2 p (xs ++ xs') (ys ++ ys')
  | [], [], _, _, _, h => h
  | _ :: _, _ :: _, _, _, ⟨a, b⟩, h => ⟨a, All2.append b h⟩
  | [], _ :: _, _, _, h, _ => h.elim
  | _ :: _, [], _, _, h, _ => h.elim

theorem All2.length {α β : Type} {p : α → β → Prop} :
    ∀ {xs : List α} {ys : List β}, All2 p xs ys → xs.length = ys.length
  | [], [], _ => rfl
  | _ :: _, _ :: _, ⟨_, b⟩ => by simp [All2.length b]
  | [], _ :: _, h => h.elim
  | _ :: _, [], h => h.elim

theorem VIsos_iff {R : Addr → Addr → Prop} : ∀ {xs ys : List Val}, VIsos R xs ys ↔ All2 (VIso R) xs ys
  | [], [] => by simp [VIsos, All2]
  | x :: xs, y :: ys => by simp [VIsos, All2, VIsos_iff (xs := xs)]
  | [], _ :: _ => by simp [VIsos, All2]
  | _ :: _, [] => by simp [VIsos, All2]

mutual
theorem VIso.mono {R R' : Addr → Addr → Prop} (h : ∀ a b, R a b → R' a b) :
    ∀ (v x : Val), VIso R v x → VIso R' v x := by
  intro v x hv
  match v with
  | .tuple _ xs =>
    cases x <;> simp only [VIso] at hv ⊢
    exact VIsos.mono h xs _ hv
  | .set _ xs =>
    cases x <;> simp only [VIso] at hv ⊢
    exact VIsos.mono h xs _ hv
  | .ref a => cases x <;> simp only [VIso] at hv ⊢; exact h _ _ hv
  | .none => cases x <;> simp_all [VIso]
  | .bool _ => cases x <;> simp_all [VIso]
  | .int _ => cases x <;> simp_all [VIso]
  | .float _ => cases x <;> simp_all [VIso]
  | .str _ => cases x <;> simp_all [VIso]
  | .bytes _ _ => cases x <;> simp_all [VIso]
  | .bytearray _ _ => cases x <;> simp_all [VIso]
  | .type _ => cases x <;> simp_all [VIso]
  | .func _ => cases x <;> simp_all [VIso]
  | .lambda _ => cases x <;> simp_all [VIso]
  | .module _ => cases x <;> simp_all [VIso]
theorem VIsos.mono {R R' : Addr → Addr → Prop} (h : ∀ a b, R a b → R' a b) :
    ∀ (vs xs : List Val), VIsos R vs xs → VIsos R' vs xs := by
  intro vs xs hv
  match vs with
  | [] => cases xs <;> simp_all [VIsos]
  | v :: vs =>
    cases xs with
    | nil => simp [VIsos] at hv
    | cons x xs =>
      simp only [VIsos] at hv ⊢
      exact ⟨VIso.mono h v x hv.1, VIsos.mono h vs xs hv.2⟩
end

theorem ItemsIso.mono {R R' : Addr → Addr → Prop} (h : ∀ a b, R a b → R' a b) {xs ys}
    (hv : ItemsIso R xs ys) : ItemsIso R' xs ys :=
  All2.mono (fun _ _ p => ⟨VIso.mono h _ _ p.1, VIso.mono h _ _ p.2⟩) hv

theorem FieldsIso.mono {R R' : Addr → Addr → Prop} (h : ∀ a b, R a b → R' a b) {xs ys}
    (hv : FieldsIso R xs ys) : FieldsIso R' xs ys :=
  All2.mono (fun _ _ p => ⟨p.1, VIso.mono h _ _ p.2⟩) hv

theorem OpIso.mono {R R' : Addr → Addr → Prop} (h : ∀ a b, R a b → R' a b) {o o' : Op} (hv : OpIso R o o') : OpIso R' o o' := by
  cases o <;> cases o' <;> simp only [OpIso] at hv ⊢
  · exact VIso.mono h _ _ hv
  · exact VIso.mono h _ _ hv
  · exact ⟨hv.1, VIso.mono h _ _ hv.2⟩
  · exact ⟨VIso.mono h _ _ hv.1, VIso.mono h _ _ hv.2⟩
  · exact VIsos.mono h _ _ hv
  · exact VIso.mono h _ _ hv
  · exact ⟨VIso.mono h _ _ hv.1, VIso.mono h _ _ hv.2⟩

theorem SameCtor.mono {R R' : Addr → Addr → Prop} (h : ∀ a b, R a b → R' a b) {i i' : Inst}
    (hv : SameCtor R i i') : SameCtor R' i i' :=
  ⟨hv.noInit, hv.noReduce, fun e e' => VIso.mono h _ _ (hv.newargs e e'), fun e => ⟨VIso.mono h _ _ (hv.newargsEx e).1, VIso.mono h _ _ (hv.newargsEx e).2⟩,
    fun e e' e'' => VIso.mono h _ _ (hv.initargs e e' e'')⟩

theorem SameInst.mono {order : List (Val × Val) → List (Val × Val)} {hd : Str → Bool} {hS hT hT' : Heap} {R R' : Addr → Addr → Prop}
    (h : ∀ a b, R a b → R' a b) {i i' : Inst} (hd' : ∀ d, i'.dictCell = some d → hT'[d]? = hT[d]?)
    (hv : SameInst order hd hS hT R i i') : SameInst order hd hS hT' R' i i' := by
  have hat : instAttrs hT' i' = instAttrs hT i' := by
    unfold instAttrs
    split
    · rfl
    · next d hd2 => rw [hd' d hd2]
  cases hv with
  | handled h1 h2 h2' h3 => exact .handled h1 h2 h2' (FieldsIso.mono h h3)
  | reduced h1 h2 h3 h4 h5 h6 h7 => exact .reduced h1 h2 h3 h4 (VIsos.mono h _ _ h5) h6 (All2.mono (fun _ _ => OpIso.mono h) h7)
  | state h1 h2 h3 h4 h5 h6 h7 h8 => exact .state h1 h2 h3 h4 h5 h6 (VIso.mono h _ _ h7) (SameCtor.mono h h8)
  | stateAttrs h1 h2 h3 h4 h5 h6 h7 h8 h9 h10 h11 h12 h13 =>
    exact .stateAttrs h1 h2 h3 h4 h5 h6 h7 (FieldsIso.mono h h8) h9 h10 h11 h12 (SameCtor.mono h h13)
  | fields h1 h2 h3 h4 h4' h5 h6 h7 h8 h9 =>
    refine .fields h1 h2 h3 h4 h4' (hat ▸ ItemsIso.mono h h5) (ItemsIso.mono h h6) (VIsos.mono h _ _ h7) ?_
      (SameCtor.mono h h9)
    split at h8
    · exact VIso.mono h _ _ h8
    · trivial
    · exact h8.elim

theorem SameCell.mono {order hd} {hS hT hT' : Heap} {R R' : Addr → Addr → Prop}
    (h : ∀ a b, R a b → R' a b) {o o' : Obj}
    (hd' : ∀ i d, o' = .inst i → i.dictCell = some d → hT'[d]? = hT[d]?)
    (hv : SameCell order hd hS hT R o o') : SameCell order hd hS hT' R' o o' := by
  cases o <;> cases o' <;> simp only [SameCell] at hv ⊢
  · exact VIsos.mono h _ _ hv
  · exact ItemsIso.mono h hv
  · exact SameInst.mono h (fun d hdd => hd' _ d rfl hdd) hv

/-! ### the tables -/

/-- Objects under construction: `bad`, those whose cell is still a placeholder on the decoder's side; `opn`, lists and dicts
that are not filled in completely yet; `own`, objects whose state is at hand. -/
structure Ctx where
  bad : List Addr := []
  opn : List Addr := []
  own : List Addr := []

instance : Membership Addr Ctx := ⟨fun C a => a ∈ C.bad⟩

def Ctx.hold (C : Ctx) (a : Addr) : Ctx := { C with bad := a :: C.bad }
def Ctx.serve (C : Ctx) (a : Addr) : Ctx := { C with own := a :: C.own }
def Ctx.enter (C : Ctx) (a : Addr) : Ctx := { C with opn := a :: C.opn }

theorem Ctx.mem_hold {C : Ctx} {a x : Addr} : x ∈ C.hold a ↔ x = a ∨ x ∈ C := List.mem_cons
theorem Ctx.mem_enter {C : Ctx} {a x : Addr} : x ∈ C.enter a ↔ x ∈ C := Iff.rfl
theorem Ctx.mem_hold_of {C : Ctx} {a x : Addr} (h : x ∈ C) : x ∈ C.hold a := List.mem_cons_of_mem _ h
theorem Ctx.mem_hold_self {C : Ctx} {a : Addr} : a ∈ C.hold a := List.mem_cons_self

/-- a list or dict has been filled in -/
def Filled (hS hT : Heap) (R : Addr → Addr → Prop) (a b : Addr) : Prop :=
  (∀ xs, hS[a]? = some (.list xs) → ∃ ys, hT[b]? = some (.list ys) ∧ VIsos R xs ys) ∧
  (∀ kvs, hS[a]? = some (.dict kvs) → ∃ keys kvs', hT[b]? = some (.dict kvs') ∧ ItemsIso R (writeOrder keys kvs) kvs')

theorem Filled.mono {hS hT hT' : Heap} {R R' : Addr → Addr → Prop} {a b : Addr} (h : ∀ a b, R a b → R' a b)
    (hc : (∃ i, hS[a]? = some (.inst i)) ∨ hT'[b]? = hT[b]?) (hf : Filled hS hT R a b) : Filled hS hT' R' a b := by
  constructor
  · intro xs hx
    rcases hc with ⟨i, hi⟩ | hc
    · rw [hi] at hx; cases hx
    obtain ⟨ys, e1, e2⟩ := hf.1 xs hx
    exact ⟨ys, by rw [hc]; exact e1, VIsos.mono h _ _ e2⟩
  · intro xs hx
    rcases hc with ⟨i, hi⟩ | hc
    · rw [hi] at hx; cases hx
    obtain ⟨keys, ys, e1, e2⟩ := hf.2 xs hx
    exact ⟨keys, ys, by rw [hc]; exact e1, ItemsIso.mono h e2⟩

theorem Filled.inst {hS hT : Heap} {R : Addr → Addr → Prop} {a b : Addr} {i : Inst} (hi : hS[a]? = some (.inst i)) : Filled hS hT R a b :=
  ⟨(fun _ h => by rw [hi] at h; cases h), (fun _ h => by rw [hi] at h; cases h)⟩

theorem Filled.of {hS hT : Heap} {R : Addr → Addr → Prop} {a b : Addr} {keys : Bool} {hd : Str → Bool} {o o' : Obj}
    (h1 : hS[a]? = some o) (h2 : hT[b]? = some o') (h : SameCell (writeOrder keys) hd hS hT R o o') : Filled hS hT R a b := by
  constructor
  · intro xs hx
    rw [h1] at hx
    cases hx
    cases o' <;> simp only [SameCell] at h
    exact ⟨_, h2, h⟩
  · intro kvs hx
    rw [h1] at hx
    cases hx
    cases o' <;> simp only [SameCell] at h
    exact ⟨keys, _, h2, h⟩

/-- the correspondence of cells given by the two tables -/
def Rof (Bad : Ctx) (P : List Ident) (Q : List Val) (a b : Addr) : Prop :=
  a ∉ Bad ∧ ∃ k : Nat, P[k]? = some (.addr a) ∧ Q[k]? = some (.ref b)

/-- the two cells have the same kind of object, as far as hashing is concerned -/
def SameKind : Obj → Obj → Prop
  | .list _, .list _ => True
  | .dict _, .dict _ => True
  | .inst i, .inst i' => i'.info.base = i.info.base
  | _, _ => False

/-- The encoder has registered the ids `P`; the decoder is in state `u`.  `Bad`: objects whose cell is
still a placeholder on the decoder's side. -/
structure Rel (hS : Heap) (Bad : Ctx) (P : List Ident) (u : UState) : Prop where
  len : P.length = u.objs.length
  nodup : P.Nodup
  addr : ∀ (k : Nat) a, P[k]? = some (.addr a) → ∃ b, u.objs[k]? = some (.ref b) ∧
    (a ∉ Bad → ∃ o o', hS[a]? = some o ∧ u.heap[b]? = some o' ∧ SameKind o o')
  mod : ∀ (k : Nat) n, P[k]? = some (.mod n) → u.objs[k]? = some (.module n)
  lt : ∀ (k b : Nat), u.objs[k]? = some (.ref b) → b < u.heap.length
  inj : ∀ (k k' b : Nat), u.objs[k]? = some (.ref b) → u.objs[k']? = some (.ref b) → k = k'
  idxAddr : ∀ (b k : Nat), Unpickler.idxGet (.addr b) u.idx = some k → b < u.heap.length
  idxMod : ∀ n k, Unpickler.idxGet (.mod n) u.idx = some k → .mod n ∈ P
  bad : ∀ a ∈ Bad, .addr a ∈ P
  serve : ∀ a ∈ Bad.own, .addr a ∈ P
  own : ∀ x, .dictOf x ∈ P → .addr x ∈ P
  filled : ∀ (k : Nat) a b, P[k]? = some (.addr a) → u.objs[k]? = some (.ref b) → a ∉ Bad → a ∉ Bad.opn →
    Filled hS u.heap (Rof Bad P u.objs) a b

/-- What changes on the decoder's side: only cells in `X` and new cells are written. -/
structure Ext (X : List Addr) (u u' : UState) : Prop where
  len : u.heap.length ≤ u'.heap.length
  cells : ∀ (b : Nat), b < u.heap.length → b ∉ X → u'.heap[b]? = u.heap[b]?
  objs : u.objs <+: u'.objs
  idx : ∀ i k, Unpickler.idxGet i u.idx = some k → Unpickler.idxGet i u'.idx = some k
  proxies : u'.proxies = u.proxies
  /-- no placeholder for an unknown number was made -/
  idp : ∀ (b : Nat) (n : Int), u'.heap[b]? = some (.idproxy n) → u.heap[b]? = some (.idproxy n)

/-- The objects registered at numbers `≥ k0` are rebuilt completely, in cells `≥ b0`. -/
def Done (order : List (Val × Val) → List (Val × Val)) (hd : Str → Bool) (hS : Heap) (Bad : Ctx)
    (k0 b0 : Nat) (P : List Ident) (u : UState) : Prop :=
  ∀ (k : Nat) a, k0 ≤ k → P[k]? = some (.addr a) → ∃ (b : Nat) (o o' : Obj), hS[a]? = some o ∧
    u.objs[k]? = some (.ref b) ∧ u.heap[b]? = some o' ∧ b0 ≤ b ∧
    (∀ (i : Inst) (d : Nat), o' = .inst i → i.dictCell = some d → b0 ≤ d ∧ d < u.heap.length) ∧
    SameCell order hd hS u.heap (Rof Bad P u.objs) o o'

section
variable {hS : Heap} {order : List (Val × Val) → List (Val × Val)} {hd : Str → Bool}
variable {Bad Bad' : Ctx} {X : List Addr} {P P' : List Ident} {u u' u1 u2 : UState}

theorem prefix_get {α} {l l' : List α} (h : l <+: l') {k : Nat} {x : α} (hx : l[k]? = some x) :
    l'[k]? = some x := by
  obtain ⟨t, rfl⟩ := h
  rw [List.getElem?_append_left (by have := (List.getElem?_eq_some_iff.1 hx).1; exact this)]
  exact hx

theorem Rof.mono {Q Q' : List Val} (hB : ∀ a ∈ Bad', a ∈ Bad) (hP : P <+: P') (hQ : Q <+: Q') :
    ∀ a b, Rof Bad P Q a b → Rof Bad' P' Q' a b :=
  fun _ _ ⟨h, k, h1, h2⟩ => ⟨fun h' => h (hB _ h'), k, prefix_get hP h1, prefix_get hQ h2⟩

theorem nodup_get {α} {l : List α} (h : l.Nodup) {k k' : Nat} {x : α} (h1 : l[k]? = some x)
    (h2 : l[k']? = some x) : k = k' := by
  obtain ⟨hk, e1⟩ := List.getElem?_eq_some_iff.1 h1
  obtain ⟨hk', e2⟩ := List.getElem?_eq_some_iff.1 h2
  rcases Nat.lt_trichotomy k k' with hlt | heq | hlt
  · exact absurd (e1.trans e2.symm) (List.pairwise_iff_getElem.1 h k k' hk hk' hlt)
  · exact heq
  · exact absurd (e2.trans e1.symm) (List.pairwise_iff_getElem.1 h k' k hk' hk hlt)

theorem Rel.func (r : Rel hS Bad P u) {a b b'} (h : Rof Bad P u.objs a b) (h' : Rof Bad P u.objs a b') :
    b = b' := by
  obtain ⟨_, k, h1, h2⟩ := h
  obtain ⟨_, k', h3, h4⟩ := h'
  have := nodup_get r.nodup h1 h3
  subst this
  rw [h2] at h4; injection h4 with h4; injection h4

theorem Rel.inje (r : Rel hS Bad P u) {a a' b} (h : Rof Bad P u.objs a b) (h' : Rof Bad P u.objs a' b) :
    a = a' := by
  obtain ⟨_, k, h1, h2⟩ := h
  obtain ⟨_, k', h3, h4⟩ := h'
  have := r.inj _ _ _ h2 h4
  subst this
  rw [h1] at h3; injection h3 with h3; injection h3

theorem Rel.kind (r : Rel hS Bad P u) {a b} (h : Rof Bad P u.objs a b) :
    ∃ o o', hS[a]? = some o ∧ u.heap[b]? = some o' ∧ SameKind o o' := by
  obtain ⟨hb, k, h1, h2⟩ := h
  obtain ⟨b', h3, h4⟩ := r.addr k a h1
  rw [h2] at h3; injection h3 with h3; injection h3 with h3; subst h3
  exact h4 hb

theorem Rel.notProxy (r : Rel hS Bad P u) {v x : Val} (h : VIso (Rof Bad P u.objs) v x) :
    Unpickler.proxyAddr u.heap x = none := by
  cases x with
  | ref b =>
    cases v <;> simp only [VIso] at h
    obtain ⟨o, o', _, h2, h3⟩ := r.kind h
    simp only [Unpickler.proxyAddr, h2]
    cases o <;> cases o' <;> simp [SameKind] at h3 ⊢
  | _ => rfl

mutual
theorem Rel.hashable_iso (r : Rel hS Bad P u) : ∀ {v x : Val}, VIso (Rof Bad P u.objs) v x →
    hashable hS v = true → hashable u.heap x = true
  | .tuple _ xs, x, h, hh => by
    cases x <;> simp only [VIso] at h
    simp only [hashable] at hh ⊢
    exact r.hashables_iso h hh
  | .ref a, x, h, hh => by
    cases x <;> simp only [VIso] at h
    obtain ⟨o, o', h1, h2, h3⟩ := r.kind h
    simp only [hashable, h1, h2] at hh ⊢
    cases o <;> cases o' <;> simp_all [SameKind]
  | .set _ _, _, _, hh => by simp [hashable] at hh
  | .bytearray _ _, _, _, hh => by simp [hashable] at hh
  | .none, x, h, _ => by cases x <;> simp_all [VIso, hashable]
  | .bool _, x, h, _ => by cases x <;> simp_all [VIso, hashable]
  | .int _, x, h, _ => by cases x <;> simp_all [VIso, hashable]
  | .float _, x, h, _ => by cases x <;> simp_all [VIso, hashable]
  | .str _, x, h, _ => by cases x <;> simp_all [VIso, hashable]
  | .bytes _ _, x, h, _ => by cases x <;> simp_all [VIso, hashable]
  | .type _, x, h, _ => by cases x <;> simp_all [VIso, hashable]
  | .func _, x, h, _ => by cases x <;> simp_all [VIso, hashable]
  | .lambda _, x, h, _ => by cases x <;> simp_all [VIso]
  | .module _, x, h, _ => by cases x <;> simp_all [VIso, hashable]
theorem Rel.hashables_iso (r : Rel hS Bad P u) : ∀ {v x : List Val}, VIsos (Rof Bad P u.objs) v x →
    hashables hS v = true → hashables u.heap x = true
  | [], x, h, _ => by cases x <;> simp_all [VIsos, hashables]
  | v :: vs, x, h, hh => by
    cases x with
    | nil => simp [VIsos] at h
    | cons x xs =>
      simp only [VIsos, hashables, Bool.and_eq_true] at h hh ⊢
      exact ⟨r.hashable_iso h.1 hh.1, r.hashables_iso h.2 hh.2⟩
end

mutual
theorem Rel.pyEq_iso (r : Rel hS Bad P u) : ∀ {v x v' x' : Val}, VIso (Rof Bad P u.objs) v x →
    VIso (Rof Bad P u.objs) v' x' → pyEq x x' = pyEq v v'
  | .tuple _ xs, x, v', x', h, h' => by
    cases x <;> simp only [VIso] at h
    cases v' <;> cases x' <;> simp only [VIso] at h' <;> simp only [pyEq]
    exact r.pyEqs_iso h h'
  | .ref a, x, v', x', h, h' => by
    cases x <;> simp only [VIso] at h
    cases v' <;> cases x' <;> simp only [VIso] at h' <;> simp only [pyEq]
    next b a' b' =>
    by_cases e : a = a'
    · subst e
      have := r.func h h'
      simp [this]
    · have : b ≠ b' := fun e' => e (by subst e'; exact r.inje h h')
      rw [beq_eq_false_iff_ne.2 e, beq_eq_false_iff_ne.2 this]
  | .set _ _, x, v', x', h, h' => by
    cases x <;> simp only [VIso] at h
    cases v' <;> cases x' <;> simp only [VIso] at h' <;> simp only [pyEq]
  | .bytearray _ _, x, v', x', h, h' => by
    cases x <;> simp only [VIso] at h
    cases v' <;> cases x' <;> simp only [VIso] at h' <;> simp only [pyEq]
  | .none, x, v', x', h, h' => by
    cases x <;> simp only [VIso] at h
    cases v' <;> cases x' <;> simp only [VIso] at h' <;> simp only [pyEq]
  | .bool _, x, v', x', h, h' => by
    cases x <;> simp only [VIso] at h
    subst h
    cases v' <;> cases x' <;> simp only [VIso] at h' <;> simp only [pyEq] <;> subst h' <;> rfl
  | .int _, x, v', x', h, h' => by
    cases x <;> simp only [VIso] at h
    subst h
    cases v' <;> cases x' <;> simp only [VIso] at h' <;> simp only [pyEq] <;> subst h' <;> rfl
  | .float _, x, v', x', h, h' => by
    cases x <;> simp only [VIso] at h
    subst h
    cases v' <;> cases x' <;> simp only [VIso] at h' <;> simp only [pyEq] <;> subst h' <;> rfl
  | .str _, x, v', x', h, h' => by
    cases x <;> simp only [VIso] at h
    subst h
    cases v' <;> cases x' <;> simp only [VIso] at h' <;> simp only [pyEq] <;> subst h' <;> rfl
  | .bytes _ _, x, v', x', h, h' => by
    cases x <;> simp only [VIso] at h
    subst h
    cases v' <;> cases x' <;> simp only [VIso] at h' <;> simp only [pyEq] <;> subst h' <;> rfl
  | .type _, x, v', x', h, h' => by
    cases x <;> simp only [VIso] at h
    subst h
    cases v' <;> cases x' <;> simp only [VIso] at h' <;> simp only [pyEq] <;> subst h' <;> rfl
  | .func _, x, v', x', h, h' => by
    cases x <;> simp only [VIso] at h
    subst h
    cases v' <;> cases x' <;> simp only [VIso] at h' <;> simp only [pyEq] <;> subst h' <;> rfl
  | .lambda _, x, _, _, h, _ => by cases x <;> simp_all [VIso]
  | .module _, x, v', x', h, h' => by
    cases x <;> simp only [VIso] at h
    subst h
    cases v' <;> cases x' <;> simp only [VIso] at h' <;> simp only [pyEq] <;> subst h' <;> rfl
theorem Rel.pyEqs_iso (r : Rel hS Bad P u) : ∀ {v x v' x' : List Val}, VIsos (Rof Bad P u.objs) v x →
    VIsos (Rof Bad P u.objs) v' x' → pyEqs x x' = pyEqs v v'
  | [], x, v', x', h, h' => by
    cases x <;> simp only [VIsos] at h
    cases v' <;> cases x' <;> simp only [VIsos] at h' <;> simp only [pyEqs]
  | v :: vs, x, v', x', h, h' => by
    cases x with
    | nil => simp [VIsos] at h
    | cons x xs =>
      cases v' <;> cases x' <;> simp only [VIsos] at h' <;> simp only [pyEqs]
      simp only [VIsos] at h
      rw [r.pyEq_iso h.1 h'.1, r.pyEqs_iso h.2 h'.2]
end

end
end JP.Sim
