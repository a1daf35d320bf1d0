import Verif.Pickler
import Verif.DataSpec
import Verif.Proofs.SimBase
/-!
# Isomorphic graphs have the same document

With references (the default options) the document of a graph of lists, dicts, tuples, sets and simple instances depends only on
the graph up to isomorphism: neither the addresses of objects nor the identities of tuples, sets and bytes matter.
-/
namespace JP.PIso
open JP PyM Pickler

variable {R : Addr → Addr → Prop}

/-- corresponding identities -/
inductive IIso (R : Addr → Addr → Prop) : Ident → Ident → Prop
  | addr {a b} : R a b → IIso R (.addr a) (.addr b)
  | mod {n} : IIso R (.mod n) (.mod n)

/-- corresponding states of the two picklers -/
structure StRel (R : Addr → Addr → Prop) (s s' : PState) : Prop where
  objs : All2 (IIso R) s.objs s'.objs
  depth : s.depth = s'.depth

/-- both runs are cut off by the bound, or both return the same value -/
def Agree {α : Type} (R : Addr → Addr → Prop) (m m' : P α) : Prop :=
  ∀ s s', StRel R s s' → (m s = none ∧ m' s' = none) ∨ ∃ a t t', m s = some (.ok a, t) ∧ m' s' = some (.ok a, t') ∧ StRel R t t'

namespace Agree
variable {α β γ δ : Type}

theorem pure (a : α) : Agree R (pure a) (pure a) := fun s s' h => Or.inr ⟨a, s, s', rfl, rfl, h⟩

theorem outOfFuel : Agree R (PyM.outOfFuel : P α) PyM.outOfFuel := fun _ _ _ => Or.inl ⟨rfl, rfl⟩

theorem ok (a : α) : Agree R (PyM.ofExcept (.ok a)) (PyM.ofExcept (.ok a)) := fun s s' h => Or.inr ⟨a, s, s', rfl, rfl, h⟩

theorem bind {m m' : P α} {k k' : α → P β} (h : Agree R m m') (hk : ∀ a, Agree R (k a) (k' a)) : Agree R (m >>= k) (m' >>= k') := by
  intro s s' hs
  rcases h s s' hs with ⟨h1, h2⟩ | ⟨a, t, t', h1, h2, ht⟩
  · left; rw [bind_run, bind_run, h1, h2]; exact ⟨rfl, rfl⟩
  · rw [bind_ok h1, bind_ok h2]
    exact hk a t t' ht

theorem mapM {f : γ → P β} {f' : δ → P β} {p : γ → δ → Prop} : ∀ {xs : List γ} {ys : List δ}, All2 p xs ys →
    (∀ x ∈ xs, ∀ y, p x y → Agree R (f x) (f' y)) → Agree R (PyM.mapM f xs) (PyM.mapM f' ys)
  | [], [], _, _ => Agree.pure []
  | [], _ :: _, h, _ => h.elim
  | _ :: _, [], h, _ => h.elim
  | x :: xs, y :: ys, h, hf => by
    rw [mapM_cons, mapM_cons]
    exact (hf x List.mem_cons_self y h.1).bind (fun _ => (mapM h.2 (fun x hx => hf x (List.mem_cons_of_mem _ hx))).bind (fun _ => Agree.pure _))

theorem foldM {f : β → γ → P β} {f' : β → δ → P β} {p : γ → δ → Prop} : ∀ {xs : List γ} {ys : List δ} (b : β), All2 p xs ys →
    (∀ b, ∀ x ∈ xs, ∀ y, p x y → Agree R (f b x) (f' b y)) → Agree R (PyM.foldM f b xs) (PyM.foldM f' b ys)
  | [], [], b, _, _ => Agree.pure b
  | [], _ :: _, _, h, _ => h.elim
  | _ :: _, [], _, h, _ => h.elim
  | x :: xs, y :: ys, b, h, hf => by
    rw [foldM_cons, foldM_cons]
    exact (hf b x List.mem_cons_self y h.1).bind (fun b => foldM b h.2 (fun b x hx => hf b x (List.mem_cons_of_mem _ hx)))

theorem tryCatch {m m' : P α} {c : Exc → Bool} {k k' : Exc → P α} (h : Agree R m m') : Agree R (PyM.tryCatch m c k) (PyM.tryCatch m' c k') := by
  intro s s' hs
  unfold PyM.tryCatch
  rcases h s s' hs with ⟨h1, h2⟩ | ⟨a, t, t', h1, h2, ht⟩
  · left; rw [h1, h2]; exact ⟨rfl, rfl⟩
  · right; rw [h1, h2]; exact ⟨a, t, t', rfl, rfl, ht⟩

end Agree

/-- the correspondence is one to one -/
structure OneToOne (R : Addr → Addr → Prop) : Prop where
  func : ∀ a b b', R a b → R a b' → b = b'
  inj : ∀ a a' b, R a b → R a' b → a = a'

theorem IIso.beq (h1 : OneToOne R) {i j i' j' : Ident} (h : IIso R i i') (h' : IIso R j j') : (i == j) = (i' == j') := by
  have : i = j ↔ i' = j' := by
    cases h with
    | addr h =>
      cases h' with
      | addr h' =>
        constructor
        · intro e; injection e with e; subst e; rw [h1.func _ _ _ h h']
        · intro e; injection e with e; subst e; rw [h1.inj _ _ _ h h']
      | mod => exact ⟨(fun e => by cases e), (fun e => by cases e)⟩
    | mod =>
      cases h' with
      | addr h' => exact ⟨(fun e => by cases e), (fun e => by cases e)⟩
      | mod => exact ⟨fun e => by rw [e], fun e => by rw [e]⟩
  by_cases e : i = j
  · rw [beq_iff_eq.2 e, beq_iff_eq.2 (this.1 e)]
  · rw [beq_eq_false_iff_ne.2 e, beq_eq_false_iff_ne.2 (fun x => e (this.2 x))]

theorem contains_iso (h1 : OneToOne R) {i i' : Ident} (h : IIso R i i') : ∀ {l l' : List Ident}, All2 (IIso R) l l' →
    l.contains i = l'.contains i' ∧ l.idxOf i = l'.idxOf i'
  | [], [], _ => ⟨rfl, rfl⟩
  | [], _ :: _, hl => hl.elim
  | _ :: _, [], hl => hl.elim
  | x :: xs, y :: ys, hl => by
    obtain ⟨e1, e2⟩ := contains_iso h1 h hl.2
    rw [List.contains_cons, List.contains_cons, IIso.beq h1 h hl.1, e1, List.idxOf_cons, List.idxOf_cons, IIso.beq h1 hl.1 h, e2]
    exact ⟨rfl, rfl⟩

section
variable {w w' : World} {cfg : PCfg} {fl fl' : Val → P Json}

theorem agree_logRef (h1 : OneToOne R) {i i' : Ident} (h : IIso R i i') : Agree R (logRef i) (logRef i') := by
  intro s s' hs
  right
  unfold logRef
  rw [(contains_iso h1 h hs.objs).1]
  cases s'.objs.contains i'
  · exact ⟨true, _, _, rfl, rfl, ⟨Sim.All2.append hs.objs ⟨h, trivial⟩, hs.depth⟩⟩
  · exact ⟨false, _, _, rfl, rfl, hs⟩

theorem agree_mkref (h1 : OneToOne R) {i i' : Ident} (h : IIso R i i') : Agree R (mkref cfg i) (mkref cfg i') :=
  (agree_logRef h1 h).bind (fun _ => Agree.pure _)

theorem agree_getref (h1 : OneToOne R) {i i' : Ident} (h : IIso R i i') : Agree R (getref i) (getref i') := by
  intro s s' hs
  right
  obtain ⟨e1, e2⟩ := contains_iso h1 h hs.objs
  unfold getref
  rw [e1, e2]
  exact ⟨_, _, _, rfl, rfl, hs⟩

theorem agree_push : Agree R push push := fun s s' hs =>
  Or.inr ⟨(), { s with depth := s.depth + 1 }, { s' with depth := s'.depth + 1 }, rfl, rfl, ⟨hs.objs, by simp [hs.depth]⟩⟩

theorem agree_pop (j : Json) : Agree R (pop j) (pop j) := by
  intro s s' hs
  right
  unfold pop
  dsimp only
  rw [hs.depth]
  refine ⟨j, _, _, rfl, rfl, ?_⟩
  split
  · exact ⟨trivial, rfl⟩
  · exact ⟨hs.objs, rfl⟩

theorem isPicklable_iso {k k' v v' : Val} (hk : VIso R k k') (hv : VIso R v v') : isPicklable k v = isPicklable k' v' := by
  unfold isPicklable
  congr 1
  · cases k <;> cases k' <;> simp only [VIso] at hk <;> first | rfl | exact hk.elim | (subst hk; rfl)
  · cases v <;> cases v' <;> simp only [VIso] at hv <;> first | rfl | exact hv.elim

theorem str_iso {s : Str} {k' : Val} (h : VIso R (.str s) k') : k' = .str s := by
  cases k' <;> simp only [VIso] at h
  subst h; rfl

theorem nonstr_iso {k k' : Val} (h : VIso R k k') : isStrV k = isStrV k' := by
  cases k <;> cases k' <;> simp only [VIso] at h <;> first | rfl | exact h.elim

/-- the recursive calls agree on corresponding values -/
def Fl (R : Addr → Addr → Prop) (fl fl' : Val → P Json) : Prop := ∀ v v', VIso R v v' → Agree R (fl v) (fl' v')

theorem agree_pair (hf : Fl R fl fl') {k k' v v' : Val} (hs : isStrV k = true) (hk : VIso R k k') (hv : VIso R v v') (d : List (Str × Json)) :
    Agree R (flattenKeyValuePair w fl k v d) (flattenKeyValuePair w' fl' k' v' d) := by
  cases k <;> cases hs
  cases str_iso hk
  unfold flattenKeyValuePair
  rw [isPicklable_iso hk hv]
  split
  · exact (Agree.ok _).bind (fun _ => (hf _ _ hv).bind (fun _ => Agree.pure _))
  · exact Agree.pure _

theorem agree_escape (hd : w'.dumps = w.dumps) (hf : Fl R fl fl') {k k' : Val} (hk : VIso R k k') : Agree R (escapeKey w fl k) (escapeKey w' fl' k') := by
  unfold escapeKey
  rw [hd]
  exact (hf _ _ hk).bind (fun _ => Agree.pure _)

theorem agree_tail (hkeys : cfg.keys = true) (hf : Fl R fl fl') {k k' v v' : Val} (hk : VIso R k k') (hv : VIso R v v') (d : List (Str × Json)) :
    Agree R (flattenStringTail w cfg fl k v d) (flattenStringTail w' cfg fl' k' v' d) := by
  unfold flattenStringTail
  rw [isPicklable_iso hk hv, if_pos hkeys, if_pos hkeys]
  split
  · cases k <;> cases k' <;> simp only [VIso] at hk <;> first
      | exact hk.elim
      | exact Agree.pure _
      | (subst hk; exact (hf _ _ hv).bind (fun _ => Agree.pure _))
  · exact Agree.pure _

theorem agree_string (hd : w'.dumps = w.dumps) (hkeys : cfg.keys = true) (hf : Fl R fl fl') {k k' v v' : Val} (hk : VIso R k k') (hv : VIso R v v')
    (d : List (Str × Json)) : Agree R (flattenString w cfg fl k v d) (flattenString w' cfg fl' k' v' d) := by
  have ht := agree_tail (w := w) (w' := w') hkeys hf hk hv d
  have he := agree_escape hd hf hk
  unfold flattenString
  cases k with
  | str s =>
    cases str_iso hk
    dsimp only
    split
    · exact (hf _ _ hv).bind (fun _ => he.bind (fun _ => Agree.pure _))
    · exact ht
  | _ => cases k' <;> simp only [VIso] at hk <;> first | exact hk.elim | exact ht

theorem agree_nonString (hd : w'.dumps = w.dumps) (hf : Fl R fl fl') {k k' v v' : Val} (hk : VIso R k k') (hv : VIso R v v')
    (d : List (Str × Json)) : Agree R (flattenNonString w cfg fl k v d) (flattenNonString w' cfg fl' k' v' d) := by
  have he := agree_escape hd hf hk
  unfold flattenNonString
  rw [isPicklable_iso hk hv]
  split
  · cases k with
    | str s =>
      cases str_iso hk
      exact Agree.pure _
    | _ =>
      cases k' <;> simp only [VIso] at hk <;> first
        | exact hk.elim
        | (dsimp only
           split
           · exact he.bind (fun _ => (hf _ _ hv).bind (fun _ => Agree.pure _))
           · exact Agree.pure _)
  · exact Agree.pure _

/-- entries on which a step does nothing can be left out -/
theorem foldM_filter {γ β : Type} {f : β → γ → P β} (p : γ → Bool) : ∀ (xs : List γ) (b : β), (∀ b, ∀ x ∈ xs, p x = false → f b x = Pure.pure b) →
    PyM.foldM f b xs = PyM.foldM f b (xs.filter p)
  | [], _, _ => rfl
  | x :: xs, b, h => by
    have ih := fun b => foldM_filter p xs b (fun b y hy => h b y (List.mem_cons_of_mem _ hy))
    rw [foldM_cons, List.filter_cons]
    cases hp : p x
    · rw [h b x List.mem_cons_self hp]
      simp only [Bool.false_eq_true, if_false]
      rw [← ih]
      rfl
    · simp only [if_true]
      rw [foldM_cons]
      congr 1
      funext b
      exact ih b

theorem filter_stringsFirst (kvs : List (Val × Val)) :
    (stringsFirst kvs).filter (fun kv => isStrV kv.1) = kvs.filter (fun kv => isStrV kv.1) ∧
    (stringsFirst kvs).filter (fun kv => !isStrV kv.1) = kvs.filter (fun kv => !isStrV kv.1) := by
  have e1 : ∀ (q : (Val × Val) → Bool) (l : List (Val × Val)), (l.filter (fun x => !q x)).filter q = [] := by
    intro q l
    rw [List.filter_filter]
    simp
  have e2 : ∀ (q : (Val × Val) → Bool) (l : List (Val × Val)), (l.filter q).filter (fun x => !q x) = [] := by
    intro q l
    rw [List.filter_filter]
    simp
  unfold stringsFirst
  constructor
  · rw [List.filter_append, e1, List.append_nil, List.filter_filter]
    simp
  · rw [List.filter_append, e2, List.nil_append, List.filter_filter]
    simp

theorem itemsExcl_nil (kvs : List (Val × Val)) : itemsExcl [] kvs = kvs := by
  unfold itemsExcl
  rw [List.filter_eq_self]
  intro kv _
  cases kv.1 <;> rfl

/-- `keys=True`: the entries may be rearranged as the encoder does -/
theorem entries_order (kvs : List (Val × Val)) (d : List (Str × Json)) (hkeys : cfg.keys = true) :
    flattenEntries w cfg fl kvs [] d = flattenEntries w cfg fl (stringsFirst kvs) [] d := by
  unfold flattenEntries
  simp only [itemsExcl_nil, hkeys, if_true]
  have hs : ∀ (b : List (Str × Json)) (x : Val × Val), isStrV x.1 = false → flattenString w cfg fl x.1 x.2 b = Pure.pure b := by
    intro b x hx
    obtain ⟨k, v⟩ := x
    dsimp only at hx ⊢
    cases k <;> first
      | (simp only [isStrV] at hx; exact absurd hx (by decide))
      | (simp only [flattenString, flattenStringTail, hkeys, if_true]; split <;> rfl)
  have hn : ∀ (b : List (Str × Json)) (x : Val × Val), (!isStrV x.1) = false → flattenNonString w cfg fl x.1 x.2 b = Pure.pure b := by
    intro b x hx
    obtain ⟨k, v⟩ := x
    dsimp only at hx ⊢
    cases k <;> first
      | (simp only [isStrV] at hx; exact absurd hx (by decide))
      | (simp only [flattenNonString]; split <;> rfl)
  have e1 : ∀ b, PyM.foldM (fun d (kv : Val × Val) => flattenString w cfg fl kv.1 kv.2 d) b kvs =
      PyM.foldM (fun d (kv : Val × Val) => flattenString w cfg fl kv.1 kv.2 d) b (stringsFirst kvs) := by
    intro b
    rw [foldM_filter (fun kv => isStrV kv.1) kvs b (fun b x _ hx => hs b x hx),
      foldM_filter (fun kv => isStrV kv.1) (stringsFirst kvs) b (fun b x _ hx => hs b x hx), (filter_stringsFirst kvs).1]
  have e2 : ∀ b, PyM.foldM (fun d (kv : Val × Val) => flattenNonString w cfg fl kv.1 kv.2 d) b kvs =
      PyM.foldM (fun d (kv : Val × Val) => flattenNonString w cfg fl kv.1 kv.2 d) b (stringsFirst kvs) := by
    intro b
    rw [foldM_filter (fun kv => !isStrV kv.1) kvs b (fun b x _ hx => hn b x hx),
      foldM_filter (fun kv => !isStrV kv.1) (stringsFirst kvs) b (fun b x _ hx => hn b x hx), (filter_stringsFirst kvs).2]
  rw [e1]
  congr 1
  funext b
  exact e2 b

/-- entries in the order in which they are written -/
theorem agree_entries (hd : w'.dumps = w.dumps) (hf : Fl R fl fl') {kvs kvs' : List (Val × Val)} (h : ItemsIso R (writeOrder cfg.keys kvs) (writeOrder cfg.keys kvs'))
    (hk : cfg.keys = false → ∀ kv ∈ kvs, isStrV kv.1 = true) (d : List (Str × Json)) :
    Agree R (flattenEntries w cfg fl kvs [] d) (flattenEntries w' cfg fl' kvs' [] d) := by
  cases hkeys : cfg.keys with
  | true =>
    rw [hkeys] at h
    rw [entries_order kvs d hkeys, entries_order kvs' d hkeys]
    have h : ItemsIso R (stringsFirst kvs) (stringsFirst kvs') := h
    unfold flattenEntries
    simp only [itemsExcl_nil, hkeys, if_true]
    exact (Agree.foldM _ h (fun b x _ y hxy => agree_string hd hkeys hf hxy.1 hxy.2 b)).bind
      (fun b => Agree.foldM _ h (fun b x _ y hxy => agree_nonString hd hf hxy.1 hxy.2 b))
  | false =>
    rw [hkeys] at h
    have h : ItemsIso R kvs kvs' := h
    unfold flattenEntries
    simp only [itemsExcl_nil, hkeys, Bool.false_eq_true, if_false]
    exact Agree.foldM _ h (fun b x hx y hxy => agree_pair hf (hk hkeys x hx) hxy.1 hxy.2 b)

theorem asItems_iso : ∀ {xs ys : List (Str × Val)}, ItemsIso R (asItems xs) (asItems ys) → FieldsIso R xs ys
  | [], [], _ => trivial
  | [], _ :: _, h => h.elim
  | _ :: _, [], h => h.elim
  | (_, _) :: _, (_, _) :: _, h => ⟨⟨by have := h.1.1; simpa only [VIso] using this, h.1.2⟩, asItems_iso h.2⟩

theorem iso_asItems : ∀ {xs ys : List (Str × Val)}, FieldsIso R xs ys → ItemsIso R (asItems xs) (asItems ys)
  | [], [], _ => trivial
  | [], _ :: _, h => h.elim
  | _ :: _, [], h => h.elim
  | (_, _) :: _, (_, _) :: _, h => ⟨⟨by have := h.1.1; simpa only [VIso] using this, h.1.2⟩, iso_asItems h.2⟩

theorem asItems_str (xs : List (Str × Val)) : ∀ kv ∈ asItems xs, isStrV kv.1 = true := by
  intro kv hkv
  obtain ⟨x, _, rfl⟩ := List.mem_map.1 hkv
  rfl

theorem writeOrder_asItems (keys : Bool) (xs : List (Str × Val)) : writeOrder keys (asItems xs) = asItems xs := by
  unfold writeOrder
  cases keys
  · rfl
  · show stringsFirst _ = _
    unfold stringsFirst
    rw [List.filter_eq_self.2 (asItems_str xs), List.filter_eq_nil_iff.2 (fun kv hkv => by rw [asItems_str xs kv hkv]; decide), List.append_nil]

theorem agree_attrs (hd : w'.dumps = w.dumps) (hf : Fl R fl fl') {xs ys : List (Str × Val)} (h : FieldsIso R xs ys) (d : List (Str × Json)) :
    Agree R (flattenEntries w cfg fl (asItems xs) [] d) (flattenEntries w' cfg fl' (asItems ys) [] d) :=
  agree_entries hd hf (by rw [writeOrder_asItems, writeOrder_asItems]; exact iso_asItems h) (fun _ => asItems_str xs) d

theorem dget_iso {k : Str} : ∀ {xs ys : List (Str × Val)}, FieldsIso R xs ys →
    (dget k xs = none ∧ dget k ys = none) ∨ ∃ v v', dget k xs = some v ∧ dget k ys = some v' ∧ VIso R v v'
  | [], [], _ => Or.inl ⟨rfl, rfl⟩
  | [], _ :: _, h => h.elim
  | _ :: _, [], h => h.elim
  | (k1, v1) :: xs, (k2, v2) :: ys, h => by
    have e : k1 = k2 := h.1.1
    subst e
    rw [dget_cons, dget_cons]
    split
    · exact Or.inr ⟨v1, v2, rfl, rfl, h.1.2⟩
    · exact dget_iso h.2

/-- corresponding objects, both of which are data -/
def CellTwin (w : World) (cfg : PCfg) (R : Addr → Addr → Prop) (o o' : Obj) : Prop :=
  SameObj (writeOrder cfg.keys) R o o' ∧ DataObj cfg.keys (fun c => (w.handler c).isSome) o ∧
    (∀ i', o' = .inst i' → i'.exclude = [] ∧ i'.dictCell = none)

/-- two heaps with corresponding objects, seen by the encoder with the default options -/
structure Twin (w w' : World) (cfg : PCfg) (R : Addr → Addr → Prop) : Prop where
  one : OneToOne R
  dumps : w'.dumps = w.dumps
  handler : ∀ c, w'.handler c = w.handler c
  unpicklable : cfg.unpicklable = true
  makeRefs : cfg.makeRefs = true
  maxDepth : cfg.maxDepth = none
  cells : ∀ a b, R a b → ∃ o o', w.heap[a]? = some o ∧ w'.heap[b]? = some o' ∧ CellTwin w cfg R o o'

/-- as `Agree`, with a property of the value -/
def AgreeP {α : Type} (Q : α → Prop) (R : Addr → Addr → Prop) (m m' : P α) : Prop :=
  ∀ s s', StRel R s s' → (m s = none ∧ m' s' = none) ∨ ∃ a t t', m s = some (.ok a, t) ∧ m' s' = some (.ok a, t') ∧ StRel R t t' ∧ Q a

theorem Agree.withP {α : Type} {m m' : P α} (h : Agree R m m') : AgreeP (fun _ => True) R m m' := by
  intro s s' hs
  rcases h s s' hs with h | ⟨a, t, t', h1, h2, h3⟩
  · exact Or.inl h
  · exact Or.inr ⟨a, t, t', h1, h2, h3, trivial⟩

theorem AgreeP.bind {α β : Type} {Q : α → Prop} {Q' : β → Prop} {m m' : P α} {k k' : α → P β} (h : AgreeP Q R m m') (hk : ∀ a, Q a → AgreeP Q' R (k a) (k' a)) :
    AgreeP Q' R (m >>= k) (m' >>= k') := by
  intro s s' hs
  rcases h s s' hs with ⟨h1, h2⟩ | ⟨a, t, t', h1, h2, ht, hq⟩
  · left; rw [bind_run, bind_run, h1, h2]; exact ⟨rfl, rfl⟩
  · rw [bind_ok h1, bind_ok h2]
    exact hk a hq t t' ht

theorem AgreeP.agree {α : Type} {Q : α → Prop} {m m' : P α} (h : AgreeP Q R m m') : Agree R m m' := by
  intro s s' hs
  rcases h s s' hs with h | ⟨a, t, t', h1, h2, h3, _⟩
  · exact Or.inl h
  · exact Or.inr ⟨a, t, t', h1, h2, h3⟩

theorem AgreeP.tryCatch {α : Type} {Q : α → Prop} {m m' : P α} {c : Exc → Bool} {k k' : Exc → P α} (h : AgreeP Q R m m') :
    AgreeP Q R (PyM.tryCatch m c k) (PyM.tryCatch m' c k') := by
  intro s s' hs
  unfold PyM.tryCatch
  rcases h s s' hs with ⟨h1, h2⟩ | ⟨a, t, t', h1, h2, ht, hq⟩
  · left; rw [h1, h2]; exact ⟨rfl, rfl⟩
  · right; rw [h1, h2]; exact ⟨a, t, t', rfl, rfl, ht, hq⟩

theorem AgreeP.pure {α : Type} {Q : α → Prop} {a : α} (h : Q a) : AgreeP Q R (Pure.pure a) (Pure.pure a) :=
  fun s s' hs => Or.inr ⟨a, s, s', rfl, rfl, hs, h⟩

/-- slots: the same attributes are written, and at least one -/
theorem agree_slotAttrs (hf : Fl R fl fl') {i i' : Inst} (hx : i.exclude = [] ∧ i'.exclude = []) {lk lk' : List (Str × Val)} (hl : FieldsIso R lk lk') :
    ∀ (names : List Str) (acc : Bool × List (Str × Json)), (∀ k ∈ names, startsWith k p!"__" = false) →
    AgreeP (fun r => (acc.1 = true ∨ ∃ k ∈ names, dget k lk ≠ none) → r.1 = true) R
      (PyM.foldM (fun (acc : Bool × List (Str × Json)) k =>
        if i.exclude.contains k then Pure.pure acc
        else
          PyM.tryCatch (do
            let name := if startsWith k p!"__" then p!"_" ++ i.info.shortName ++ k else k
            let v ← PyM.ofExcept (match dget name lk with
              | some v => .ok v
              | none => .error .attributeError)
            let d ← flattenKeyValuePair w fl (.str k) v acc.2
            Pure.pure (true, d))
            (· == .attributeError)
            (fun _ => Pure.pure acc)) acc names)
      (PyM.foldM (fun (acc : Bool × List (Str × Json)) k =>
        if i'.exclude.contains k then Pure.pure acc
        else
          PyM.tryCatch (do
            let name := if startsWith k p!"__" then p!"_" ++ i'.info.shortName ++ k else k
            let v ← PyM.ofExcept (match dget name lk' with
              | some v => .ok v
              | none => .error .attributeError)
            let d ← flattenKeyValuePair w' fl' (.str k) v acc.2
            Pure.pure (true, d))
            (· == .attributeError)
            (fun _ => Pure.pure acc)) acc names)
  | [], acc, _ => AgreeP.pure (fun h => by
      rcases h with h | ⟨k, hk, _⟩
      · exact h
      · cases hk)
  | k :: names, acc, hn => by
    rw [foldM_cons, foldM_cons]
    simp only [hx.1, hx.2, List.contains_nil, Bool.false_eq_true, if_false, hn k List.mem_cons_self]
    have ih := fun acc => agree_slotAttrs hf hx hl names acc (fun k hk => hn k (List.mem_cons_of_mem _ hk))
    simp only [hx.1, hx.2, List.contains_nil, Bool.false_eq_true, if_false] at ih
    refine AgreeP.bind (Q := fun r => (acc.1 = true ∨ dget k lk ≠ none) → r.1 = true) ?_ (fun r hr => ?_)
    · rcases dget_iso (k := k) hl with ⟨e1, e2⟩ | ⟨v, v', e1, e2, hv⟩
      · rw [e1, e2]
        refine fun s s' hs => Or.inr ⟨acc, s, s', rfl, rfl, hs, fun h => ?_⟩
        rcases h with h | h
        · exact h
        · exact absurd rfl h
      · rw [e1, e2]
        refine AgreeP.tryCatch ?_
        have hp : Agree R (flattenKeyValuePair w fl (.str k) v acc.2) (flattenKeyValuePair w' fl' (.str k) v' acc.2) :=
          agree_pair hf rfl (by simp only [VIso]) hv acc.2
        show AgreeP _ R (flattenKeyValuePair w fl (.str k) v acc.2 >>= fun d => Pure.pure (true, d))
          (flattenKeyValuePair w' fl' (.str k) v' acc.2 >>= fun d => Pure.pure (true, d))
        exact AgreeP.bind hp.withP (fun d _ => AgreeP.pure (fun _ => rfl))
    · intro s s' hs
      rcases ih r s s' hs with h | ⟨a, t, t', h1, h2, h3, h4⟩
      · exact Or.inl h
      · refine Or.inr ⟨a, t, t', h1, h2, h3, fun h => h4 ?_⟩
        rcases h with h | ⟨k', hk', hne⟩
        · exact Or.inl (hr (Or.inl h))
        · rcases List.mem_cons.1 hk' with e | hk'
          · exact Or.inl (hr (Or.inr (e ▸ hne)))
          · exact Or.inr ⟨k', hk', hne⟩

theorem agree_default (hf : Fl R fl fl') {f f' : Option Val} (h : match f, f' with
        | some f, some f' => VIso R f f'
        | none, none => True
        | _, _ => False) (ht : f = none ∨ ∃ n, f = some (.type n)) (e e' : Except Exc Val) (d : List (Str × Json)) :
    Agree R (flattenDefault w cfg fl f e d) (flattenDefault w' cfg fl' f' e' d) := by
  rcases ht with rfl | ⟨n, rfl⟩
  · cases f' with
    | none => exact Agree.pure d
    | some _ => exact h.elim
  · cases f' with
    | none => exact h.elim
    | some f' =>
      have h : VIso R (.type n) f' := h
      cases f' <;> simp only [VIso] at h
      subst h
      exact Agree.pure _

section
variable (T : Twin w w' cfg R)
include T

theorem agree_inst (hf : Fl R fl fl') {a b : Addr} {i i' : Inst} (h : CellTwin w cfg R (.inst i) (.inst i')) :
    Agree R (flattenInst w cfg fl a i) (flattenInst w' cfg fl' b i') := by
  obtain ⟨⟨hc, hi, ha, hit, he, hfa⟩, ⟨hh, hs0, hst⟩, h'⟩ := h
  have hs := hs0.cls
  have hh : w.handler i.cls = none := by
    cases hw : w.handler i.cls with
    | none => rfl
    | some _ => simp [hw] at hh
  have hn : i.dictCell = none ∧ i'.dictCell = none := ⟨hs0.dictCell, (h' i' rfl).2⟩
  have hx : i.exclude = [] ∧ i'.exclude = [] := ⟨hs0.exclude, (h' i' rfl).1⟩
  have ed : dictItems w i = asItems i.attrs := by unfold dictItems; rw [hn.1]
  have ed' : dictItems w' i' = asItems i'.attrs := by unfold dictItems; rw [hn.2]
  have hmap : ∀ {xs ys : List Val}, VIsos R xs ys → Agree R (PyM.mapM fl xs) (PyM.mapM fl' ys) :=
    fun h => Agree.mapM (Sim.VIsos_iff.1 h) (fun x _ y hxy => hf x y hxy)
  unfold flattenInst
  rw [T.handler, hc, hh]
  dsimp only
  unfold flattenReduce
  rw [hi, hs.reduces]
  simp only [Bool.and_false, Bool.false_eq_true, if_false]
  unfold flattenBody flattenNewargs flattenInitargs
  rw [hi, hs.newargs, hs.newargsEx, hs.initargs]
  simp only [Bool.false_eq_true, if_false]
  have et : objTag cfg i' = objTag cfg i := by unfold objTag; rw [hc]
  rw [et]
  show Agree R (flattenGetstate w cfg fl a i (objTag cfg i)) (flattenGetstate w' cfg fl' b i' (objTag cfg i))
  unfold flattenGetstate
  rw [hi, hs.ownGetstate]
  simp only [Bool.false_eq_true, if_false]
  unfold flattenRest
  rw [hi, hs.iterator]
  have hseq : Agree R (flattenSequence w cfg fl i (objTag cfg i)) (flattenSequence w' cfg fl' i' (objTag cfg i)) := by
    unfold flattenSequence flattenSeqAttrs
    rw [hi, ed, ed', T.unpicklable]
    simp only [if_true]
    refine Agree.bind ?_ (fun d => (hmap he).bind (fun _ => Agree.pure _))
    cases i.info.hasDict
    · exact Agree.pure _
    · exact agree_attrs T.dumps hf ha _
  cases hb : i.info.base with
  | list => exact hseq
  | set => exact hseq
  | tuple => exact hseq
  | dict =>
    have h1 := hs.dict hb
    have h2 := hs0.factory hb
    dsimp only
    unfold flattenDictSub flattenOwnDict
    rw [hi, hx.1, hx.2, h1]
    simp only [Bool.false_and, Bool.false_eq_true, if_false]
    exact Agree.bind (Agree.bind (agree_entries T.dumps hf hit hst _) (fun d => Agree.bind (agree_default hf hfa h2 _ _ d) (fun d => Agree.pure d)))
      (fun d => Agree.pure _)
  | plain =>
    simp only [Bool.false_eq_true, if_false]
    cases hd : i.info.hasDict with
    | true =>
      simp only [if_true]
      rw [ed, ed', hx.1, hx.2]
      exact (agree_attrs T.dumps hf ha _).bind (fun _ => Agree.pure _)
    | false =>
      simp only [Bool.false_eq_true, if_false]
      cases hsl : i.info.hasSlots with
      | true =>
        simp only [if_true]
        unfold flattenSlots flattenObjAttrs
        obtain ⟨h1, h2⟩ := hs0.slots hb hd hsl
        rw [hi]
        have := agree_slotAttrs (w := w) (w' := w') hf hx ha i.info.slots (false, objTag cfg i) h1
        rw [hi] at this
        refine AgreeP.agree (Q := fun _ => True) (AgreeP.bind this (fun r hr => ?_))
        rw [hr (Or.inr h2)]
        simp only [if_true]
        exact (Agree.pure _).withP
      | false =>
        simp only [Bool.false_eq_true, if_false]
        have : (objTag cfg i).isEmpty = false := by unfold objTag; rw [T.unpicklable]; rfl
        rw [this]
        exact Agree.pure _

theorem agree_by (hf : Fl R fl fl') {v v' : Val} (h : VIso R v v') (hp : (match v with
      | .ref _ | .tuple _ _ | .set _ _ | .func _ | .type _ | .module _ => true
      | _ => false) = true) : Agree R (flattenBy w cfg fl v) (flattenBy w' cfg fl' v') := by
  have hmap : ∀ {xs ys : List Val}, VIsos R xs ys → Agree R (PyM.mapM fl xs) (PyM.mapM fl' ys) :=
    fun h => Agree.mapM (Sim.VIsos_iff.1 h) (fun x _ y hxy => hf x y hxy)
  cases v <;> cases v' <;> simp only [VIso] at h <;> first
    | exact h.elim
    | exact absurd hp Bool.false_ne_true
    | skip
  · exact (hmap h).bind (fun _ => Agree.pure _)
  · exact (hmap h).bind (fun _ => Agree.pure _)
  · subst h; exact Agree.pure _
  · subst h; exact Agree.pure _
  · subst h
    rename_i n
    unfold flattenBy refObjInstance
    dsimp only
    rw [T.unpicklable]
    simp only [if_true]
    refine (agree_mkref T.one IIso.mod).bind (fun b => ?_)
    cases b
    · exact agree_getref T.one IIso.mod
    · unfold flattenModule
      rw [T.unpicklable]
      exact Agree.pure _
  · rename_i a b
    obtain ⟨o, o', h1, h2, h3⟩ := T.cells a b h
    unfold flattenBy
    dsimp only
    rw [h1, h2]
    have hid := IIso.addr h
    cases o <;> cases o' <;> first
      | exact h3.1.elim
      | skip
    · dsimp only
      refine (agree_mkref T.one hid).bind (fun b => ?_)
      cases b
      · exact agree_getref T.one hid
      · exact (hmap h3.1).bind (fun _ => Agree.pure _)
    · dsimp only
      refine (agree_mkref T.one hid).bind (fun b => ?_)
      cases b
      · exact agree_getref T.one hid
      · exact (agree_entries T.dumps hf h3.1 h3.2.1 []).bind (fun _ => Agree.pure _)
    · dsimp only
      unfold refObjInstance
      rw [T.unpicklable]
      simp only [if_true]
      refine (agree_mkref T.one hid).bind (fun b => ?_)
      cases b
      · exact agree_getref T.one hid
      · exact agree_inst T hf h3

theorem agree_obj (hf : Fl R fl fl') {v v' : Val} (h : VIso R v v') (hp : (match v with
      | .ref _ | .tuple _ _ | .set _ _ | .func _ | .type _ | .module _ => true
      | _ => false) = true) : Agree R (flattenObj w cfg fl v) (flattenObj w' cfg fl' v') := by
  have hb := agree_by T hf h hp
  unfold flattenObj flattenObjWith
  refine Agree.bind (fun s s' hs => Or.inr ⟨(), _, _, rfl, rfl, ⟨hs.objs, hs.depth⟩⟩) (fun _ => ?_)
  refine AgreeP.agree (Q := fun _ => True) (AgreeP.bind (Q := fun b => b = false) (m := maxReached cfg) (fun s s' hs => Or.inr ⟨false, s, s', ?_, ?_, hs, rfl⟩) (fun m hm => ?_))
  · unfold maxReached; rw [T.maxDepth]; rfl
  · unfold maxReached; rw [T.maxDepth]; rfl
  · subst hm
    refine Agree.withP (Agree.tryCatch ?_)
    refine AgreeP.agree (Q := fun _ => True) (AgreeP.bind (Q := fun b => b = false) (fun s s' hs => Or.inr ⟨false, s, s', ?_, ?_, hs, rfl⟩) (fun m hm => ?_))
    · unfold inCycle; rw [T.makeRefs]; rfl
    · unfold inCycle; rw [T.makeRefs]; rfl
    · subst hm
      exact hb.withP

theorem agree_step (hf : Fl R fl fl') {v v' : Val} (h : VIso R v v') : Agree R (flattenStep w cfg fl v) (flattenStep w' cfg fl' v') := by
  have ec : ∀ (w : World) (fl : Val → P Json) (v : Val), cached cfg v.ident (flattenImpl w cfg fl v) = flattenImpl w cfg fl v := by
    intro w fl v
    unfold cached
    rw [T.unpicklable, T.makeRefs]
    rfl
  have ho := agree_obj T hf h
  unfold flattenStep
  cases v <;> cases v' <;> simp only [VIso] at h <;> first
    | exact h.elim
    | exact Agree.pure _
    | (subst h; exact Agree.pure _)
    | (subst h; simp only [ec]; exact Agree.pure _)
    | (simp only [ec]; exact agree_push.bind (fun _ => (ho rfl).bind (fun j => agree_pop j)))

/-- corresponding values have the same document -/
theorem agree_flatten : ∀ (n : Nat), Fl R (flatten w cfg n) (flatten w' cfg n)
  | 0 => fun _ _ _ => Agree.outOfFuel
  | n + 1 => fun _ _ h => agree_step T (agree_flatten n) h

end
end
end JP.PIso
