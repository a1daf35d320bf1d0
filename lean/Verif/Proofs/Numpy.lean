import Verif.Numpy
import Verif.Proofs.Base64
/-! Helper lemmas about indices, memory layout and nested lists. -/
namespace JP.Numpy
open JP

/-- `i` is a multi-index of an array of shape `s`. -/
def Valid : List Nat → List Nat → Prop
  | [], [] => True
  | i :: is, n :: s => i < n ∧ Valid is s
  | _, _ => False

theorem mem_idxC : ∀ {s i : List Nat}, i ∈ idxC s ↔ Valid i s
  | [], [] => by simp [idxC, Valid]
  | [], _ :: _ => by simp [idxC, Valid]
  | n :: s, [] => by simp [idxC, Valid]
  | n :: s, a :: i => by
    simp only [idxC, List.mem_flatMap, List.mem_range, List.mem_map, Valid]
    constructor
    · rintro ⟨k, hk, j, hj, he⟩
      injection he with h1 h2; subst h1 h2
      exact ⟨hk, mem_idxC.mp hj⟩
    · rintro ⟨h1, h2⟩
      exact ⟨a, h1, i, mem_idxC.mpr h2, rfl⟩

theorem Valid.length : ∀ {i s : List Nat}, Valid i s → i.length = s.length
  | [], [], _ => rfl
  | _ :: _, _ :: _, h => by simp [Valid.length h.2]

theorem Valid.append : ∀ {i s : List Nat} {j t : List Nat}, Valid i s → Valid j t → Valid (i ++ j) (s ++ t)
  | [], [], _, _, _, h => h
  | _ :: _, _ :: _, _, _, h, h' => ⟨h.1, Valid.append h.2 h'⟩

theorem Valid.reverse : ∀ {i s : List Nat}, Valid i s → Valid i.reverse s.reverse
  | [], [], _ => trivial
  | a :: i, n :: s, h => by
    simp only [List.reverse_cons]
    exact Valid.append (Valid.reverse h.2) ⟨h.1, trivial⟩

theorem mem_idxF {s i : List Nat} : i ∈ idxF s ↔ Valid i s := by
  simp only [idxF, List.mem_map, mem_idxC]
  constructor
  · rintro ⟨j, hj, rfl⟩
    have := hj.reverse
    simpa using this
  · intro h
    exact ⟨i.reverse, h.reverse, by simp⟩

theorem mem_idxs {f : Bool} {s i : List Nat} : i ∈ idxs f s ↔ Valid i s := by
  cases f <;> simp [idxs, mem_idxC, mem_idxF]

/-- An element has one value per field, of the field's size. -/
def WfElem (fs : List Field) (e : Elem) : Prop := e.map (·.length) = fs.map (·.size)

theorem fieldMem_length (f : Field) (v : Bytes) : (fieldMem f v).length = v.length := by
  unfold fieldMem; split <;> simp

theorem fieldMem_fieldMem (f : Field) (v : Bytes) : fieldMem f (fieldMem f v) = v := by
  unfold fieldMem; split <;> simp

theorem elemMem_length : ∀ {fs : List Field} {e : Elem}, WfElem fs e →
    (elemMem fs e).length = (fs.map (·.size)).sum
  | [], [], _ => rfl
  | f :: fs, v :: vs, h => by
    simp only [WfElem, List.map_cons, List.cons.injEq] at h
    simp [elemMem, fieldMem_length, h.1, elemMem_length h.2]

theorem elemRead_elemMem : ∀ {fs : List Field} {e : Elem} (r : Bytes), WfElem fs e →
    elemRead fs (elemMem fs e ++ r) = e
  | [], [], _, _ => rfl
  | f :: fs, v :: vs, r, h => by
    simp only [WfElem, List.map_cons, List.cons.injEq] at h
    have hl : (fieldMem f v).length = f.size := by rw [fieldMem_length, h.1]
    simp only [elemRead, elemMem, List.append_assoc]
    rw [List.take_append_of_le_length (by omega), List.take_of_length_le (by omega), fieldMem_fieldMem,
      ← hl, List.drop_left, elemRead_elemMem r h.2]

theorem drop_flatMap {α} (g : α → Bytes) (k : Nat) : ∀ (l : List α) (n : Nat),
    (∀ x ∈ l, (g x).length = k) → n ≤ l.length → (l.flatMap g).drop (n * k) = (l.drop n).flatMap g
  | _, 0, _, _ => by simp
  | x :: l, n + 1, h, hn => by
    have hx := h x (by simp)
    simp only [List.flatMap_cons, List.drop_succ_cons]
    rw [← drop_flatMap g k l n (fun y hy => h y (by simp [hy])) (by simpa using hn),
      Nat.succ_mul, Nat.add_comm, ← List.drop_drop, ← hx, List.drop_left]

theorem fromBuffer_layout (d : DType) (elem : List Nat → Elem) (order : List (List Nat))
    (hw : ∀ i ∈ order, WfElem d.fields (elem i)) (i : List Nat) (hi : i ∈ order) :
    fromBuffer d (layout d elem order) order i = elem i := by
  unfold fromBuffer layout
  have hlt : order.idxOf i < order.length := List.idxOf_lt_length_of_mem hi
  have := drop_flatMap (fun i => elemMem d.fields (elem i)) (itemsize d) order (order.idxOf i)
    (fun x hx => elemMem_length (hw x hx)) (Nat.le_of_lt hlt)
  rw [this, List.drop_eq_getElem_cons hlt, List.flatMap_cons, List.getElem_idxOf hlt]
  exact elemRead_elemMem _ (hw i hi)

theorem layout_congr (d : DType) {e e' : List Nat → Elem} {order : List (List Nat)}
    (h : ∀ i ∈ order, e i = e' i) : layout d e order = layout d e' order := by
  unfold layout
  induction order with
  | nil => rfl
  | cons x r ih =>
    rw [List.flatMap_cons, List.flatMap_cons, h x (by simp), ih (fun i hi => h i (by simp [hi]))]

theorem nlGetAt_eq : ∀ (xs : List NL) (k : Nat) (j : List Nat) (h : k < xs.length),
    nlGetAt xs k j = nlGet xs[k] j
  | _ :: _, 0, _, _ => rfl
  | _ :: r, k + 1, j, h => nlGetAt_eq r k j (by simpa using h)

theorem nlGet_nest : ∀ (s : List Nat) (f : List Nat → Elem) (i : List Nat), Valid i s →
    nlGet (nest s f) i = f i
  | [], f, [], _ => rfl
  | n :: s, f, k :: j, h => by
    simp only [nest, nlGet]
    rw [nlGetAt_eq _ _ _ (by simpa using h.1)]
    simp only [List.getElem_map, List.getElem_range]
    exact nlGet_nest s _ j h.2

theorem inferShape_nest : ∀ (s : List Nat) (f : List Nat → Elem), 0 ∉ s → inferShape (nest s f) = s
  | [], f, _ => rfl
  | n :: s, f, h => by
    simp only [List.mem_cons, not_or] at h
    simp only [nest, inferShape, List.length_map, List.length_range]
    cases n with
    | zero => exact absurd rfl h.1
    | succ n =>
      rw [List.range_succ_eq_map]
      simp only [List.map_cons, inferShapeHead]
      rw [inferShape_nest s _ h.2]

end JP.Numpy
