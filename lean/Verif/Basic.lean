import Lean.Elab.Term
/-!
# Basic vocabulary: Python strings, exceptions, and the effect type of the model

Nothing here models a particular function of `/repo`; it is the language the model is written in.
-/
namespace JP

/-- A Python `str`: its sequence of code points (lone surrogates are representable, as in Python). -/
abbrev Str := List Nat

open Lean Elab Term in
/-- `p!"abc"` is the `Str` literal `[97, 98, 99]`. -/
elab:max "p!" s:str : term => do
  let cs := s.getString.toList.map (fun c => mkNatLit c.toNat)
  Meta.mkListLit (mkConst ``Nat) cs

/-- `str.startswith` (and `bytes.startswith`). -/
def startsWith (s pre : List Nat) : Bool := pre.isPrefixOf s

/-- The exception classes the modelled code distinguishes.  `classNotFound` is
`errors.ClassNotFoundError` (jsonpickle/errors.py:8-10), which derives from `BaseException`, and
`keyboardInterrupt` stands for `KeyboardInterrupt`/`SystemExit`; neither is an `Exception`.
All other constructors are subclasses of `Exception`. -/
inductive Exc
  | typeError | attributeError | keyError | indexError | valueError | unicodeError
  | assertionError | notImplemented | importError
  | other (tag : Nat)
  | classNotFound
  | keyboardInterrupt
  deriving Repr, DecidableEq, Inhabited

/-- `isinstance(e, Exception)`. -/
def Exc.isException : Exc → Bool
  | .classNotFound => false
  | .keyboardInterrupt => false
  | _ => true

/-- A Python computation with mutable state `σ`.
`none`: the fuel ran out (the real program recurses further; on unbounded recursion Python raises
`RecursionError`).  Otherwise a result or an exception *together with the state reached*, because a
Python exception does not undo side effects. -/
def PyM (σ α : Type) : Type := σ → Option (Except Exc α × σ)

namespace PyM
variable {σ α β : Type}

protected def pure (a : α) : PyM σ α := fun s => some (.ok a, s)

protected def bind (x : PyM σ α) (f : α → PyM σ β) : PyM σ β := fun s =>
  match x s with
  | none => none
  | some (.error e, s') => some (.error e, s')
  | some (.ok a, s') => f a s'

instance : Monad (PyM σ) where
  pure := PyM.pure
  bind := PyM.bind

def throw (e : Exc) : PyM σ α := fun s => some (.error e, s)
def outOfFuel : PyM σ α := fun _ => none
def get : PyM σ σ := fun s => some (.ok s, s)
def modify (f : σ → σ) : PyM σ Unit := fun s => some (.ok (), f s)
def gets (f : σ → α) : PyM σ α := fun s => some (.ok (f s), s)
/-- lift a pure result-or-exception -/
def ofExcept (r : Except Exc α) : PyM σ α := fun s => some (r, s)

/-- `try: x except e if p e: h e`. -/
def tryCatch (x : PyM σ α) (p : Exc → Bool) (h : Exc → PyM σ α) : PyM σ α := fun s =>
  match x s with
  | some (.error e, s') => if p e then h e s' else some (.error e, s')
  | r => r

/-- `[f(x) for x in xs]`, left to right. -/
def mapM (f : α → PyM σ β) : List α → PyM σ (List β)
  | [] => pure []
  | x :: xs => do
    let y ← f x
    let ys ← mapM f xs
    pure (y :: ys)

/-- `for x in xs: acc = f(acc, x)`. -/
def foldM (f : β → α → PyM σ β) : β → List α → PyM σ β
  | b, [] => pure b
  | b, x :: xs => do
    let b' ← f b x
    foldM f b' xs

/-! ### running -/

@[simp] theorem pure_run (a : α) (s : σ) : (pure a : PyM σ α) s = some (.ok a, s) := rfl
@[simp] theorem throw_run (e : Exc) (s : σ) : (throw e : PyM σ α) s = some (.error e, s) := rfl
@[simp] theorem get_run (s : σ) : (get : PyM σ σ) s = some (.ok s, s) := rfl
@[simp] theorem modify_run (f : σ → σ) (s : σ) : modify f s = some (.ok (), f s) := rfl
@[simp] theorem gets_run (f : σ → α) (s : σ) : gets f s = some (.ok (f s), s) := rfl
@[simp] theorem ofExcept_run (r : Except Exc α) (s : σ) : ofExcept r s = some (r, s) := rfl
@[simp] theorem outOfFuel_run (s : σ) : (outOfFuel : PyM σ α) s = none := rfl

theorem bind_run (x : PyM σ α) (f : α → PyM σ β) (s : σ) :
    (x >>= f) s = match x s with
      | none => none
      | some (.error e, s') => some (.error e, s')
      | some (.ok a, s') => f a s' := rfl

theorem bind_ok {x : PyM σ α} {f : α → PyM σ β} {s s' : σ} {a : α}
    (h : x s = some (.ok a, s')) : (x >>= f) s = f a s' := by
  rw [bind_run, h]

theorem bind_eq_ok {x : PyM σ α} {f : α → PyM σ β} {s s' : σ} {b : β} :
    (x >>= f) s = some (.ok b, s') ↔
      ∃ a s1, x s = some (.ok a, s1) ∧ f a s1 = some (.ok b, s') := by
  rw [bind_run]
  constructor
  · intro h
    split at h
    · cases h
    · cases h
    · next a s1 h1 => exact ⟨a, s1, h1, h⟩
  · rintro ⟨a, s1, h1, h2⟩
    rw [h1]; exact h2

theorem bind_eq_error {x : PyM σ α} {f : α → PyM σ β} {s s' : σ} {e : Exc} :
    (x >>= f) s = some (.error e, s') ↔
      x s = some (.error e, s') ∨
      ∃ a s1, x s = some (.ok a, s1) ∧ f a s1 = some (.error e, s') := by
  rw [bind_run]
  constructor
  · intro h
    split at h
    · cases h
    · next e1 s1 h1 => cases h; exact Or.inl h1
    · next a s1 h1 => exact Or.inr ⟨a, s1, h1, h⟩
  · rintro (h | ⟨a, s1, h1, h2⟩)
    · rw [h]
    · rw [h1]; exact h2

theorem bind_eq_none {x : PyM σ α} {f : α → PyM σ β} {s : σ} :
    (x >>= f) s = none ↔
      x s = none ∨ ∃ a s1, x s = some (.ok a, s1) ∧ f a s1 = none := by
  rw [bind_run]
  constructor
  · intro h
    split at h
    · next h1 => exact Or.inl h1
    · cases h
    · next a s1 h1 => exact Or.inr ⟨a, s1, h1, h⟩
  · rintro (h | ⟨a, s1, h1, h2⟩)
    · rw [h]
    · rw [h1]; exact h2

@[simp] theorem mapM_nil (f : α → PyM σ β) : mapM f [] = pure [] := rfl
theorem mapM_cons (f : α → PyM σ β) (x : α) (xs : List α) :
    mapM f (x :: xs) = (do let y ← f x; let ys ← mapM f xs; pure (y :: ys)) := rfl
@[simp] theorem foldM_nil (f : β → α → PyM σ β) (b : β) : foldM f b [] = pure b := rfl
theorem foldM_cons (f : β → α → PyM σ β) (b : β) (x : α) (xs : List α) :
    foldM f b (x :: xs) = (do let b' ← f b x; foldM f b' xs) := rfl

end PyM

/-! ### Python dicts as association lists in insertion order

Keys are unique in a Python dict; `dset`/`ddel` keep them unique. -/

variable {κ α : Type} [DecidableEq κ]

/-- `d[k]` / `d.get(k)`. -/
def dget (k : κ) : List (κ × α) → Option α
  | [] => none
  | (k', v) :: r => if k' = k then some v else dget k r

/-- `k in d`. -/
def dhas (k : κ) (d : List (κ × α)) : Bool := (dget k d).isSome

/-- `d[k] = v`: overwrite in place, otherwise append (Python keeps insertion order). -/
def dset (k : κ) (v : α) : List (κ × α) → List (κ × α)
  | [] => [(k, v)]
  | (k', v') :: r => if k' = k then (k', v) :: r else (k', v') :: dset k v r

/-- `d.pop(k, None)` (no effect when absent). -/
def ddel (k : κ) (d : List (κ × α)) : List (κ × α) := d.filter (fun kv => decide (kv.1 ≠ k))

@[simp] theorem dget_nil (k : κ) : dget k ([] : List (κ × α)) = none := rfl

theorem dget_cons (k k' : κ) (v : α) (r : List (κ × α)) :
    dget k ((k', v) :: r) = if k' = k then some v else dget k r := rfl

@[simp] theorem dget_dset_same (k : κ) (v : α) (d : List (κ × α)) : dget k (dset k v d) = some v := by
  induction d with
  | nil => simp [dset, dget]
  | cons x d ih =>
    obtain ⟨k', v'⟩ := x
    by_cases h : k' = k
    · simp [dset, dget, h]
    · simp [dset, dget, h, ih]

theorem dget_dset_ne {k l : κ} (h : l ≠ k) (v : α) (d : List (κ × α)) :
    dget l (dset k v d) = dget l d := by
  induction d with
  | nil => simp [dset, dget, Ne.symm h]
  | cons x d ih =>
    obtain ⟨k', v'⟩ := x
    by_cases h' : k' = k
    · subst h'; simp [dset, dget, Ne.symm h]
    · simp [dset, dget, h', ih]

theorem dget_dset (k l : κ) (v : α) (d : List (κ × α)) :
    dget l (dset k v d) = if l = k then some v else dget l d := by
  by_cases h : l = k
  · subst h; simp
  · simp [h, dget_dset_ne h]

@[simp] theorem dget_ddel_same (k : κ) (d : List (κ × α)) : dget k (ddel k d) = none := by
  induction d with
  | nil => rfl
  | cons x d ih =>
    obtain ⟨k', v'⟩ := x
    simp only [ddel] at ih ⊢
    by_cases h : k' = k
    · rw [List.filter_cons_of_neg (by simp [h])]; exact ih
    · rw [List.filter_cons_of_pos (by simp [h]), dget_cons, if_neg h]; exact ih

theorem dget_ddel_ne {k l : κ} (h : l ≠ k) (d : List (κ × α)) : dget l (ddel k d) = dget l d := by
  induction d with
  | nil => rfl
  | cons x d ih =>
    obtain ⟨k', v'⟩ := x
    simp only [ddel] at ih ⊢
    by_cases h' : k' = k
    · rw [List.filter_cons_of_neg (by simp [h'])]
      subst h'
      rw [ih]; simp [dget, Ne.symm h]
    · rw [List.filter_cons_of_pos (by simp [h']), dget_cons, dget_cons, ih]

theorem dget_eq_none_iff (k : κ) (d : List (κ × α)) : dget k d = none ↔ k ∉ d.map (·.1) := by
  induction d with
  | nil => simp
  | cons x d ih =>
    obtain ⟨k', v'⟩ := x
    by_cases h : k' = k
    · simp [dget, h]
    · simp [dget, h, ih, Ne.symm h]

theorem dhas_eq_false_iff (k : κ) (d : List (κ × α)) : dhas k d = false ↔ k ∉ d.map (·.1) := by
  rw [← dget_eq_none_iff, dhas]
  cases dget k d <;> simp

theorem dset_of_not_mem (k : κ) (v : α) (d : List (κ × α)) (h : k ∉ d.map (·.1)) :
    dset k v d = d ++ [(k, v)] := by
  induction d with
  | nil => rfl
  | cons x d ih =>
    obtain ⟨k', v'⟩ := x
    simp only [List.map_cons, List.mem_cons, not_or] at h
    have hne : k' ≠ k := fun e => h.1 e.symm
    simp [dset, hne, ih h.2]

theorem dget_append (k : κ) (d e : List (κ × α)) :
    dget k (d ++ e) = (dget k d).or (dget k e) := by
  induction d with
  | nil => simp
  | cons x d ih =>
    obtain ⟨k', v'⟩ := x
    by_cases h : k' = k
    · simp [dget, h]
    · simp [dget, h, ih]

theorem dget_mem {k : κ} {v : α} {d : List (κ × α)} (h : dget k d = some v) : (k, v) ∈ d := by
  induction d with
  | nil => simp at h
  | cons x d ih =>
    obtain ⟨k', v'⟩ := x
    rw [dget_cons] at h
    split at h
    · next e => cases h; subst e; exact List.mem_cons_self
    · exact List.mem_cons_of_mem _ (ih h)

theorem dset_keys (k : κ) (v : α) (d : List (κ × α)) :
    (dset k v d).map (·.1) = if k ∈ d.map (·.1) then d.map (·.1) else d.map (·.1) ++ [k] := by
  induction d with
  | nil => simp [dset]
  | cons x d ih =>
    obtain ⟨k', v'⟩ := x
    by_cases h : k' = k
    · simp [dset, h]
    · have hk : ¬ k = k' := fun e => h e.symm
      by_cases hm : k ∈ d.map (·.1)
      · rw [if_pos hm] at ih
        simp only [dset, if_neg h, List.map_cons, ih, List.mem_cons, hm, or_true, if_true]
      · rw [if_neg hm] at ih
        simp only [dset, if_neg h, List.map_cons, ih, List.mem_cons, hm, hk, or_false, if_false,
          List.cons_append]

end JP
