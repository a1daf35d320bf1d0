import Verif.Pickler
/-! # Specification: the text for a dictionary key with `keys=False` -/
namespace JP
open JP PyM Pickler

/-- the text for a key: a string is itself, `None` is `null`, everything else is its `repr`, or its `str` if `repr` raises an `Exception` -/
inductive KeyText (w : World) : Val → Str → Prop
  | str (s : Str) : KeyText w (.str s) s
  | none : KeyText w .none p!"null"
  | repr (k : Val) (t : Str) : (∀ s, k ≠ .str s) → k ≠ .none → w.repr k = .ok t → KeyText w k t
  | pystr (k : Val) (e : Exc) (t : Str) : (∀ s, k ≠ .str s) → k ≠ .none → w.repr k = .error e → e.isException = true → w.pystr k = .ok t → KeyText w k t

/-- what the encoder writes is that text -/
theorem reprKey_text {w : World} {k : Val} {t : Str} (h : reprKey w k = .ok t) : KeyText w k t := by
  have key : (∀ s, k ≠ .str s) → k ≠ .none → (match w.repr k with
      | .ok s => .ok s
      | .error e => if e.isException then w.pystr k else .error e) = (.ok t : Except Exc Str) → KeyText w k t := by
    intro h1 h2 h3
    cases hr : w.repr k with
    | ok s =>
      rw [hr] at h3
      cases h3
      exact .repr k t h1 h2 hr
    | error e =>
      rw [hr] at h3
      by_cases he : e.isException = true
      · simp only [he, if_true] at h3
        exact .pystr k e t h1 h2 hr he h3
      · simp only [he] at h3
        cases h3
  unfold reprKey at h
  split at h
  · cases h; exact .none
  · cases h; exact .str _
  · next h1 h2 => exact key h2 h1 h

/-- what holds of `null`, of every `repr` and of every `str` holds of the texts of keys that are not strings -/
theorem KeyText.all_of {w : World} {Q : Str → Prop} (h0 : Q p!"null") (h1 : ∀ k t, w.repr k = .ok t → Q t) (h2 : ∀ k t, w.pystr k = .ok t → Q t) {k : Val} {t : Str}
    (h : KeyText w k t) (hk : ∀ s, k ≠ .str s) : Q t := by
  cases h with
  | str s => exact absurd rfl (hk _)
  | none => exact h0
  | repr _ _ _ _ h => exact h1 _ _ h
  | pystr _ _ _ _ _ _ _ h => exact h2 _ _ h

end JP
