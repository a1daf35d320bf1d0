import Verif.Unpickler
import Verif.TreeSpec
/-! # The document handed back as it is -/
namespace JP.Unpickler
open JP PyM

mutual
/-- `raw j` only creates new objects, and the result is the data that `j` denotes -/
theorem raw_reads : ∀ (j : Json) (s : UState), ∃ v new,
    raw j s = some (.ok v, { s with heap := s.heap ++ new }) ∧ Reads (s.heap ++ new) v j
  | .null, s => ⟨_, [], by rw [List.append_nil]; rfl, by simp [Reads]⟩
  | .bool b, s => ⟨_, [], by rw [List.append_nil]; rfl, by simp [Reads]⟩
  | .int i, s => ⟨_, [], by rw [List.append_nil]; rfl, by simp [Reads]⟩
  | .float f, s => ⟨_, [], by rw [List.append_nil]; rfl, by simp [Reads]⟩
  | .str t, s => ⟨_, [], by rw [List.append_nil]; rfl, by simp [Reads]⟩
  | .arr xs, s => by
    obtain ⟨vs, new, h1, h2⟩ := raws_reads xs s
    refine ⟨.ref (s.heap ++ new).length, new ++ [.list vs], ?_, ?_⟩
    · unfold raw
      refine (bind_ok h1).trans ?_
      rw [bind_run]
      simp [alloc, pure_run]
    · rw [← List.append_assoc]
      simp only [Reads]
      exact ⟨_, vs, rfl, by simp, h2.mono (append_mono _ _)⟩
  | .obj xs, s => by
    obtain ⟨vs, new, h1, h2⟩ := rawKvs_reads xs s
    refine ⟨.ref (s.heap ++ new).length, new ++ [.dict vs], ?_, ?_⟩
    · unfold raw
      refine (bind_ok h1).trans ?_
      rw [bind_run]
      simp [alloc, pure_run]
    · rw [← List.append_assoc]
      simp only [Reads]
      exact ⟨_, vs, rfl, by simp, h2.mono (append_mono _ _)⟩
theorem raws_reads : ∀ (xs : List Json) (s : UState), ∃ vs new,
    raws xs s = some (.ok vs, { s with heap := s.heap ++ new }) ∧ ReadsAll (s.heap ++ new) vs xs
  | [], s => ⟨_, [], by rw [List.append_nil]; rfl, by simp [ReadsAll]⟩
  | x :: xs, s => by
    obtain ⟨v, new, h1, h2⟩ := raw_reads x s
    obtain ⟨vs, new', h3, h4⟩ := raws_reads xs { s with heap := s.heap ++ new }
    refine ⟨v :: vs, new ++ new', ?_, ?_⟩
    · unfold raws
      refine (bind_ok h1).trans ((bind_ok h3).trans ?_)
      rw [← List.append_assoc]
      rfl
    · rw [← List.append_assoc]
      simp only [ReadsAll]
      exact ⟨v, vs, rfl, h2.mono (append_mono _ _), h4⟩
theorem rawKvs_reads : ∀ (xs : List (Str × Json)) (s : UState), ∃ vs new,
    rawKvs xs s = some (.ok vs, { s with heap := s.heap ++ new }) ∧ ReadsEntries (s.heap ++ new) vs xs
  | [], s => ⟨_, [], by rw [List.append_nil]; rfl, by simp [ReadsEntries]⟩
  | (k, x) :: xs, s => by
    obtain ⟨v, new, h1, h2⟩ := raw_reads x s
    obtain ⟨vs, new', h3, h4⟩ := rawKvs_reads xs { s with heap := s.heap ++ new }
    refine ⟨(.str k, v) :: vs, new ++ new', ?_, ?_⟩
    · unfold rawKvs
      refine (bind_ok h1).trans ((bind_ok h3).trans ?_)
      rw [← List.append_assoc]
      rfl
    · rw [← List.append_assoc]
      simp only [ReadsEntries]
      exact ⟨v, vs, rfl, h2.mono (append_mono _ _), h4⟩
end

end JP.Unpickler
