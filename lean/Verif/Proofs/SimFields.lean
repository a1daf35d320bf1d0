import Verif.Proofs.SimAttrs
/-!
# Dicts that are complete
-/
namespace JP.Sim
open JP PyM Unpickler

variable {w : World} {u : UState}

theorem viso_str {R : Addr → Addr → Prop} {n : Str} {y : Val} (h : VIso R (.str n) y) : y = .str n := by
  cases y <;> simp only [VIso] at h
  rw [h]

/-- the entries of a complete dict with string keys -/
theorem Rel.fields {P : List Ident} {B : Ctx} {d : Addr} {x : Val} {kvs : List (Str × Val)} (r : Rel w.heap B P u)
    (h : VIso (Rof B P u.objs) (.ref d) x) (hc : d ∉ B.opn) (hd : w.heap[d]? = some (.dict (kvs.map (fun kv => (.str kv.1, kv.2))))) :
    ∃ b kvs' : _, x = .ref b ∧ u.heap[b]? = some (.dict (kvs'.map (fun kv : Str × Val => (.str kv.1, kv.2)))) ∧ FieldsIso (Rof B P u.objs) kvs kvs' := by
  cases x <;> simp only [VIso] at h
  rename_i b
  obtain ⟨hb, k, k1, k2⟩ := h
  obtain ⟨keys, l, e1, e2⟩ := (r.filled k d b k1 k2 hb hc).2 _ hd
  have ho : writeOrder keys (kvs.map (fun kv => (Val.str kv.1, kv.2))) = kvs.map (fun kv => (Val.str kv.1, kv.2)) := by
    unfold writeOrder
    split
    · unfold stringsFirst
      rw [List.filter_eq_self.2, List.filter_eq_nil_iff.2, List.append_nil]
      · intro kv hkv
        obtain ⟨e, _, rfl⟩ := List.mem_map.1 hkv
        simp [isStrV]
      · intro kv hkv
        obtain ⟨e, _, rfl⟩ := List.mem_map.1 hkv
        simp [isStrV]
    · rfl
  rw [ho] at e2
  have key : ∀ (kvs : List (Str × Val)) (l : List (Val × Val)), ItemsIso (Rof B P u.objs) (kvs.map (fun kv => (Val.str kv.1, kv.2))) l →
      ∃ kvs' : List (Str × Val), l = kvs'.map (fun kv => (Val.str kv.1, kv.2)) ∧ FieldsIso (Rof B P u.objs) kvs kvs' := by
    intro kvs
    induction kvs with
    | nil =>
      intro l hl
      cases l with
      | nil => exact ⟨[], rfl, trivial⟩
      | cons _ _ => exact hl.elim
    | cons kv kvs ih =>
      intro l hl
      cases l with
      | nil => exact hl.elim
      | cons e l =>
        obtain ⟨⟨h1, h2⟩, h3⟩ := hl
        obtain ⟨l', rfl, h4⟩ := ih l h3
        obtain ⟨e1, e2⟩ := e
        have := viso_str h1
        simp only [] at this
        subst this
        exact ⟨(kv.1, e2) :: l', rfl, ⟨rfl, h2⟩, h4⟩
  obtain ⟨kvs', rfl, e3⟩ := key kvs l e2
  exact ⟨b, kvs', rfl, e1, e3⟩

end JP.Sim
