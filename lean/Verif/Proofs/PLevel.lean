import Verif.RunSpec
/-!
# The run of the encoder for an object that it meets for the first time
-/
namespace JP.Pickler
open JP PyM

variable {w : World} {cfg : PCfg} {fl : Val → P Json}

/-- the state in which the contents of the object are encoded -/
def opened (a : Addr) (s : PState) : PState := { s with depth := s.depth + 1, seen := s.seen ++ [.ref a], objs := s.objs ++ [.addr a] }

theorem mapM_inTurn : ∀ {vs : List Val} {js : List Json} {s s' : PState}, PyM.mapM fl vs s = some (.ok js, s') → InTurn fl s vs js s'
  | [], _, _, _, h => by cases h; rfl
  | v :: vs, js, s, s', h => by
    simp only [PyM.mapM] at h
    obtain ⟨j, s1, h1, h2⟩ := bind_eq_ok.1 h
    obtain ⟨js', s2, h3, h4⟩ := bind_eq_ok.1 h2
    cases h4
    exact ⟨s1, h1, mapM_inTurn h3⟩

theorem mkref_new {a : Addr} {s : PState} (hn : Ident.addr a ∉ s.objs) :
    mkref cfg (.addr a) s = some (.ok true, { s with objs := s.objs ++ [.addr a] }) := by
  have : s.objs.contains (Ident.addr a) = false := by simpa using hn
  simp only [mkref, logRef, bind_run, this, Bool.false_eq_true, if_false, Bool.or_true, pure_run]

/-- down to `_get_flattener` -/
theorem level_by {a : Addr} {n : Nat} {s s' : PState} (hs : New a s) (hd : cfg.maxDepth ≠ some (s.depth + 1)) {j : Json}
    (h : flatten w cfg (n + 1) (.ref a) s = some (.ok j, s')) :
    (∃ s2, flattenBy w cfg (flatten w cfg n) (.ref a) { s with depth := s.depth + 1, seen := s.seen ++ [.ref a] } = some (.ok j, s2)) ∨ Replaced cfg j := by
  have hobj : ∃ s2, flattenObj w cfg (flatten w cfg n) (.ref a) { s with depth := s.depth + 1 } = some (.ok j, s2) := by
    have hp : ∃ s2, (do push; let j ← flattenObj w cfg (flatten w cfg n) (.ref a); pop j) s = some (.ok j, s2) := by
      simp only [flatten, flattenStep, flattenImpl, Val.ident] at h
      unfold cached at h
      split at h
      · exact ⟨_, h⟩
      · rw [bind_ok (get_run s)] at h
        have hfind : s.flattened.find? (fun p => p.1 == Ident.addr a) = none := by
          rw [List.find?_eq_none]
          intro p hp h
          exact hs.2 p hp (by simpa using h)
        rw [hfind] at h
        obtain ⟨j1, s1, h1, h2⟩ := bind_eq_ok.1 h
        cases h2
        exact ⟨_, h1⟩
    obtain ⟨s2, hp⟩ := hp
    obtain ⟨_, s1, h1, h2⟩ := bind_eq_ok.1 hp
    cases h1
    obtain ⟨j1, s3, h3, h4⟩ := bind_eq_ok.1 h2
    cases h4
    exact ⟨_, h3⟩
  obtain ⟨s2, h0⟩ := hobj
  unfold flattenObj flattenObjWith at h0
  have hmax : (some (s.depth + 1) == cfg.maxDepth) = false := beq_eq_false_iff_ne.2 (Ne.symm hd)
  have hc : s.objs.contains (Val.ref a).ident = false := by simpa [Val.ident] using hs.1
  simp only [bind_run, modify_run, maxReached, gets_run, PyM.tryCatch, inCycle, hmax, hc, Bool.and_false, Bool.or_self, Bool.false_and, Bool.false_eq_true, if_false] at h0
  split at h0
  · next e s3 hb =>
    split at h0
    · next he =>
      right
      cases hf : cfg.failSafe with
      | none => rw [hf] at he; simp at he
      | some f =>
        rw [hf] at h0
        simp only [PyM.ofExcept] at h0
        refine ⟨f, e, hf, ?_⟩
        cases hfe : f e with
        | error e' => rw [hfe] at h0; cases h0
        | ok j' => rw [hfe] at h0; cases h0; rfl
    · cases h0
  · exact .inl ⟨_, h0⟩

theorem level_dict {a : Addr} {kvs : List (Val × Val)} (ha : w.heap[a]? = some (.dict kvs)) {n : Nat} {s s' : PState} (hs : New a s)
    (hd : cfg.maxDepth ≠ some (s.depth + 1)) {j : Json} (h : flatten w cfg (n + 1) (.ref a) s = some (.ok j, s')) :
    (∃ d s2, flattenEntries w cfg (flatten w cfg n) kvs [] [] (opened a s) = some (.ok d, s2) ∧ j = .obj d) ∨ Replaced cfg j := by
  refine (level_by hs hd h).imp (fun ⟨s2, h1⟩ => ?_) id
  simp only [flattenBy, ha] at h1
  rw [bind_ok (mkref_new (by exact hs.1)), if_pos rfl] at h1
  obtain ⟨d, s3, h2, h3⟩ := bind_eq_ok.1 h1
  cases h3
  exact ⟨d, _, h2, rfl⟩

theorem level_inst {a : Addr} {i : Inst} (ha : w.heap[a]? = some (.inst i)) {n : Nat} {s s' : PState} (hs : New a s)
    (hd : cfg.maxDepth ≠ some (s.depth + 1)) {j : Json} (h : flatten w cfg (n + 1) (.ref a) s = some (.ok j, s')) :
    (∃ s2, flattenInst w cfg (flatten w cfg n) a i (opened a s) = some (.ok j, s2)) ∨ Replaced cfg j := by
  refine (level_by hs hd h).imp (fun ⟨s2, h1⟩ => ?_) id
  simp only [flattenBy, ha, refObjInstance] at h1
  split at h1
  · rw [bind_ok (mkref_new (by exact hs.1)), if_pos rfl] at h1
    exact ⟨_, h1⟩
  · have hmax : (some (s.depth + 1) == cfg.maxDepth) = false := beq_eq_false_iff_ne.2 (Ne.symm hd)
    have hc : s.objs.contains (Ident.addr a) = false := by simpa using hs.1
    simp only [bind_run, maxReached, gets_run, inCycle, hmax, hc, Bool.and_false, Bool.or_self, Bool.false_and, Bool.false_eq_true, if_false] at h1
    have hm := mkref_new (cfg := cfg) (a := a) (s := { s with depth := s.depth + 1, seen := s.seen ++ [.ref a] }) (by exact hs.1)
    rw [hm] at h1
    exact ⟨_, h1⟩

end JP.Pickler
