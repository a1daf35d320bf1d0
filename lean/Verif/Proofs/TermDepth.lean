import Verif.Proofs.Term
/-! # With a depth limit the encoder terminates on every graph -/
namespace JP.Pickler
open JP PyM

/-- within `k + 1` levels of the limit the run ends, and a result leaves the counter as it was -/
def Lim (M : Int) (k : Nat) (d : Idx) {α : Type} (x : P α) (Q : α → Prop) : Prop :=
  M ≤ d.depth + 1 + k → d.depth + 1 ≤ M → ∀ s : PState, s.depth = d.depth →
    ∃ r s', x s = some (r, s') ∧ ∀ a, r = .ok a → Q a ∧ s'.depth = d.depth

namespace Lim
variable {M : Int} {k : Nat} {d : Idx} {α β : Type} {w : World} {cfg : PCfg}

theorem pure {Q : α → Prop} {a : α} (h : Q a) : Lim M k d (Pure.pure a) Q :=
  fun _ _ s hs => ⟨.ok a, s, rfl, fun b hb => by cases hb; exact ⟨h, hs⟩⟩

theorem bind {x : P α} {f : α → P β} {Q : α → Prop} {R : β → Prop} (hx : Lim M k d x Q)
    (hf : ∀ a, Q a → Lim M k d (f a) R) : Lim M k d (x >>= f) R := by
  intro h1 h2 s hs
  obtain ⟨r, s1, h3, h4⟩ := hx h1 h2 s hs
  rw [bind_run, h3]
  cases r with
  | error e => exact ⟨.error e, s1, rfl, fun a ha => by cases ha⟩
  | ok a => exact hf a (h4 a rfl).1 h1 h2 s1 (h4 a rfl).2

theorem ofExcept {r : Except Exc α} {Q : α → Prop} (h : ∀ a, r = .ok a → Q a) : Lim M k d (PyM.ofExcept r) Q :=
  fun _ _ s hs => ⟨r, s, by simp, fun a ha => ⟨h a ha, hs⟩⟩

theorem mkref {i : Ident} : Lim M k d (mkref cfg i) (fun _ => True) := by
  refine Lim.bind (Q := fun _ => True) ?_ (fun _ _ => Lim.pure trivial)
  intro _ _ s hs
  unfold Pickler.logRef
  split
  · exact ⟨_, _, rfl, fun _ _ => ⟨trivial, hs⟩⟩
  · exact ⟨_, _, rfl, fun _ _ => ⟨trivial, hs⟩⟩

theorem cached {id : Ident} {x : P Json} (h : Lim M k d x (fun _ => True)) : Lim M k d (cached cfg id x) (fun _ => True) := by
  unfold Pickler.cached
  split
  · exact h
  · intro h1 h2 s hs
    rw [bind_ok (get_run s)]
    cases hf : s.flattened.find? (fun p => p.1 == id) with
    | some p => exact ⟨_, s, rfl, fun _ _ => ⟨trivial, hs⟩⟩
    | none =>
      simp only
      refine Lim.bind h (fun j _ => ?_) h1 h2 s hs
      intro _ _ s hs
      exact ⟨.ok j, _, rfl, fun _ _ => ⟨trivial, hs⟩⟩

theorem level {m : Nat} {v : Val} {id : Ident} {rep : Except Exc Str} {body : P Json} (hM : cfg.maxDepth = some M)
    (hf : cfg.failSafe = none) (hb : M ≠ d.depth + 1 → Lim M m (d.child v) body (fun _ => True)) (hk : k ≤ m + 1) :
    Lim M k d (level cfg v id false rep body) (fun _ => True) := by
  refine Lim.cached ?_
  intro h1 h2 s hs
  change ∃ r s1, (Inv.objInner cfg id false rep body >>= Pickler.pop)
    { s with depth := s.depth + 1, seen := s.seen ++ [v] } = some (r, s1) ∧ _
  have key : ∃ r s1, Inv.objInner cfg id false rep body { s with depth := s.depth + 1, seen := s.seen ++ [v] } = some (r, s1) ∧
      ∀ a, r = .ok a → s1.depth = d.depth + 1 := by
    unfold Inv.objInner
    have e1 : maxReached cfg { s with depth := s.depth + 1, seen := s.seen ++ [v] } =
        some (.ok (some (s.depth + 1) == some M), { s with depth := s.depth + 1, seen := s.seen ++ [v] }) := by
      simp [maxReached, hM]
    rw [bind_ok e1]
    have e2 : ∀ (h : Exc → P Json) (x : P Json), PyM.tryCatch x (fun e => e.isException && cfg.failSafe.isSome) h = x := by
      intro h x
      funext s
      unfold PyM.tryCatch
      rw [hf]
      cases x s with
      | none => rfl
      | some p => obtain ⟨r, s1⟩ := p; cases r <;> simp
    rw [e2]
    by_cases hd : M = d.depth + 1
    · have e3 : inCycle id false (some (s.depth + 1) == some M) cfg.makeRefs { s with depth := s.depth + 1, seen := s.seen ++ [v] } =
          some (.ok true, { s with depth := s.depth + 1, seen := s.seen ++ [v] }) := by
        simp [inCycle, hs, hd]
      rw [bind_ok e3]
      simp only [if_true]
      cases rep with
      | error e => exact ⟨_, _, rfl, fun a ha => by cases ha⟩
      | ok r => exact ⟨_, _, rfl, fun a ha => by show s.depth + 1 = _; rw [hs]⟩
    · obtain ⟨b, hb'⟩ : ∃ b, inCycle id false (some (s.depth + 1) == some M) cfg.makeRefs { s with depth := s.depth + 1, seen := s.seen ++ [v] } =
          some (.ok b, { s with depth := s.depth + 1, seen := s.seen ++ [v] }) := ⟨_, rfl⟩
      rw [bind_ok hb']
      cases b with
      | true =>
        simp only [if_true]
        cases rep with
        | error e => exact ⟨_, _, rfl, fun a ha => by cases ha⟩
        | ok r => exact ⟨_, _, rfl, fun a ha => by show s.depth + 1 = _; rw [hs]⟩
      | false =>
        simp only [Bool.false_eq_true, if_false]
        obtain ⟨r, s1, h3, h4⟩ := hb hd (by simp only [Idx.child]; omega) (by simp only [Idx.child]; omega)
          { s with depth := s.depth + 1, seen := s.seen ++ [v] } (by simp [Idx.child, hs])
        exact ⟨r, s1, h3, fun a ha => (h4 a ha).2⟩
  obtain ⟨r, s1, h3, h4⟩ := key
  rw [bind_run, h3]
  cases r with
  | error e => exact ⟨_, _, rfl, fun a ha => by cases ha⟩
  | ok j =>
    refine ⟨_, _, rfl, fun a ha => ⟨trivial, ?_⟩⟩
    have := h4 j rfl
    simp only
    split
    · next h =>
      have : s1.depth - 1 = (-1 : Int) := by simpa using h
      show (-1 : Int) = d.depth
      omega
    · show s1.depth - 1 = d.depth
      omega

end Lim

def limLogic (w : World) (cfg : PCfg) (M : Int) (k : Nat) (V : Val → Prop) (hM : cfg.maxDepth = some M)
    (hf : cfg.failSafe = none) (hc : ¬ Catches w V) (he : ¬ HasEnum w V) (h1 : V .none) (h2 : V (.str Tags.NEWOBJ)) : Logic w cfg where
  T d _ x _ Q := Lim M k d x Q
  JC _ _ := True
  JD _ _ := True
  JB _ _ := True
  K _ := True
  RefOk := True
  V := V
  R := V
  rv := id
  S _ := True
  pure := Lim.pure
  bind := Lim.bind
  ofExcept := Lim.ofExcept
  tryCatch h := (hc h).elim
  mkref _ h1 h2 s hs := let ⟨r, s1, h3, h4⟩ := Lim.mkref h1 h2 s hs; ⟨r, s1, h3, fun a ha => ⟨.inr trivial, (h4 a ha).2⟩⟩
  refOr _ hx hg := Lim.bind Lim.mkref (fun b _ => by
    cases b with
    | true => exact hx
    | false =>
      exact Lim.bind (Q := fun _ => True ∧ True) (fun _ _ s hs => ⟨_, s, rfl, fun _ _ => ⟨⟨trivial, trivial⟩, hs⟩⟩) hg)
  maxReached _ _ s hs := ⟨_, s, rfl, fun _ _ => ⟨trivial, hs⟩⟩
  inCycle _ _ s hs := ⟨_, s, rfl, fun _ _ => ⟨trivial, hs⟩⟩
  level {d v id e rep body body'} _ h _ _ hb := by
    cases e with
    | true => exact (he (h rfl)).elim
    | false => exact Lim.level hM hf (fun _ => hb) (by omega)
  leafBytes := Lim.cached (Lim.pure trivial)
  leafBytearray := Lim.cached (Lim.pure trivial)
  jNull := trivial
  jBool := trivial
  jInt := trivial
  jFloat _ := trivial
  jStr _ := trivial
  jCD _ := trivial
  jCB _ := trivial
  jArrD _ := trivial
  jArrB _ := trivial
  jObjD _ _ := trivial
  jObjB _ _ := trivial
  jDate _ _ _ _ _ _ := trivial
  vNone := h1
  vNewobj := h2
  sVal _ := trivial
  sType _ := trivial
  sFunc _ := trivial
  sModule _ := trivial
  sClass _ _ := trivial
  sClone := trivial
  sRepr _ _ := trivial
  sPystr _ _ := trivial
  kUser _ _ := trivial
  kName _ _ := trivial
  kRepr _ _ _ := trivial
  kEsc _ := trivial
  kField _ _ _ := trivial
  kObject _ := trivial
  kFunction _ := trivial
  kModule _ := trivial
  kReduce _ := trivial
  kSeq _ := trivial
  kSet _ := trivial
  kTuple _ := trivial
  kState _ := trivial
  kType := trivial
  kNewargs := trivial
  kNewargsex := trivial
  kInitargs := trivial
  kIterator := trivial
  kDefault := trivial

theorem flatten_lim {w : World} {cfg : PCfg} {M : Int} {root : Val} (hM : cfg.maxDepth = some M) (hf : cfg.failSafe = none)
    (hc : ¬ Catches w (From w root)) (he : ¬ HasEnum w (From w root)) :
    ∀ (k : Nat) (v : Val), From w root v → ∀ d, Lim M k d (flatten w cfg (k + 1) v) (fun _ => True) := by
  have hclosed : ∀ {v x}, From w root v → Touches w.heap v x → From w root x := (Scope.ofRoot w root).touch
  have hen : ∀ v, From w root v → isEnumV w v = false := by
    intro v hv
    cases h : isEnumV w v with
    | false => rfl
    | true => exact (he (hasEnum_of hv h)).elim
  have hleaf : ∀ (k n : Nat) (v : Val) (d : Idx), isLeaf v = true → Lim M k d (flatten w cfg (n + 1) v) (fun _ => True) := by
    intro k n v d hv
    cases v <;> first | exact Lim.pure trivial | exact Lim.cached (Lim.pure trivial) | cases hv
  intro k
  induction k with
  | zero =>
    intro v hv d
    cases hl : isLeaf v with
    | true => exact hleaf _ _ _ _ hl
    | false =>
      rw [flatten_level hl, hen v hv]
      intro h1 h2
      exact Lim.level (m := 0) hM hf (fun h => by omega) (by omega) h1 h2
  | succ k ih =>
    intro v hv d
    cases hl : isLeaf v with
    | true => exact hleaf _ _ _ _ hl
    | false =>
      rw [flatten_level hl, hen v hv]
      refine Lim.level (m := k) hM hf (fun h => ?_) (by omega)
      exact (limLogic w cfg M k (From w root) hM hf hc he (.inr (.inl rfl)) (.inr (.inr rfl))).by_ (fl' := flatten w cfg (k + 1))
        (c := d.stack) (fun d x hx => ih x hx d) hv (fun x hx => hclosed hv hx) rfl

end JP.Pickler
