import Verif.SampleTouch
import Verif.CycleSpec
/-!
# Sample graphs with cycles: where values occur, by evaluation
-/
namespace JP.Sample
open JP Cycle

/-- all places at or below a place (and possibly more), as far as `n` levels go -/
def places (h : Heap) (c : Addr → Bool) : Nat → List Addr → Val → List (List Addr × Val)
  | 0, _, _ => []
  | n + 1, op, v => (op, v) :: (if met op v then [] else (touched h v).flatMap (places h c n (into c v op)))

def endsB (h : Heap) (c : Addr → Bool) : Nat → List Addr → Val → Bool
  | 0, _, _ => false
  | n + 1, op, v => met op v || (touched h v).all (endsB h c n (into c v op))

theorem endsB_spec {h : Heap} {c : Addr → Bool} : ∀ {n : Nat} {op : List Addr} {v : Val}, endsB h c n op v = true → Ends h c n op v
  | n + 1, op, v, hb => by
    rcases Bool.or_eq_true_iff.1 hb with hb | hb
    · exact .inl hb
    · exact .inr (fun x hx => endsB_spec (List.all_eq_true.1 hb x (touched_spec hx)))

/-- the places are closed under going one level down -/
theorem places_step {h : Heap} {c : Addr → Bool} : ∀ {n : Nat} {op : List Addr} {v : Val}, endsB h c n op v = true → ∀ {q x y}, (q, x) ∈ places h c n op v → met q x = false → y ∈ touched h x →
    (into c x q, y) ∈ places h c n op v
  | n + 1, op, v, hb, q, x, y, hq, hm, hy => by
    unfold places at hq ⊢
    have top : ∀ {k op v}, endsB h c k op v = true → (op, v) ∈ places h c k op v := by
      intro k op v hk
      cases k with
      | zero => cases hk
      | succ k => exact List.mem_cons_self
    rcases List.mem_cons.1 hq with hq | hq
    · injection hq with h1 h2
      subst h1 h2
      refine List.mem_cons_of_mem _ ?_
      rw [if_neg (by rw [hm]; simp)]
      rcases Bool.or_eq_true_iff.1 hb with hb | hb
      · rw [hm] at hb; cases hb
      · exact List.mem_flatMap.2 ⟨y, hy, top (List.all_eq_true.1 hb y hy)⟩
    · by_cases hmv : met op v = true
      · rw [if_pos hmv] at hq; cases hq
      · rw [if_neg hmv] at hq ⊢
        obtain ⟨z, hz, hq⟩ := List.mem_flatMap.1 hq
        rcases Bool.or_eq_true_iff.1 hb with hb | hb
        · exact absurd hb hmv
        · exact List.mem_cons_of_mem _ (List.mem_flatMap.2 ⟨z, hz, places_step (List.all_eq_true.1 hb z hz) hq hm hy⟩)

theorem places_spec {h : Heap} {c : Addr → Bool} {n : Nat} {op : List Addr} {v : Val} (hb : endsB h c n op v = true) {q : List Addr} {x : Val} (ho : Occurs h c op v q x) : (q, x) ∈ places h c n op v := by
  induction ho with
  | self =>
    cases n with
    | zero => cases hb
    | succ n => exact List.mem_cons_self
  | step _ hm ht ih => exact places_step hb ih hm (touched_spec ht)

/-- sufficient condition for `Coherent` -/
def coherentB (h : Heap) (c : Addr → Bool) (n : Nat) (root : Val) : Bool :=
  (places h c n [] root).all (fun p => met p.1 p.2 || (endsB h c n p.1 p.2 && (places h c n [] root).all (fun p' => !(p'.2 == p.2) || met p'.1 p'.2 ||
    (places h c n p.1 p.2).all (fun z => match z.2 with | .ref a => p.1.contains a == p'.1.contains a | _ => true))))

theorem coherentB_spec {h : Heap} {c : Addr → Bool} {n : Nat} {root : Val} (hb : endsB h c n [] root = true) (hc : coherentB h c n root = true) : Coherent h c root := by
  intro x op op' h1 h2 hm hm' q a hq
  have e1 := List.all_eq_true.1 hc _ (places_spec hb h1)
  simp only [hm, Bool.false_or, Bool.and_eq_true] at e1
  have e2 := List.all_eq_true.1 e1.2 _ (places_spec hb h2)
  simp only [hm', beq_self_eq_true, Bool.not_true, Bool.false_or] at e2
  have e3 := List.all_eq_true.1 e2 _ (places_spec e1.1 hq)
  simp only [beq_iff_eq] at e3
  rw [← List.contains_iff_mem, ← List.contains_iff_mem, e3]

/-- sufficient condition for `NoEnum` -/
theorem noEnum_of {h : Heap} {c : Addr → Bool} {root : Val} (hb : h.all (fun o => match o with | .inst i => !i.info.isEnum | _ => true) = true) : NoEnum h c root := by
  intro op a i _ _ hi
  simpa using List.all_eq_true.1 hb _ (List.mem_of_getElem? hi)

end JP.Sample
