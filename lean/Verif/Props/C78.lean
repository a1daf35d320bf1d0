import Verif.Api
import Verif.Sample
import Verif.Proofs.PSize
/-!
# C78 — the size of a document

A document is linear in what the objects of the program hold: every list, dict and instance is written out once, wherever and however often it occurs.
Tuples and sets are written out at every occurrence, so a document can be exponential in the number of tuples, and without references the same holds for
lists and dicts.
-/
namespace JP.C78
open JP PyM Pickler Pickler.Size

/-- With references (the default), for all graphs, classes, handlers and all other options: if `encode` returns, the document has at most three
values for every value in a list, dict or instance, and fourteen more for every instance.  Values are lists, objects, strings, numbers and constants.
`fail_safe`, if there is one, has to return something small. -/
theorem linear (w : World) (cfg : PCfg) (hu : cfg.unpicklable = true) (hm : cfg.makeRefs = true) (hs : ∀ f e j, cfg.failSafe = some f → f e = .ok j → j.values ≤ 3)
    (n : Nat) (v : Val) (s s' : PState) (j : Json) (h : flattenTop w cfg n v true s = some (.ok j, s')) :
    j.values ≤ 3 * v.size + 3 * w.entries + 14 * w.instances := by
  have h := size_top hu hm hs (show flatten w cfg n v {} = some (.ok j, s') from h)
  rw [phi_all] at h
  omega

/-- Without instances: three values for every value. -/
theorem linear_data (w : World) (cfg : PCfg) (hu : cfg.unpicklable = true) (hm : cfg.makeRefs = true) (hs : ∀ f e j, cfg.failSafe = some f → f e = .ok j → j.values ≤ 3)
    (hi : ∀ (a : Nat) (i : Inst), w.heap[a]? ≠ some (Obj.inst i)) (n : Nat) (v : Val) (s s' : PState) (j : Json) (h : flattenTop w cfg n v true s = some (.ok j, s')) :
    j.values ≤ 3 * (v.size + w.entries) := by
  have h := linear w cfg hu hm hs n v s s' j h
  have h0 : w.instances = 0 := by
    unfold World.instances
    have : ∀ l : List Obj, (∀ o ∈ l, o ∈ w.heap) → total (fun o : Obj => match o with
        | .inst _ => 1
        | _ => 0) l = 0 := by
      intro l
      induction l with
      | nil => intro _; rfl
      | cons o l ih =>
        intro hl
        rw [total, ih (fun o ho => hl o (List.mem_cons_of_mem _ ho))]
        cases o with
        | inst i =>
          obtain ⟨a, ha⟩ := List.mem_iff_getElem?.1 (hl _ List.mem_cons_self)
          exact absurd ha (hi a i)
        | _ => rfl
    exact this _ (fun _ h => h)
  omega

/-! ### a sample: shared lists, an instance with a dict, a slot, state and a reduce value -/

def plain : Inst where
  cls := p!"m.C"
  info := { shortName := p!"C" }
  attrs := [(p!"x", .ref 1), (p!"y", .ref 0)]

def reduced : Inst where
  cls := p!"m.R"
  info := { shortName := p!"R", reduces := true }
  reduce := .tup [.func p!"m.f", .tuple 1 [.ref 1, .int 7]]

def w : World := Sample.world [.list [.ref 1, .ref 1, .ref 2, .ref 3], .list [.int 1, .int 2], .inst plain, .inst reduced]

def size : Option Nat := (flattenTop w {} 20 (.ref 0) true {}).bind (fun p => match p.1 with
  | .ok j => some j.values
  | .error _ => none)

example : size = some 21 ∧ w.entries = 12 ∧ w.instances = 2 := by decide +kernel

example : ∀ j s', flattenTop w {} 20 (.ref 0) true {} = some (.ok j, s') → j.values ≤ 67 := fun j s' h => by
  have := linear w {} rfl rfl (fun f e j h => by cases h) 20 (.ref 0) {} s' j h
  have h1 : w.entries = 12 ∧ w.instances = 2 := by decide +kernel
  rw [h1.1, h1.2] at this
  exact this

/-! ### tuples: exponential -/

/-- `t = (); t = (t, t); t = (t, t); …`: `n + 1` different tuples -/
def pairs : Nat → Val
  | 0 => .tuple 0 []
  | n + 1 => .tuple (n + 1) [pairs n, pairs n]

def pairsDoc : Nat → Json
  | 0 => .obj [(p!"py/tuple", .arr [])]
  | n + 1 => .obj [(p!"py/tuple", .arr [pairsDoc n, pairsDoc n])]

theorem tuple_run {w : World} {n : Nat} {l : Nat} {xs : List Val} {s s1 : PState} {js : List Json}
    (h : PyM.mapM (flatten w {} n) xs { s with depth := s.depth + 1, seen := s.seen ++ [.tuple l xs] } = some (.ok js, s1)) :
    flatten w {} (n + 1) (.tuple l xs) s = pop (.obj [(p!"py/tuple", .arr js)]) s1 := by
  have h1 : flattenObj w {} (flatten w {} n) (.tuple l xs) { s with depth := s.depth + 1 } = some (.ok (.obj [(p!"py/tuple", .arr js)]), s1) := by
    show (flattenObjWith {} (.tuple l xs) _ _ _ (PyM.mapM (flatten w {} n) xs >>= fun js => (pure _ : P Json))) _ = _
    unfold flattenObjWith
    rw [bind_run]
    dsimp only [PyM.modify]
    rw [bind_run]
    show (PyM.tryCatch (PyM.mapM (flatten w {} n) xs >>= fun js => (pure (.obj [(p!"py/tuple", .arr js)]) : P Json)) _ _) _ = _
    unfold PyM.tryCatch
    rw [bind_run, h]
    rfl
  show (push >>= fun _ => flattenObj w {} (flatten w {} n) (.tuple l xs) >>= fun j => pop j) s = _
  rw [bind_run]
  show (flattenObj w {} (flatten w {} n) (.tuple l xs) >>= fun j => pop j) { s with depth := s.depth + 1 } = _
  rw [bind_run, h1]

theorem pairs_run (w : World) : ∀ (n : Nat) (s : PState), -1 ≤ s.depth → ∃ s', flatten w {} (n + 1) (pairs n) s = some (.ok (pairsDoc n), s') ∧ s'.depth = s.depth
  | 0, s, h => by
    rw [show pairs 0 = .tuple 0 [] from rfl, tuple_run (js := []) (s1 := { s with depth := s.depth + 1, seen := s.seen ++ [.tuple 0 []] }) rfl]
    refine ⟨_, rfl, ?_⟩
    dsimp only
    split
    · next h => simp at h; show (-1 : Int) = _; omega
    · show s.depth + 1 - 1 = s.depth; omega
  | n + 1, s, h => by
    obtain ⟨s1, h1, d1⟩ := pairs_run w n { s with depth := s.depth + 1, seen := s.seen ++ [.tuple (n + 1) [pairs n, pairs n]] } (by show -1 ≤ s.depth + 1; omega)
    obtain ⟨s2, h2, d2⟩ := pairs_run w n s1 (by rw [d1]; show -1 ≤ s.depth + 1; omega)
    rw [show pairs (n + 1) = .tuple (n + 1) [pairs n, pairs n] from rfl, tuple_run (js := [pairsDoc n, pairsDoc n]) (s1 := s2) (by
      simp only [mapM_cons, mapM_nil, bind_run, h1, h2]
      rfl)]
    have d3 : s2.depth = s.depth + 1 := by rw [d2, d1]
    refine ⟨_, rfl, ?_⟩
    dsimp only
    rw [d3]
    split
    · next h => simp at h; show (-1 : Int) = _; omega
    · show s.depth + 1 - 1 = s.depth; omega

theorem pairs_values : ∀ n, 2 ^ n ≤ (pairsDoc n).values
  | 0 => by decide
  | n + 1 => by
    have := pairs_values n
    simp only [pairsDoc, Json.values, Json.valuesKv, Json.valuesL, Nat.pow_succ]
    omega

/-- Tuples are written out wherever they occur: with the default options `n + 1` tuples, each of them (but one) a pair of the one before, become a document
with at least `2 ^ n` values. -/
theorem exponential (w : World) (n : Nat) (s : PState) : ∃ j s', flattenTop w {} (n + 1) (pairs n) true s = some (.ok j, s') ∧ 2 ^ n ≤ j.values := by
  obtain ⟨s', h, -⟩ := pairs_run w n {} (by decide)
  exact ⟨_, s', h, pairs_values n⟩

/-! ### lists, without references: exponential -/

/-- the cells of `x = []; x = [x, x]; x = [x, x]; …` -/
def cell : Nat → List Val
  | 0 => []
  | k + 1 => [.ref k, .ref k]

def chain (n : Nat) : Heap := (List.range (n + 1)).map (fun k => .list (cell k))

def chainDoc : Nat → Json
  | 0 => .arr []
  | n + 1 => .arr [chainDoc n, chainDoc n]

def noRefs (b : Bool) : PCfg := { unpicklable := b, makeRefs := false }

/-- nothing at `k` or before is known -/
structure Unknown (s : PState) (k : Nat) : Prop where
  objs : ∀ m, m ≤ k → s.objs.contains (.addr m) = false
  cache : ∀ m, m ≤ k → s.flattened.find? (fun p => p.1 == .addr m) = none

/-- what is different afterwards -/
structure Then (s s' : PState) (k : Nat) (j : Json) : Prop where
  depth : s'.depth = s.depth
  objs : ∀ m, k < m → s'.objs.contains (.addr m) = s.objs.contains (.addr m)
  cache : ∀ m, k < m → s'.flattened.find? (fun p => p.1 == .addr m) = s.flattened.find? (fun p => p.1 == .addr m)
  hit : s'.flattened.find? (fun p => p.1 == .addr k) = some (.addr k, j)

theorem list_run {w : World} {b : Bool} {n : Nat} {a : Nat} {xs : List Val} {s s1 : PState} {js : List Json} (ha : w.heap[a]? = some (.list xs))
    (hc : s.flattened.find? (fun p => p.1 == .addr a) = none) (ho : s.objs.contains (.addr a) = false)
    (h : PyM.mapM (flatten w (noRefs b) n) xs { s with depth := s.depth + 1, seen := s.seen ++ [.ref a], objs := s.objs ++ [.addr a] } = some (.ok js, s1)) :
    flatten w (noRefs b) (n + 1) (.ref a) s = (pop (.arr js) s1).map (fun r => (.ok (.arr js), { r.2 with flattened := (.addr a, .arr js) :: r.2.flattened })) := by
  have hby : flattenBy w (noRefs b) (flatten w (noRefs b) n) (.ref a) { s with depth := s.depth + 1, seen := s.seen ++ [.ref a] } = some (.ok (.arr js), s1) := by
    unfold flattenBy
    dsimp only
    rw [ha]
    dsimp only
    rw [bind_run]
    unfold mkref
    rw [bind_run]
    unfold logRef
    dsimp only
    rw [ho]
    cases b <;>
    · show (PyM.mapM (flatten w (noRefs _) n) xs >>= fun js => (pure (.arr js) : P Json)) _ = _
      rw [bind_run, h]
      rfl
  have hobj : flattenObj w (noRefs b) (flatten w (noRefs b) n) (.ref a) { s with depth := s.depth + 1 } = some (.ok (.arr js), s1) := by
    unfold flattenObj flattenObjWith
    rw [bind_run]
    dsimp only [PyM.modify]
    rw [bind_run]
    unfold PyM.tryCatch
    dsimp only [maxReached, gets]
    rw [bind_run]
    dsimp only [inCycle, Val.ident]
    rw [ho, if_neg (by cases b <;> simp [noRefs]), hby]
  show cached (noRefs b) (.addr a) (push >>= fun _ => flattenObj w (noRefs b) (flatten w (noRefs b) n) (.ref a) >>= fun j => pop j) s = _
  unfold cached
  rw [show ((noRefs b).unpicklable && (noRefs b).makeRefs) = false from by cases b <;> rfl]
  rw [if_neg (by decide), bind_run]
  dsimp only [get_run]
  rw [hc]
  dsimp only
  have hin : (push >>= fun _ => flattenObj w (noRefs b) (flatten w (noRefs b) n) (.ref a) >>= fun j => pop j) s = pop (.arr js) s1 := by
    rw [bind_run]
    show (flattenObj w (noRefs b) (flatten w (noRefs b) n) (.ref a) >>= fun j => pop j) { s with depth := s.depth + 1 } = _
    rw [bind_run, hobj]
  rw [bind_run, hin]
  rfl

theorem hit_run {w : World} {b : Bool} {n : Nat} {a : Nat} {s : PState} {j : Json} (hc : s.flattened.find? (fun p => p.1 == .addr a) = some (.addr a, j)) :
    flatten w (noRefs b) (n + 1) (.ref a) s = some (.ok j, s) := by
  show cached (noRefs b) (.addr a) _ s = _
  unfold cached
  rw [show ((noRefs b).unpicklable && (noRefs b).makeRefs) = false from by cases b <;> rfl]
  rw [if_neg (by decide), bind_run]
  dsimp only [get_run]
  rw [hc]
  rfl

theorem chain_cell {N k : Nat} (h : k ≤ N) : (Sample.world (chain N)).heap[k]? = some (.list (cell k)) := by
  show (chain N)[k]? = _
  unfold chain
  rw [List.getElem?_map, List.getElem?_range (by omega)]
  rfl

theorem ne_find {k m : Nat} (h : k < m) (j : Json) (l : List (Ident × Json)) : ((Ident.addr k, j) :: l).find? (fun p => p.1 == .addr m) = l.find? (fun p => p.1 == .addr m) := by
  rw [List.find?_cons_of_neg]
  intro e
  have e := beq_iff_eq.1 e
  injection e with e
  exact absurd e (Nat.ne_of_lt h)

theorem ne_contains {k m : Nat} (h : k ≠ m) (l : List Ident) : (l ++ [Ident.addr k]).contains (.addr m) = l.contains (.addr m) := by
  rw [List.contains_eq_mem, List.contains_eq_mem]
  simp only [List.mem_append, List.mem_singleton, Ident.addr.injEq]
  have : ¬ m = k := fun e => h e.symm
  simp [this]

theorem chain_run (b : Bool) (N : Nat) : ∀ (k : Nat) (s : PState), k ≤ N → 0 ≤ s.depth → Unknown s k →
    ∃ s', flatten (Sample.world (chain N)) (noRefs b) (k + 1) (.ref k) s = some (.ok (chainDoc k), s') ∧ Then s s' k (chainDoc k)
  | 0, s, hN, hd, hk => by
    rw [list_run (chain_cell hN) (hk.cache 0 (Nat.le_refl _)) (hk.objs 0 (Nat.le_refl _)) (js := []) rfl]
    have hne : ((s.depth + 1 - 1 : Int) == -1) = false := by rw [beq_eq_false_iff_ne]; omega
    dsimp only [pop, Option.map]
    rw [hne]
    exact ⟨_, rfl, by show s.depth + 1 - 1 = s.depth; omega, fun m hm => ne_contains (Nat.ne_of_lt hm) _, fun m hm => ne_find hm _ _, by simp [chainDoc]⟩
  | k + 1, s, hN, hd, hk => by
    obtain ⟨s1, h1, t1⟩ := chain_run b N k { s with depth := s.depth + 1, seen := s.seen ++ [.ref (k + 1)], objs := s.objs ++ [.addr (k + 1)] } (by omega) (by show 0 ≤ s.depth + 1; omega)
      ⟨fun m hm => by show (s.objs ++ [Ident.addr (k + 1)]).contains (.addr m) = false; rw [ne_contains (by omega)]; exact hk.objs m (by omega), fun m hm => hk.cache m (by omega)⟩
    have h2 := hit_run (w := Sample.world (chain N)) (b := b) (n := k) t1.hit
    rw [list_run (chain_cell hN) (hk.cache _ (Nat.le_refl _)) (hk.objs _ (Nat.le_refl _)) (js := [chainDoc k, chainDoc k]) (s1 := s1) (by
      show PyM.mapM _ [Val.ref k, Val.ref k] _ = _
      simp only [mapM_cons, mapM_nil, bind_run, h1, h2]
      rfl)]
    have hs1 : s1.depth = s.depth + 1 := t1.depth
    have hne : ((s1.depth - 1 : Int) == -1) = false := by rw [beq_eq_false_iff_ne]; omega
    dsimp only [pop, Option.map]
    rw [hne]
    refine ⟨_, rfl, by show s1.depth - 1 = s.depth; omega, fun m hm => ?_, fun m hm => ?_, by simp [chainDoc]⟩
    · exact (t1.objs m (by omega)).trans (ne_contains (by omega) _)
    · exact (ne_find hm _ _).trans (t1.cache m (by omega))

theorem chain_values : ∀ n, 2 ^ n ≤ (chainDoc n).values
  | 0 => by decide
  | n + 1 => by
    have := chain_values n
    simp only [chainDoc, Json.values, Json.valuesL, Nat.pow_succ]
    omega

/-- With `make_refs=False`, with or without tags, `n + 2` lists become a document with at least `2 ^ n` values. -/
theorem exponential_without_references (b : Bool) (n : Nat) (s : PState) :
    ∃ j s', flattenTop (Sample.world (chain (n + 1))) (noRefs b) (n + 2) (.ref (n + 1)) true s = some (.ok j, s') ∧ 2 ^ n ≤ j.values := by
  have h0 : ([Ident.addr (n + 1)] : List Ident) = [] ++ [.addr (n + 1)] := rfl
  obtain ⟨s1, h1, t1⟩ := chain_run b (n + 1) n { depth := -1 + 1, seen := [.ref (n + 1)], objs := [.addr (n + 1)] } (by omega) (by show (0 : Int) ≤ -1 + 1; omega)
    ⟨fun m hm => by show ([Ident.addr (n + 1)] : List Ident).contains (.addr m) = false; rw [h0, ne_contains (by omega)]; rfl, fun m hm => rfl⟩
  have h2 := hit_run (w := Sample.world (chain (n + 1))) (b := b) (n := n) t1.hit
  have h3 := list_run (b := b) (n := n + 1) (s := {}) (chain_cell (Nat.le_refl (n + 1))) rfl rfl (js := [chainDoc n, chainDoc n]) (s1 := s1) (by
    show PyM.mapM _ [Val.ref n, Val.ref n] ({ depth := -1 + 1, seen := [.ref (n + 1)], objs := [.addr (n + 1)] } : PState) = _
    simp only [mapM_cons, mapM_nil, bind_run, h1, h2]
    rfl)
  refine ⟨.arr [chainDoc n, chainDoc n], _, h3, ?_⟩
  have := chain_values n
  simp only [Json.values, Json.valuesL]
  omega

end JP.C78
