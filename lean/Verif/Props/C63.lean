import Verif.Proofs.PShift
import Verif.Sample
/-! # C63 — nesting matters only through `max_depth` -/
namespace JP.C63
open JP PyM Pickler

/-- the options with `max_depth` raised by `c` -/
def deeper (cfg : PCfg) (c : Int) : PCfg := { cfg with maxDepth := cfg.maxDepth.map (· + c) }

theorem mx_self (cfg : PCfg) : mx cfg cfg.maxDepth = cfg := rfl
theorem mx_deeper (cfg : PCfg) (c : Int) : mx cfg (cfg.maxDepth.map (· + c)) = deeper cfg c := rfl

/-- In the middle of a run: `c` levels further down, with a limit that is higher by `c`, everything comes out
the same — result or exception, reference numbers, cached documents. -/
theorem shift (w : World) (cfg : PCfg) (c : Int) (n : Nat) (v : Val) (s t : PState) (ho : t.objs = s.objs) (hf : t.flattened = s.flattened)
    (hs : 0 ≤ s.depth) (ht : 0 ≤ t.depth) (hd : t.depth = s.depth + c) (r : Except Exc Json) (s1 : PState)
    (h : flatten w cfg n v s = some (r, s1)) :
    ∃ t1, flatten w (deeper cfg c) n v t = some (r, t1) ∧ t1.objs = s1.objs ∧ t1.flattened = s1.flattened ∧ t1.depth = s1.depth + c := by
  have hst : SR (some c) s t := ⟨ho.symm, hf.symm, hs, ht, fun x hx => by cases hx; exact hd⟩
  have hsh := sh_flatten (w := w) (cfg := cfg) (q := some c) (m := cfg.maxDepth) (m' := cfg.maxDepth.map (· + c)) rfl n v s t hst
  rw [mx_self, mx_deeper] at hsh
  rcases hsh with ⟨h1, _⟩ | ⟨r', s', t', h1, h2, h3, _, _⟩
  · rw [h1] at h; cases h
  · rw [h1] at h
    cases h
    exact ⟨t', h2, h3.objs.symm, h3.flattened.symm, h3.gap c rfl⟩

/-- Without a limit it does not matter at all how deep one is. -/
theorem unlimited (w : World) (cfg : PCfg) (hc : cfg.maxDepth = none) (n : Nat) (v : Val) (s t : PState) (ho : t.objs = s.objs) (hf : t.flattened = s.flattened)
    (hs : 0 ≤ s.depth) (ht : 0 ≤ t.depth) (r : Except Exc Json) (s1 : PState) (h : flatten w cfg n v s = some (r, s1)) :
    ∃ t1, flatten w cfg n v t = some (r, t1) ∧ t1.objs = s1.objs ∧ t1.flattened = s1.flattened := by
  have hst : SR none s t := ⟨ho.symm, hf.symm, hs, ht, fun x hx => by cases hx⟩
  have hsh := sh_flatten (w := w) (cfg := cfg) (q := none) (m := cfg.maxDepth) (m' := cfg.maxDepth) ⟨hc, hc⟩ n v s t hst
  rw [mx_self] at hsh
  rcases hsh with ⟨h1, _⟩ | ⟨r', s', t', h1, h2, h3, _, _⟩
  · rw [h1] at h; cases h
  · rw [h1] at h
    cases h
    exact ⟨t', h2, h3.objs.symm, h3.flattened.symm⟩

/-- the document of `(v,)` -/
def inTuple (cfg : PCfg) (j : Json) : Json := if cfg.unpicklable then .obj [(Tags.TUPLE, .arr [j])] else .arr [j]

/-- the document of `{v}` -/
def inSet (cfg : PCfg) (j : Json) : Json := if cfg.unpicklable then .obj [(Tags.SET, .arr [j])] else .arr [j]

/-- the run of `[v]` inside a fresh tuple or set: one level down, one limit up -/
theorem one (w : World) (cfg : PCfg) (hm : ∀ d, cfg.maxDepth = some d → 0 ≤ d) (n : Nat) (v u : Val) (g : Json → Json)
    (hu : ∀ s, flatten w (deeper cfg 1) (n + 1) u s = cached (deeper cfg 1) u.ident (push >>= fun _ => flattenObj w (deeper cfg 1) (flatten w (deeper cfg 1) n) u >>= fun j => pop j) s)
    (he : isEnumV w u = false)
    (hb : flattenBy w (deeper cfg 1) (flatten w (deeper cfg 1) n) u = PyM.mapM (flatten w (deeper cfg 1) n) [v] >>= fun js => pure (g (.arr js)))
    (s t : PState) :
    (∀ j s1, flattenTop w cfg n v true s = some (.ok j, s1) → ∃ t1, flattenTop w (deeper cfg 1) (n + 1) u true t = some (.ok (g (.arr [j])), t1)) ∧
    (∀ e s1, cfg.failSafe = none → flattenTop w cfg n v true s = some (.error e, s1) → ∃ t1, flattenTop w (deeper cfg 1) (n + 1) u true t = some (.error e, t1)) := by
  have hlim : (some (0 : Int) == (deeper cfg 1).maxDepth) = false := by
    rw [beq_eq_false_iff_ne]
    intro h
    simp only [deeper] at h
    cases hd : cfg.maxDepth with
    | none => rw [hd] at h; cases h
    | some d =>
      rw [hd] at h
      have := hm d hd
      simp at h
      omega
  have key := flatten_result (w := w) (cfg := cfg) (q := some 1) (m := cfg.maxDepth) (m' := cfg.maxDepth.map (· + 1)) rfl
    (s := {}) (t := { depth := 0, seen := [u] }) rfl rfl (by simp) (by simp) (fun c hc => by cases hc; rfl) n v
  rw [mx_self, mx_deeper] at key
  have hfs : (deeper cfg 1).failSafe = cfg.failSafe := rfl
  have hrun : ∀ r, (flatten w (deeper cfg 1) n v { depth := 0, seen := [u] }).map (·.1) = some r →
      ((∀ j, r = .ok j → ∃ t1, flattenTop w (deeper cfg 1) (n + 1) u true t = some (.ok (g (.arr [j])), t1)) ∧
      (∀ e, cfg.failSafe = none → r = .error e → ∃ t1, flattenTop w (deeper cfg 1) (n + 1) u true t = some (.error e, t1))) := by
    intro r hr
    cases hx : flatten w (deeper cfg 1) n v { depth := 0, seen := [u] } with
    | none => rw [hx] at hr; cases hr
    | some p =>
      obtain ⟨r', t0⟩ := p
      rw [hx] at hr
      cases hr
      have hobj : flattenObj w (deeper cfg 1) (flatten w (deeper cfg 1) n) u { depth := 0 } =
          PyM.tryCatch (PyM.mapM (flatten w (deeper cfg 1) n) [v] >>= fun js => pure (g (.arr js)))
            (fun e => e.isException && cfg.failSafe.isSome) (fun e => match cfg.failSafe with | some f => PyM.ofExcept (f e) | none => PyM.throw e) { depth := 0, seen := [u] } := by
        unfold flattenObj flattenObjWith
        rw [he, hb, hfs]
        simp only [bind_run, modify_run, maxReached, gets_run, inCycle, PyM.tryCatch, List.nil_append]
        simp only [hlim, List.contains_nil, Bool.and_false, Bool.or_false, Bool.false_and, Bool.false_eq_true, if_false]
        rfl
      have htop : flattenTop w (deeper cfg 1) (n + 1) u true t = flatten w (deeper cfg 1) (n + 1) u {} := by simp only [flattenTop, if_true]; rfl
      rw [htop, hu]
      refine ⟨fun j hj => ?_, fun e hf hj => ?_⟩
      · have hj : r' = .ok j := hj
        subst hj
        have h1 : PyM.mapM (flatten w (deeper cfg 1) n) [v] { depth := 0, seen := [u] } = some (.ok [j], t0) := by
          simp only [PyM.mapM, bind_run, hx]; rfl
        have h2 : ∃ t1, (push >>= fun _ => flattenObj w (deeper cfg 1) (flatten w (deeper cfg 1) n) u >>= fun j => pop j) {} = some (.ok (g (.arr [j])), t1) := by
          have : flattenObj w (deeper cfg 1) (flatten w (deeper cfg 1) n) u { depth := 0 } = some (.ok (g (.arr [j])), t0) := by
            rw [hobj]
            simp only [PyM.tryCatch, bind_run, h1]
            rfl
          simp only [push, bind_run, modify_run]
          rw [show ({} : PState).depth + 1 = 0 from rfl]
          simp only [this]
          exact ⟨_, rfl⟩
        obtain ⟨t1, h2⟩ := h2
        unfold cached
        split
        · exact ⟨_, h2⟩
        · rw [bind_ok (get_run _)]
          simp only [List.find?_nil]
          rw [bind_run, h2]
          exact ⟨_, rfl⟩
      · have hj : r' = .error e := hj
        subst hj
        have h1 : PyM.mapM (flatten w (deeper cfg 1) n) [v] { depth := 0, seen := [u] } = some (.error e, t0) := by
          simp only [PyM.mapM, bind_run, hx]
        have h2 : (push >>= fun _ => flattenObj w (deeper cfg 1) (flatten w (deeper cfg 1) n) u >>= fun j => pop j) {} = some (.error e, t0) := by
          have : flattenObj w (deeper cfg 1) (flatten w (deeper cfg 1) n) u { depth := 0 } = some (.error e, t0) := by
            rw [hobj]
            simp only [PyM.tryCatch, bind_run, h1, hf, Option.isSome_none, Bool.and_false, Bool.false_eq_true, if_false]
          simp only [push, bind_run, modify_run]
          rw [show ({} : PState).depth + 1 = 0 from rfl]
          simp only [this]
        unfold cached
        split
        · exact ⟨_, h2⟩
        · rw [bind_ok (get_run _)]
          simp only [List.find?_nil]
          rw [bind_run, h2]
          exact ⟨_, rfl⟩
  refine ⟨fun j s1 h => ?_, fun e s1 hf h => ?_⟩
  · simp only [flattenTop, if_true] at h
    have h : flatten w cfg n v {} = some (.ok j, s1) := h
    rw [h] at key
    exact (hrun (.ok j) key.symm).1 j rfl
  · simp only [flattenTop, if_true] at h
    have h : flatten w cfg n v {} = some (.error e, s1) := h
    rw [h] at key
    exact (hrun (.error e) key.symm).2 e hf rfl

/-- `encode((v,), max_depth=m+1)` writes exactly the document of `encode(v, max_depth=m)`, wrapped, for all other options,
whatever `v` refers to — the tuple itself included. -/
theorem tuple_wraps (w : World) (cfg : PCfg) (hm : ∀ d, cfg.maxDepth = some d → 0 ≤ d) (i : Nat) (v : Val) (n : Nat) (s t : PState) (j : Json) (s1 : PState)
    (h : flattenTop w cfg n v true s = some (.ok j, s1)) :
    ∃ t1, flattenTop w (deeper cfg 1) (n + 1) (.tuple i [v]) true t = some (.ok (inTuple cfg j), t1) :=
  (one w cfg hm n v (.tuple i [v]) (fun a => if cfg.unpicklable then .obj [(Tags.TUPLE, a)] else a) (fun _ => rfl) rfl
    (by simp only [flattenBy, show (deeper cfg 1).unpicklable = cfg.unpicklable from rfl]) s t).1 j s1 h

/-- … and raises what it raises. -/
theorem tuple_raises (w : World) (cfg : PCfg) (hm : ∀ d, cfg.maxDepth = some d → 0 ≤ d) (hf : cfg.failSafe = none) (i : Nat) (v : Val) (n : Nat) (s t : PState) (e : Exc) (s1 : PState)
    (h : flattenTop w cfg n v true s = some (.error e, s1)) :
    ∃ t1, flattenTop w (deeper cfg 1) (n + 1) (.tuple i [v]) true t = some (.error e, t1) :=
  (one w cfg hm n v (.tuple i [v]) (fun a => if cfg.unpicklable then .obj [(Tags.TUPLE, a)] else a) (fun _ => rfl) rfl
    (by simp only [flattenBy, show (deeper cfg 1).unpicklable = cfg.unpicklable from rfl]) s t).2 e s1 hf h

/-- The same for a set. -/
theorem set_wraps (w : World) (cfg : PCfg) (hm : ∀ d, cfg.maxDepth = some d → 0 ≤ d) (i : Nat) (v : Val) (n : Nat) (s t : PState) (j : Json) (s1 : PState)
    (h : flattenTop w cfg n v true s = some (.ok j, s1)) :
    ∃ t1, flattenTop w (deeper cfg 1) (n + 1) (.set i [v]) true t = some (.ok (inSet cfg j), t1) :=
  (one w cfg hm n v (.set i [v]) (fun a => if cfg.unpicklable then .obj [(Tags.SET, a)] else a) (fun _ => rfl) rfl
    (by simp only [flattenBy, show (deeper cfg 1).unpicklable = cfg.unpicklable from rfl]) s t).1 j s1 h

/-- `v` inside `k` tuples -/
def nested (v : Val) : Nat → Val
  | 0 => v
  | k + 1 => .tuple k [nested v k]

def nestedDoc (cfg : PCfg) (j : Json) : Nat → Json
  | 0 => j
  | k + 1 => inTuple cfg (nestedDoc cfg j k)

/-- `k` levels at once: only the distance to the limit counts. -/
theorem tuples_wrap (w : World) (cfg : PCfg) (hm : ∀ d, cfg.maxDepth = some d → 0 ≤ d) (v : Val) (n : Nat) (s : PState) (j : Json) (s1 : PState)
    (h : flattenTop w cfg n v true s = some (.ok j, s1)) :
    ∀ (k : Nat) (t : PState), ∃ t1, flattenTop w (deeper cfg k) (n + k) (nested v k) true t = some (.ok (nestedDoc cfg j k), t1)
  | 0, t => by
    have h0 : deeper cfg (0 : Nat) = cfg := by
      unfold deeper
      cases cfg with
      | mk => simp
    rw [h0]
    refine ⟨s1, ?_⟩
    have ht : flattenTop w cfg n v true t = flatten w cfg n v {} := by simp only [flattenTop, if_true]; rfl
    have hs : flattenTop w cfg n v true s = flatten w cfg n v {} := by simp only [flattenTop, if_true]; rfl
    rw [Nat.add_zero]
    show flattenTop w cfg n v true t = _
    rw [ht, ← hs, h]
    rfl
  | k + 1, t => by
    obtain ⟨t1, h1⟩ := tuples_wrap w cfg hm v n s j s1 h k t
    obtain ⟨t2, h2⟩ := tuple_wraps w (deeper cfg k) (by
      intro d hd
      simp only [deeper] at hd
      cases hc : cfg.maxDepth with
      | none => rw [hc] at hd; cases hd
      | some d' =>
        rw [hc] at hd
        have := hm d' hc
        simp at hd
        omega) k (nested v k) (n + k) t t _ t1 h1
    refine ⟨t2, ?_⟩
    have hd : deeper (deeper cfg k) 1 = deeper cfg ((k + 1 : Nat) : Int) := by
      unfold deeper
      simp only [Option.map_map]
      congr 2
      funext x
      simp only [Function.comp]
      omega
    rw [hd] at h2
    exact h2

/-- A limit of `-1` is no limit for the value, but its tuple is cut off at once. -/
theorem negative_limit :
    Sample.res (flattenTop (Sample.world []) { maxDepth := some (-1) } 5 (.tuple 0 []) true {}) = some (.ok (.obj [(Tags.TUPLE, .arr [])])) ∧
    Sample.res (flattenTop (Sample.world []) (deeper { maxDepth := some (-1) } 1) 6 (.tuple 1 [.tuple 0 []]) true {}) = some (.ok (.str p!"R")) := by decide +kernel

/-- Inside a list the reference numbers move by one. -/
theorem list_moves_numbers :
    Sample.res (flattenTop (Sample.world [.list [.ref 0], .list [.ref 0]]) {} 5 (.ref 0) true {}) = some (.ok (.arr [.obj [(Tags.ID, .int 0)]])) ∧
    Sample.res (flattenTop (Sample.world [.list [.ref 0], .list [.ref 0]]) {} 6 (.ref 1) true {}) = some (.ok (.arr [.arr [.obj [(Tags.ID, .int 1)]]])) := by decide +kernel

/-- A list that contains the tuple and itself, limit 3 and 4; a shared list without a limit, two levels down. -/
example :
    Sample.res (flattenTop (Sample.world [.list [.tuple 0 [.ref 0], .ref 1, .ref 1], .list [.int 3]]) { maxDepth := some 3 } 9 (.ref 0) true {}) =
      some (.ok (.arr [.obj [(Tags.TUPLE, .arr [.obj [(Tags.ID, .int 0)]])], .arr [.int 3], .obj [(Tags.ID, .int 1)]])) ∧
    Sample.res (flattenTop (Sample.world [.list [.tuple 0 [.ref 0], .ref 1, .ref 1], .list [.int 3]]) (deeper { maxDepth := some 3 } 1) 10 (.tuple 0 [.ref 0]) true {}) =
      some (.ok (inTuple {} (.arr [.obj [(Tags.TUPLE, .arr [.obj [(Tags.ID, .int 0)]])], .arr [.int 3], .obj [(Tags.ID, .int 1)]]))) := by decide +kernel

/-- The limit is felt: with one level less the inner list is cut off in both. -/
example :
    Sample.res (flattenTop (Sample.world [.list [.ref 1], .list [.int 3]]) { maxDepth := some 1 } 9 (.ref 0) true {}) = some (.ok (.arr [.str p!"R"])) ∧
    Sample.res (flattenTop (Sample.world [.list [.ref 1], .list [.int 3]]) (deeper { maxDepth := some 1 } 1) 10 (.tuple 0 [.ref 0]) true {}) = some (.ok (inTuple {} (.arr [.str p!"R"]))) ∧
    Sample.res (flattenTop (Sample.world [.list [.ref 1], .list [.int 3]]) { maxDepth := some 1 } 10 (.tuple 0 [.ref 0]) true {}) = some (.ok (inTuple {} (.str p!"R"))) := by decide +kernel

end JP.C63
