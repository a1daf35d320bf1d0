import Verif.Proofs.PShareRun
import Verif.Proofs.Run
/-!
# C89 — parts that share nothing are encoded as if alone, with shifted reference numbers

With the default options (`unpicklable`, `make_refs`, no `keys`, no `max_depth`), and unless user code writes the key `py/id`, what an encoder writes for a value
none of whose objects it has met before is what it writes for the value alone, every reference number made larger by the number of objects met before
(`context`).  So the document of a list, tuple or set of values no two of which share an object is made of the documents of the values (`list_value`, `tuple_value`,
`set_value`), and the exception, if there is one, is that of the first value that raises one (`list_error`, `tuple_error`, `set_error`).  `alone` says that the
documents of the values are those that `encode` writes for them.  When two values share an object the second document has a reference instead (`needs_apart`).
-/
namespace JP.C89
open JP PyM Pickler Share

/-- the default options, as far as they matter here; `use_base85`, `max_iter` and `fail_safe` are free -/
structure Defaults (cfg : PCfg) : Prop where
  unpicklable : cfg.unpicklable = true
  make_refs : cfg.makeRefs = true
  keys : cfg.keys = false
  max_depth : cfg.maxDepth = none

/-- User code writes the key `py/id` itself: as the `repr` or `str` of a dictionary key, as the name of a handler's field, or in a result of `fail_safe`. -/
def UserWrites (w : World) (cfg : PCfg) : Prop :=
  (∃ v, w.repr v = .ok p!"py/id" ∨ w.pystr v = .ok p!"py/id") ∨
  (∃ (a : Addr) (i : Inst) (kv : Str × Val), w.heap[a]? = some (.inst i) ∧ kv ∈ i.hfields ∧ kv.1 = p!"py/id") ∨
  (∃ f e j, cfg.failSafe = some f ∧ f e = .ok j ∧ p!"py/id" ∈ j.keys)

theorem rules {w : World} {cfg : PCfg} (hd : Defaults cfg) (hu : ¬ UserWrites w cfg) : Rules w cfg :=
  ⟨hd.unpicklable, hd.make_refs, hd.keys, hd.max_depth, fun v => ⟨fun h => hu (.inl ⟨v, .inl h⟩), fun h => hu (.inl ⟨v, .inr h⟩)⟩,
    fun a i kv h1 h2 h3 => hu (.inr (.inl ⟨a, i, kv, h1, h2, h3⟩)), fun f e j h1 h2 h3 => hu (.inr (.inr ⟨f, e, j, h1, h2, h3⟩))⟩

/-- In the middle of a run, a value whose objects have not been met yet is written as it is alone, but for the reference numbers; an exception is the same; and the
objects met are the same, after the old ones. -/
theorem context (w : World) (cfg : PCfg) (hc : Defaults cfg) (hu : ¬ UserWrites w cfg) (n : Nat) (v : Val) (s : PState) (hd : 0 ≤ s.depth)
    (hs : ∀ i ∈ s.objs, ¬ Share.Reach w v i) :
    (flatten w cfg n v s).map (fun p => (p.1, p.2.objs)) =
      (flatten w cfg n v { depth := 0 }).map (fun p => (p.1.map (bump s.objs.length), s.objs ++ p.2.objs)) := by
  rcases run (rules hc hu) n v s hd hs with ⟨h1, h2⟩ | ⟨r, s', t', h1, h2, h3, -, -⟩
  · rw [h1, h2]; rfl
  · rw [h1, h2]
    simp only [Option.map_some, h3]

/-- … alone: the same as `Pickler.flatten(v)` at the top level. -/
theorem alone (w : World) (cfg : PCfg) (hc : cfg.maxDepth = none) (n : Nat) (v : Val) (s : PState) :
    (flatten w cfg n v { depth := 0 }).map (·.1) = (flattenTop w cfg n v true s).map (·.1) := by
  have h := flatten_result (w := w) (cfg := cfg) (q := none) (m := cfg.maxDepth) (m' := cfg.maxDepth) ⟨hc, hc⟩ (s := { depth := 0 }) (t := {}) rfl rfl
    (by decide) (by decide) (fun c h => by cases h) n v
  exact h

/-- and the objects met alone can be reached from the value -/
theorem met (w : World) (cfg : PCfg) (hc : Defaults cfg) (hu : ¬ UserWrites w cfg) (n : Nat) (v : Val) (r : Except Exc Json) (s : PState)
    (h : flatten w cfg n v { depth := 0 } = some (r, s)) : ∀ i ∈ s.objs, Share.Reach w v i := by
  rcases run (rules hc hu) n v { depth := 0 } (Int.le_refl _) (fun i hi => by cases hi) with ⟨h1, h2⟩ | ⟨r, s', t', h1, h2, h3, h4, -⟩
  · rw [h2] at h; cases h
  · rw [h2] at h
    obtain ⟨-, e2⟩ := Prod.mk.inj (Option.some.inj h)
    subst e2
    exact h4

/-! ### lists, tuples and sets -/

/-- the run for a container, given its body -/
theorem container {w : World} {cfg : PCfg} (hc : Defaults cfg) (hf : cfg.failSafe = none) (n : Nat) (u : Val) (vs : List Val) (old : List Ident) (g : List Json → Json)
    (hstep : ∀ s, flatten w cfg (n + 1) u s = cached cfg u.ident (push >>= fun _ => flattenObj w cfg (flatten w cfg n) u >>= fun j => pop j) s)
    (hb : ∀ s : PState, s.objs = [] → flattenBy w cfg (flatten w cfg n) u s = (PyM.mapM (flatten w cfg n) vs >>= fun js => pure (g js)) { s with objs := old }) (s : PState) :
    (flattenTop w cfg (n + 1) u true s).map (·.1) =
      (PyM.mapM (flatten w cfg n) vs { depth := 0, objs := old, seen := [u] }).map (fun p => p.1.map g) := by
  have htop : flattenTop w cfg (n + 1) u true s = flatten w cfg (n + 1) u {} := by simp only [flattenTop, if_true]; rfl
  rw [htop, hstep]
  unfold cached
  rw [hc.unpicklable, hc.make_refs]
  simp only [Bool.and_self, if_true, push, bind_run, modify_run]
  have hobj : flattenObj w cfg (flatten w cfg n) u { depth := 0 } = flattenBy w cfg (flatten w cfg n) u { depth := 0, seen := [u] } := by
    unfold flattenObj flattenObjWith
    simp only [hf, bind_run, modify_run, maxReached, gets_run, inCycle, PyM.tryCatch, List.nil_append, hc.max_depth, hc.make_refs]
    simp only [show (some (0 : Int) == none) = false from rfl, Bool.not_true, Bool.false_and, Bool.or_self, Bool.false_eq_true, if_false, Option.isSome_none, Bool.and_false]
    cases flattenBy w cfg (flatten w cfg n) u { depth := 0, seen := [u] } with
    | none => rfl
    | some p =>
      obtain ⟨r, t⟩ := p
      cases r <;> rfl
  have h0 : ({ ({} : PState) with depth := ({} : PState).depth + 1 } : PState) = { depth := 0 } := rfl
  rw [show ({} : PState).depth + 1 = 0 from rfl, hobj, hb _ rfl, bind_run]
  cases PyM.mapM (flatten w cfg n) vs { depth := 0, objs := old, seen := [u] } with
  | none => rfl
  | some p =>
    obtain ⟨r, t⟩ := p
    cases r <;> rfl

/-- from the runs to the documents -/
theorem value_of {w : World} {cfg : PCfg} (hc : Defaults cfg) (hu : ¬ UserWrites w cfg) (u : Val) (vs : List Val) (old : List Ident) (g : List Json → Json)
    (ha : Apart w vs) (ho : ∀ v ∈ vs, ∀ i ∈ old, ¬ Share.Reach w v i) (s : PState)
    (hrun : ∀ n, (flattenTop w cfg (n + 1) u true s).map (·.1) = (PyM.mapM (flatten w cfg n) vs { depth := 0, objs := old, seen := [u] }).map (fun p => p.1.map g))
    (h0 : ∀ r s1, flattenTop w cfg 0 u true s ≠ some (r, s1)) (j : Json) :
    (∃ n s1, flattenTop w cfg n u true s = some (.ok j, s1)) ↔ ∃ js, Docs (Gives w cfg) old.length vs js ∧ j = g js := by
  constructor
  · rintro ⟨n, s1, h⟩
    cases n with
    | zero => exact (h0 _ _ h).elim
    | succ n =>
      have hr := hrun n
      have hm := Share.outcome (rules hc hu) n vs { depth := 0, objs := old, seen := [u] } (Int.le_refl _) ha ho
      rw [h] at hr
      match he : PyM.mapM (flatten w cfg n) vs { depth := 0, objs := old, seen := [u] }, hm with
      | none, _ => rw [he] at hr; cases hr
      | some (.error e, t), _ => rw [he] at hr; cases hr
      | some (.ok js, t), hm =>
        rw [he] at hr
        have hr : Except.ok j = Except.ok (g js) := Option.some.inj hr
        injection hr with hr
        exact ⟨js, hm.1, hr⟩
  · rintro ⟨js, hd, rfl⟩
    obtain ⟨n, t, h, -⟩ := run_docs (rules hc hu) (s := { depth := 0, objs := old, seen := [u] }) (Int.le_refl _) ha ho hd
    have hr := hrun n
    rw [h] at hr
    cases he : flattenTop w cfg (n + 1) u true s with
    | none => rw [he] at hr; cases hr
    | some p =>
      obtain ⟨r, s1⟩ := p
      rw [he] at hr
      have hr : r = .ok (g js) := Option.some.inj hr
      subst hr
      exact ⟨n + 1, s1, he⟩

/-- from the runs to the exceptions -/
theorem error_of {w : World} {cfg : PCfg} (hc : Defaults cfg) (hu : ¬ UserWrites w cfg) (u : Val) (vs : List Val) (old : List Ident) (g : List Json → Json)
    (ha : Apart w vs) (ho : ∀ v ∈ vs, ∀ i ∈ old, ¬ Share.Reach w v i) (s : PState)
    (hrun : ∀ n, (flattenTop w cfg (n + 1) u true s).map (·.1) = (PyM.mapM (flatten w cfg n) vs { depth := 0, objs := old, seen := [u] }).map (fun p => p.1.map g))
    (h0 : ∀ r s1, flattenTop w cfg 0 u true s ≠ some (r, s1)) (e : Exc) :
    (∃ n s1, flattenTop w cfg n u true s = some (.error e, s1)) ↔ Raises (Gives w cfg) vs e := by
  constructor
  · rintro ⟨n, s1, h⟩
    cases n with
    | zero => exact (h0 _ _ h).elim
    | succ n =>
      have hr := hrun n
      have hm := Share.outcome (rules hc hu) n vs { depth := 0, objs := old, seen := [u] } (Int.le_refl _) ha ho
      rw [h] at hr
      match he : PyM.mapM (flatten w cfg n) vs { depth := 0, objs := old, seen := [u] }, hm with
      | none, _ => rw [he] at hr; cases hr
      | some (.ok js, t), _ => rw [he] at hr; cases hr
      | some (.error e', t), hm =>
        rw [he] at hr
        have hr : (Except.error e : Except Exc Json) = .error e' := Option.some.inj hr
        injection hr with hr
        subst hr
        exact hm
  · rintro hr0
    obtain ⟨n, t, h⟩ := run_raises (rules hc hu) (s := { depth := 0, objs := old, seen := [u] }) (Int.le_refl _) ha ho hr0
    have hr := hrun n
    rw [h] at hr
    cases he : flattenTop w cfg (n + 1) u true s with
    | none => rw [he] at hr; cases hr
    | some p =>
      obtain ⟨r, s1⟩ := p
      rw [he] at hr
      have hr : r = .error e := Option.some.inj hr
      subst hr
      exact ⟨n + 1, s1, he⟩

theorem no_fuel (w : World) (cfg : PCfg) (v : Val) (s : PState) (r : Except Exc Json) (s1 : PState) : flattenTop w cfg 0 v true s ≠ some (r, s1) := fun h => by cases h

theorem list_run {w : World} {cfg : PCfg} (hc : Defaults cfg) (hf : cfg.failSafe = none) (a : Addr) (vs : List Val) (hl : w.heap[a]? = some (.list vs)) (s : PState) (n : Nat) :
    (flattenTop w cfg (n + 1) (.ref a) true s).map (·.1) =
      (PyM.mapM (flatten w cfg n) vs { depth := 0, objs := [.addr a], seen := [.ref a] }).map (fun p => p.1.map Json.arr) := by
  refine container hc hf n (.ref a) vs [.addr a] Json.arr (fun _ => rfl) (fun t ht => ?_) s
  simp only [flattenBy, hl]
  have : mkref cfg (.addr a) t = some (.ok true, { t with objs := [.addr a] }) := by
    have hl : logRef (.addr a) t = some (.ok true, { t with objs := [.addr a] }) := by
      unfold logRef
      rw [ht]
      rfl
    unfold mkref
    rw [bind_run, hl]
    simp only [Bool.or_true]
    rfl
  rw [bind_run, this]
  rfl

/-- The document of a list is made of the documents of its elements; the list itself is object 0. -/
theorem list_value (w : World) (cfg : PCfg) (hc : Defaults cfg) (hf : cfg.failSafe = none) (hu : ¬ UserWrites w cfg) (a : Addr) (vs : List Val)
    (hl : w.heap[a]? = some (.list vs)) (ha : Apart w vs) (hr : ∀ v ∈ vs, ¬ Share.Reach w v (.addr a)) (s : PState) (j : Json) :
    (∃ n s1, flattenTop w cfg n (.ref a) true s = some (.ok j, s1)) ↔ ∃ js, Docs (Gives w cfg) 1 vs js ∧ j = .arr js :=
  value_of hc hu (.ref a) vs [.addr a] Json.arr ha (fun v hv i hi => by rw [List.mem_singleton.1 hi]; exact hr v hv) s (list_run hc hf a vs hl s) (no_fuel w cfg _ s) j

/-- … and the exception is that of the first element that raises one. -/
theorem list_error (w : World) (cfg : PCfg) (hc : Defaults cfg) (hf : cfg.failSafe = none) (hu : ¬ UserWrites w cfg) (a : Addr) (vs : List Val)
    (hl : w.heap[a]? = some (.list vs)) (ha : Apart w vs) (hr : ∀ v ∈ vs, ¬ Share.Reach w v (.addr a)) (s : PState) (e : Exc) :
    (∃ n s1, flattenTop w cfg n (.ref a) true s = some (.error e, s1)) ↔ Raises (Gives w cfg) vs e :=
  error_of hc hu (.ref a) vs [.addr a] Json.arr ha (fun v hv i hi => by rw [List.mem_singleton.1 hi]; exact hr v hv) s (list_run hc hf a vs hl s) (no_fuel w cfg _ s) e

theorem tuple_run {w : World} {cfg : PCfg} (hc : Defaults cfg) (hf : cfg.failSafe = none) (i : Nat) (vs : List Val) (s : PState) (n : Nat) :
    (flattenTop w cfg (n + 1) (.tuple i vs) true s).map (·.1) =
      (PyM.mapM (flatten w cfg n) vs { depth := 0, objs := [], seen := [.tuple i vs] }).map (fun p => p.1.map (fun js => Json.obj [(p!"py/tuple", .arr js)])) := by
  refine container hc hf n (.tuple i vs) vs [] _ (fun _ => rfl) (fun t ht => ?_) s
  simp only [flattenBy, hc.unpicklable, if_true]
  rw [show ({ t with objs := [] } : PState) = t by rw [← ht]]
  rfl

/-- Tuples are not counted as objects. -/
theorem tuple_value (w : World) (cfg : PCfg) (hc : Defaults cfg) (hf : cfg.failSafe = none) (hu : ¬ UserWrites w cfg) (i : Nat) (vs : List Val) (ha : Apart w vs)
    (s : PState) (j : Json) :
    (∃ n s1, flattenTop w cfg n (.tuple i vs) true s = some (.ok j, s1)) ↔ ∃ js, Docs (Gives w cfg) 0 vs js ∧ j = .obj [(p!"py/tuple", .arr js)] :=
  value_of hc hu (.tuple i vs) vs [] _ ha (fun v hv i hi => by cases hi) s (tuple_run hc hf i vs s) (no_fuel w cfg _ s) j

theorem tuple_error (w : World) (cfg : PCfg) (hc : Defaults cfg) (hf : cfg.failSafe = none) (hu : ¬ UserWrites w cfg) (i : Nat) (vs : List Val) (ha : Apart w vs)
    (s : PState) (e : Exc) : (∃ n s1, flattenTop w cfg n (.tuple i vs) true s = some (.error e, s1)) ↔ Raises (Gives w cfg) vs e :=
  error_of hc hu (.tuple i vs) vs [] _ ha (fun v hv i hi => by cases hi) s (tuple_run hc hf i vs s) (no_fuel w cfg _ s) e

theorem set_run {w : World} {cfg : PCfg} (hc : Defaults cfg) (hf : cfg.failSafe = none) (i : Nat) (vs : List Val) (s : PState) (n : Nat) :
    (flattenTop w cfg (n + 1) (.set i vs) true s).map (·.1) =
      (PyM.mapM (flatten w cfg n) vs { depth := 0, objs := [], seen := [.set i vs] }).map (fun p => p.1.map (fun js => Json.obj [(p!"py/set", .arr js)])) := by
  refine container hc hf n (.set i vs) vs [] _ (fun _ => rfl) (fun t ht => ?_) s
  simp only [flattenBy, hc.unpicklable, if_true]
  rw [show ({ t with objs := [] } : PState) = t by rw [← ht]]
  rfl

theorem set_value (w : World) (cfg : PCfg) (hc : Defaults cfg) (hf : cfg.failSafe = none) (hu : ¬ UserWrites w cfg) (i : Nat) (vs : List Val) (ha : Apart w vs)
    (s : PState) (j : Json) :
    (∃ n s1, flattenTop w cfg n (.set i vs) true s = some (.ok j, s1)) ↔ ∃ js, Docs (Gives w cfg) 0 vs js ∧ j = .obj [(p!"py/set", .arr js)] :=
  value_of hc hu (.set i vs) vs [] _ ha (fun v hv i hi => by cases hi) s (set_run hc hf i vs s) (no_fuel w cfg _ s) j

theorem set_error (w : World) (cfg : PCfg) (hc : Defaults cfg) (hf : cfg.failSafe = none) (hu : ¬ UserWrites w cfg) (i : Nat) (vs : List Val) (ha : Apart w vs)
    (s : PState) (e : Exc) : (∃ n s1, flattenTop w cfg n (.set i vs) true s = some (.error e, s1)) ↔ Raises (Gives w cfg) vs e :=
  error_of hc hu (.set i vs) vs [] _ ha (fun v hv i hi => by cases hi) s (set_run hc hf i vs s) (no_fuel w cfg _ s) e

/-! ### examples -/

/-- `L` is closed -/
def closedB (w : World) (L : List Ident) : Bool := L.all (fun i => match i with
  | .addr a => (found w a).all (fun j => L.contains j)
  | _ => true)

/-- everything reachable is in a closed list -/
theorem reach_in_list {w : World} {L : List Ident} (hL : closedB w L = true) {v : Val} (hv : (named v).all (fun i => L.contains i) = true) {i : Ident} (h : Share.Reach w v i) : i ∈ L := by
  induction h with
  | here hi => simpa using List.all_eq_true.1 hv _ hi
  | step _ hi ih =>
    have := List.all_eq_true.1 hL _ ih
    simpa using List.all_eq_true.1 this _ hi

/-- `d = {}; x = [d, d]; o.self = o; [x, (o, o)]` -/
def w : World := Sample.world [.list [.ref 1, .tuple 0 [.ref 3, .ref 3]], .list [.ref 2, .ref 2], .dict [], .inst { cls := p!"m.C", attrs := [(p!"self", .ref 3)] }]

theorem no_user {h : Heap} (hh : ∀ (a : Addr) i, h[a]? = some (.inst i) → i.hfields = []) : ¬ UserWrites (Sample.world h) {} := by
  rintro (⟨v, h | h⟩ | ⟨a, i, kv, h1, h2, -⟩ | ⟨f, e, j, h1, -⟩)
  · injection h with h; revert h; decide +kernel
  · injection h with h; revert h; decide +kernel
  · rw [hh a i h1] at h2; cases h2
  · cases h1

theorem w_user : ¬ UserWrites w {} := no_user (fun a i h => by
  have h4 : a < 4 := (List.getElem?_eq_some_iff.1 h).1
  match a, h4 with
  | 0, _ => cases h
  | 1, _ => cases h
  | 2, _ => cases h
  | 3, _ => injection h with h; injection h with h; rw [← h])

theorem w_left {i : Ident} (h : Share.Reach w (.ref 1) i) : i ∈ [Ident.addr 1, .addr 2] := reach_in_list (by decide +kernel) (by decide +kernel) h
theorem w_right {i : Ident} (h : Share.Reach w (.tuple 0 [.ref 3, .ref 3]) i) : i ∈ [Ident.addr 3, .dictOf 3, .stateOf 3] :=
  reach_in_list (by decide +kernel) (by decide +kernel) h

theorem w_apart : Apart w [.ref 1, .tuple 0 [.ref 3, .ref 3]] := by
  refine List.Pairwise.cons (fun v hv i h1 h2 => ?_) (List.Pairwise.cons (fun v hv => by cases hv) .nil)
  rw [List.mem_singleton.1 hv] at h2
  have a := w_left h1
  have b := w_right h2
  revert a b
  generalize i = i
  intro a b
  rcases List.mem_cons.1 a with rfl | a
  · revert b; decide +kernel
  · rw [List.mem_singleton.1 a] at b
    revert b; decide +kernel

/-- `x` alone is `[{}, {"py/id": 1}]`, with two objects -/
theorem w_gives1 : Gives w {} (.ref 1) (.ok (.arr [.obj [], .obj [(p!"py/id", .int 1)]])) 2 := ⟨5, _, rfl, rfl⟩
/-- `(o, o)` alone is `{"py/tuple": [{"py/object": "m.C", "self": {"py/id": 0}}, {"py/id": 0}]}`, with one object -/
theorem w_gives2 : Gives w {} (.tuple 0 [.ref 3, .ref 3]) (.ok (.obj [(p!"py/tuple", .arr [.obj [(p!"py/object", .str p!"m.C"), (p!"self", .obj [(p!"py/id", .int 0)])], .obj [(p!"py/id", .int 0)]])])) 1 :=
  ⟨5, _, rfl, rfl⟩

/-- the whole: `[[{}, {"py/id": 2}], {"py/tuple": [{"py/object": "m.C", "self": {"py/id": 3}}, {"py/id": 3}]}]` -/
example : ∃ n s1, flattenTop w {} n (.ref 0) true {} = some (.ok (.arr [.arr [.obj [], .obj [(p!"py/id", .int 2)]],
    .obj [(p!"py/tuple", .arr [.obj [(p!"py/object", .str p!"m.C"), (p!"self", .obj [(p!"py/id", .int 3)])], .obj [(p!"py/id", .int 3)]])]]), s1) :=
  (list_value w {} ⟨rfl, rfl, rfl, rfl⟩ rfl w_user 0 _ rfl w_apart (fun v hv h => by
    rcases List.mem_cons.1 hv with rfl | hv
    · have := w_left h; revert this; decide +kernel
    · rw [List.mem_singleton.1 hv] at h
      have := w_right h; revert this; decide +kernel) {} _).2 ⟨_, .cons w_gives1 (.cons w_gives2 .nil), by decide +kernel⟩

/-- `x = []; [x, x]` -/
def shared : World := Sample.world [.list [.ref 1, .ref 1], .list []]

/-- The elements have to be apart: `[[], {"py/id": 1}]` is written, while each `x` alone is `[]`. -/
theorem needs_apart : (∃ s1, flattenTop shared {} 5 (.ref 0) true {} = some (.ok (.arr [.arr [], .obj [(p!"py/id", .int 1)]]), s1)) ∧
    Docs (Gives shared {}) 1 [.ref 1, .ref 1] [.arr [], .arr []] :=
  ⟨⟨_, rfl⟩, .cons (j := .arr []) (m := 1) ⟨5, _, rfl, rfl⟩ (.cons (j := .arr []) (m := 1) ⟨5, _, rfl, rfl⟩ .nil)⟩

/-- An object whose state cannot be computed: `[x, o]`, where `x = []` and `o.__getstate__` raises `ValueError`. -/
def failing : World := Sample.world [.list [.ref 1, .ref 2], .list [], .inst { cls := p!"m.C", info := { ownGetstate := true }, state := .error .valueError }]

example : Raises (Gives failing {}) [.ref 1, .ref 2] .valueError := ⟨[.ref 1], .ref 2, [], rfl, fun u hu => (by
  rw [List.mem_singleton.1 hu]
  exact ⟨_, _, 5, _, rfl, rfl⟩), _, 5, _, rfl, rfl⟩

end JP.C89
