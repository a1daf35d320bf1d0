import Verif.Proofs.PInst
/-!
# The encoder terminates

Only objects that the encoder guards against revisiting may lie on cycles.
-/
namespace JP.Pickler
open JP PyM

/-- objects the encoder would walk into again and again (pickler.py:181-189, 326-334, 789-808) -/
def unguarded (cfg : PCfg) (o : Obj) : Bool :=
  !(cfg.unpicklable && cfg.makeRefs) &&
  match o with
  | .inst i => i.info.isEnum
  | .list _ | .dict _ => cfg.makeRefs
  | _ => false

/-- the cells in `N` are registered and the depth counter is at least `d` -/
def At (N : List Addr) (d : Int) (s : PState) : Prop := (∀ a ∈ N, Ident.addr a ∈ s.objs) ∧ d ≤ s.depth

/-- started in such a state, the run ends, in such a state -/
def Ends (N : List Addr) (d : Idx) {α : Type} (x : P α) (Q : α → Prop) : Prop :=
  0 ≤ d.depth → ∀ s, At N d.depth s → ∃ r s', x s = some (r, s') ∧ At N d.depth s' ∧ ∀ a, r = .ok a → Q a

namespace Ends
variable {N : List Addr} {d : Idx} {α β : Type} {w : World} {cfg : PCfg}

theorem pure {Q : α → Prop} {a : α} (h : Q a) : Ends N d (Pure.pure a) Q :=
  fun _ s hs => ⟨.ok a, s, rfl, hs, fun b hb => by cases hb; exact h⟩

theorem bind {x : P α} {f : α → P β} {Q : α → Prop} {R : β → Prop} (hx : Ends N d x Q)
    (hf : ∀ a, Q a → Ends N d (f a) R) : Ends N d (x >>= f) R := by
  intro hd s hs
  obtain ⟨r, s1, h1, h2, h3⟩ := hx hd s hs
  rw [bind_run, h1]
  cases r with
  | error e => exact ⟨.error e, s1, rfl, h2, fun a ha => by cases ha⟩
  | ok a => exact hf a (h3 a rfl) hd s1 h2

theorem ofExcept {r : Except Exc α} {Q : α → Prop} (h : ∀ a, r = .ok a → Q a) : Ends N d (PyM.ofExcept r) Q :=
  fun _ s hs => ⟨r, s, by simp, hs, h⟩

theorem tryCatch {x : P α} {p : Exc → Bool} {h : Exc → P α} {Q : α → Prop} (hx : Ends N d x Q)
    (hh : ∀ e, Ends N d (h e) Q) : Ends N d (PyM.tryCatch x p h) Q := by
  intro hd s hs
  obtain ⟨r, s1, h1, h2, h3⟩ := hx hd s hs
  unfold PyM.tryCatch
  rw [h1]
  cases r with
  | ok a => exact ⟨.ok a, s1, rfl, h2, h3⟩
  | error e =>
    simp only
    split
    · exact hh e hd s1 h2
    · exact ⟨.error e, s1, rfl, h2, fun a ha => by cases ha⟩

theorem mono {Q Q' : α → Prop} {x : P α} (h : Ends N d x Q) (hq : ∀ a, Q a → Q' a) : Ends N d x Q' :=
  fun hd s hs => let ⟨r, s1, h1, h2, h3⟩ := h hd s hs; ⟨r, s1, h1, h2, fun a ha => hq a (h3 a ha)⟩

theorem logRef {i : Ident} : Ends N d (logRef i) (fun _ => True) := by
  intro _ s hs
  unfold Pickler.logRef
  split
  · exact ⟨_, _, rfl, hs, fun _ _ => trivial⟩
  · exact ⟨_, _, rfl, ⟨fun a ha => by simp [hs.1 a ha], hs.2⟩, fun _ _ => trivial⟩

theorem mkref {i : Ident} : Ends N d (mkref cfg i) (fun _ => True) :=
  Ends.bind logRef (fun _ _ => Ends.pure trivial)

/-- afterwards the cell is registered -/
theorem mkref_then {a : Addr} {f : Bool → P β} {Q : β → Prop} (hf : ∀ b, Ends (a :: N) d (f b) Q) :
    Ends N d (Pickler.mkref cfg (.addr a) >>= f) Q := by
  intro hd s hs
  have key : ∃ b s1, Pickler.mkref cfg (.addr a) s = some (.ok b, s1) ∧ At (a :: N) d.depth s1 := by
    by_cases hc : s.objs.contains (.addr a) = true
    · refine ⟨_, s, bind_ok (a := false) (s' := s) (by simp only [Pickler.logRef, hc, if_true]), ?_, hs.2⟩
      intro b hb
      rcases List.mem_cons.1 hb with rfl | hb
      · simpa using hc
      · exact hs.1 b hb
    · refine ⟨_, { s with objs := s.objs ++ [.addr a] }, bind_ok (a := true) (s' := { s with objs := s.objs ++ [Ident.addr a] })
        (by simp only [Pickler.logRef, if_neg hc]), ?_, hs.2⟩
      intro b hb
      rcases List.mem_cons.1 hb with rfl | hb
      · simp
      · simp [hs.1 b hb]
  obtain ⟨b, s1, h1, h2⟩ := key
  rw [bind_ok h1]
  obtain ⟨r, s2, h3, h4, h5⟩ := hf b hd s1 h2
  exact ⟨r, s2, h3, ⟨fun b hb => h4.1 b (by simp [hb]), h4.2⟩, h5⟩

/-- a cell that is registered already is not new, when references are used -/
theorem mkref_old {a : Addr} (ha : a ∈ N) (hr : (cfg.unpicklable && cfg.makeRefs) = true) {f : Bool → P β} {Q : β → Prop}
    (hf : Ends N d (f false) Q) : Ends N d (Pickler.mkref cfg (.addr a) >>= f) Q := by
  intro hd s hs
  have : Pickler.mkref cfg (.addr a) s = some (.ok false, s) := by
    have hc : s.objs.contains (.addr a) = true := by simpa using hs.1 a ha
    simp only [Bool.and_eq_true] at hr
    refine (bind_ok (a := false) (s' := s) (by simp only [Pickler.logRef, hc, if_true])).trans ?_
    simp [hr.1, hr.2]
  rw [bind_ok this]
  exact hf hd s hs

theorem getref {i : Ident} {Q : Json → Prop} (h : ∀ j, Q j) : Ends N d (getref i) Q :=
  fun _ s hs => ⟨_, s, rfl, hs, fun _ _ => h _⟩

theorem maxReached : Ends N d (maxReached cfg) (fun _ => True) :=
  fun _ s hs => ⟨_, s, rfl, hs, fun _ _ => trivial⟩

theorem inCycle {i : Ident} {e m r : Bool} : Ends N d (inCycle i e m r) (fun _ => True) :=
  fun _ s hs => ⟨_, s, rfl, hs, fun _ _ => trivial⟩

/-- the cycle check stops at a registered cell -/
theorem inCycle_then {a : Addr} {m : Bool} (ha : a ∈ N) {f : Bool → P β} {Q : β → Prop}
    (hf : Ends N d (f true) Q) : Ends N d (Pickler.inCycle (.addr a) false m false >>= f) Q := by
  intro hd s hs
  have : Pickler.inCycle (.addr a) false m false s = some (.ok true, s) := by
    have hc : s.objs.contains (.addr a) = true := by simpa using hs.1 a ha
    simp [Pickler.inCycle, hs.1 a ha]
  rw [bind_ok this]
  exact hf hd s hs

theorem cached {id : Ident} {x : P Json} (h : Ends N d x (fun _ => True)) : Ends N d (cached cfg id x) (fun _ => True) := by
  unfold Pickler.cached
  split
  · exact h
  · intro hd s hs
    rw [bind_ok (get_run s)]
    cases hf : s.flattened.find? (fun p => p.1 == id) with
    | some p => exact ⟨_, s, rfl, hs, fun _ _ => trivial⟩
    | none =>
      simp only
      refine Ends.bind h (fun j _ => ?_) hd s hs
      intro _ s hs
      exact ⟨.ok j, _, rfl, hs, fun _ _ => trivial⟩

/-- `_flatten` of a container from what happens between push and pop -/
theorem level_run {v : Val} {id : Ident} {e : Bool} {rep : Except Exc Str} {body : P Json} {s : PState} {k : Int}
    (hk : -1 ≤ k) (hs : At N k s) (hb : Ends N ⟨k + 1, []⟩ (Inv.objInner cfg id e rep body) (fun _ => True)) :
    ∃ r s1, level cfg v id e rep body s = some (r, s1) ∧ (0 ≤ k → At N k s1) := by
  have key : ∀ s, At N k s → ∃ r s1, (do push; let j ← flattenObjWith cfg v id e rep body; pop j) s = some (r, s1) ∧ (0 ≤ k → At N k s1) := by
    intro s hs
    change ∃ r s1, (Inv.objInner cfg id e rep body >>= Pickler.pop)
      { s with depth := s.depth + 1, seen := s.seen ++ [v] } = some (r, s1) ∧ _
    obtain ⟨r, s1, h1, h2, _⟩ := hb (by show 0 ≤ k + 1; omega) { s with depth := s.depth + 1, seen := s.seen ++ [v] }
      ⟨hs.1, by have := hs.2; show k + 1 ≤ s.depth + 1; omega⟩
    rw [bind_run, h1]
    have h3 : k + 1 ≤ s1.depth := h2.2
    cases r with
    | error e => exact ⟨_, _, rfl, fun hk => ⟨h2.1, by omega⟩⟩
    | ok j =>
      refine ⟨_, _, rfl, fun hk => ?_⟩
      simp only
      split
      · next h =>
        have : s1.depth - 1 = (-1 : Int) := by simpa using h
        omega
      · exact ⟨h2.1, by show k ≤ s1.depth - 1; omega⟩
  unfold Pickler.level Pickler.cached
  split
  · exact key s hs
  · rw [bind_ok (get_run s)]
    cases hf : s.flattened.find? (fun p => p.1 == id) with
    | some p => exact ⟨_, s, rfl, fun _ => hs⟩
    | none =>
      simp only
      obtain ⟨r, s1, h1, h2⟩ := key s hs
      rw [bind_run, h1]
      cases r with
      | error e => exact ⟨_, _, rfl, h2⟩
      | ok j => exact ⟨_, _, rfl, h2⟩

theorem level {v : Val} {id : Ident} {e : Bool} {rep : Except Exc Str} {body : P Json}
    (hb : Ends N (d.child v) (Inv.objInner cfg id e rep body) (fun _ => True)) :
    Ends N d (level cfg v id e rep body) (fun _ => True) := by
  intro hd s hs
  obtain ⟨r, s1, h1, h2⟩ := level_run (v := v) (by omega) hs (by intro h s hs; exact hb h s hs)
  exact ⟨r, s1, h1, h2 hd, fun _ _ => trivial⟩

theorem objInner {id : Ident} {e : Bool} {rep : Except Exc Str} {body : P Json}
    (hb : Ends N d body (fun _ => True)) : Ends N d (Inv.objInner cfg id e rep body) (fun _ => True) := by
  unfold Inv.objInner
  refine Ends.bind maxReached (fun m _ => Ends.tryCatch (Ends.bind inCycle (fun c _ => ?_)) (fun e => ?_))
  · split
    · exact Ends.bind (Ends.ofExcept (fun _ _ => trivial)) (fun _ _ => Ends.pure trivial)
    · exact hb
  · split
    · exact Ends.ofExcept (fun _ _ => trivial)
    · exact Ends.ofExcept (fun _ h => by cases h)

/-- a registered cell is not entered when there are no references -/
theorem objInner_old {a : Addr} {rep : Except Exc Str} {body : P Json} (ha : a ∈ N) (hm : cfg.makeRefs = false) :
    Ends N d (Inv.objInner cfg (.addr a) false rep body) (fun _ => True) := by
  unfold Inv.objInner
  refine Ends.bind maxReached (fun m _ => Ends.tryCatch ?_ (fun e => ?_))
  · rw [hm]
    refine inCycle_then ha ?_
    exact Ends.bind (Ends.ofExcept (fun _ _ => trivial)) (fun _ _ => Ends.pure trivial)
  · split
    · exact Ends.ofExcept (fun _ _ => trivial)
    · exact Ends.ofExcept (fun _ h => by cases h)

end Ends

/-- termination as an instance of the program logic -/
def endsLogic (w : World) (cfg : PCfg) (N : List Addr) (R : Val → Prop) (h1 : R .none) (h2 : R (.str Tags.NEWOBJ)) : Logic w cfg where
  T d _ x _ Q := Ends N d x Q
  JC _ _ := True
  JD _ _ := True
  JB _ _ := True
  K _ := True
  RefOk := True
  V _ := True
  R := R
  rv _ := trivial
  S _ := True
  pure := Ends.pure
  bind := Ends.bind
  ofExcept := Ends.ofExcept
  tryCatch _ _ _ _ _ _ _ _ _ := Ends.tryCatch
  mkref _ := Ends.mono Ends.mkref (fun _ _ => .inr trivial)
  refOr _ hx hg := Ends.bind Ends.mkref (fun b _ => by
    cases b with
    | true => exact hx
    | false => exact Ends.bind (Ends.getref (fun _ => ⟨trivial, trivial⟩)) hg)
  maxReached := Ends.maxReached
  inCycle := Ends.inCycle
  level _ _ _ _ hb := Ends.level (Ends.objInner hb)
  leafBytes := Ends.cached (Ends.pure trivial)
  leafBytearray := Ends.cached (Ends.pure trivial)
  jNull := trivial
  jBool := trivial
  jInt := trivial
  jFloat _ := trivial
  jStr _ := trivial
  jCD _ := trivial
  jCB _ := trivial
  jArrD _ := trivial
  jArrB _ := trivial
  jObjD _ _ := trivial
  jObjB _ _ := trivial
  jDate _ _ _ _ _ _ := trivial
  vNone := h1
  vNewobj := h2
  sVal _ := trivial
  sType _ := trivial
  sFunc _ := trivial
  sModule _ := trivial
  sClass _ _ := trivial
  sClone := trivial
  sRepr _ _ := trivial
  sPystr _ _ := trivial
  kUser _ _ := trivial
  kName _ _ := trivial
  kRepr _ _ _ := trivial
  kEsc _ := trivial
  kField _ _ _ := trivial
  kObject _ := trivial
  kFunction _ := trivial
  kModule _ := trivial
  kReduce _ := trivial
  kSeq _ := trivial
  kSet _ := trivial
  kTuple _ := trivial
  kState _ := trivial
  kType := trivial
  kNewargs := trivial
  kNewargsex := trivial
  kInitargs := trivial
  kIterator := trivial
  kDefault := trivial

/-! ### The values an object refers to, as a list -/

def instTouched (h : Heap) (i : Inst) : List Val :=
  i.attrs.flatMap (fun kv => [.str kv.1, kv.2]) ++ i.info.slots.map .str ++
  (match i.dictCell with
    | some d => (match h[d]? with
      | some (.dict kvs) => kvs.flatMap (fun kv => [kv.1, kv.2])
      | _ => [])
    | none => []) ++
  i.items.flatMap (fun kv => [kv.1, kv.2]) ++ i.elems ++ [i.newargs, i.newargsEx.1, i.newargsEx.2, i.initargs, i.exemplar] ++
  (match i.state with
    | .ok st => st :: (match st with
      | .ref d => (match h[d]? with
        | some (.dict kvs) => kvs.flatMap (fun kv => [kv.1, kv.2])
        | _ => [])
      | _ => [])
    | .error _ => []) ++
  (match i.reduce with
    | .tup xs => xs
    | .str (some v) => [v]
    | _ => []) ++
  (match i.factory with
    | some f => [f]
    | none => []) ++
  i.dirAttrs.flatMap (fun kv => [.str kv.1, kv.2]) ++ i.hfields.flatMap (fun kv => [.str kv.1, kv.2])

def touched (h : Heap) (v : Val) : List Val :=
  match v with
  | .tuple _ xs | .set _ xs => xs
  | .ref a => match h[a]? with
    | some (.list xs) => xs
    | some (.dict kvs) => kvs.flatMap (fun kv => [kv.1, kv.2])
    | some (.inst i) => instTouched h i
    | _ => []
  | _ => []

theorem mem_instTouched {h : Heap} {i : Inst} {x : Val} (hx : Holds h i x) : x ∈ instTouched h i := by
  unfold instTouched
  cases hx with
  | attrName hm | attr hm | itemKey hm | itemVal hm | dirName hm | dirAttr hm | hfieldName hm | hfield hm =>
    simp only [List.mem_append, List.mem_flatMap]
    grind
  | slotName hm => simp only [List.mem_append, List.mem_map]; grind
  | elem hm => simp [hm]
  | newargs | newargsEx1 | newargsEx2 | initargs | exemplar => simp
  | state hs => simp [hs]
  | dictKey h1 h2 hm | dictVal h1 h2 hm | stateKey h1 h2 hm | stateVal h1 h2 hm =>
    simp only [List.mem_append, h1, h2, List.mem_cons, List.mem_flatMap]
    grind
  | reduceElem h1 hm => simp [h1, hm]
  | reduceTarget h1 => simp [h1]
  | factory h1 => simp [h1]

theorem mem_touched {h : Heap} {v x : Val} (hx : Touches h v x) : x ∈ touched h v := by
  unfold touched
  cases hx with
  | tuple hm => exact hm
  | set hm => exact hm
  | list h1 hm => simp [h1, hm]
  | dictKey h1 hm | dictVal h1 hm => simp only [h1, List.mem_flatMap]; grind
  | inst h1 hm => simp only [h1]; exact mem_instTouched hm

/-! ### Acyclic parts are well-founded -/

/-- the number of cells not in the list -/
def unvisited (h : Heap) (N : List Addr) : Nat := ((List.range h.length).filter (fun a => !N.contains a)).length

theorem unvisited_lt {h : Heap} {N : List Addr} {a : Addr} (ha : a < h.length) (hp : a ∉ N) :
    unvisited h (a :: N) < unvisited h N := by
  unfold unvisited
  have : (List.range h.length).filter (fun b => !(a :: N).contains b) =
      ((List.range h.length).filter (fun b => !N.contains b)).filter (fun b => b != a) := by
    rw [List.filter_filter]
    congr 1
    funext b
    simp only [List.contains_cons, Bool.not_or]
    rfl
  rw [this, List.length_filter_lt_length_iff_exists]
  exact ⟨a, by simp [ha, hp], by simp⟩

theorem transGen_head {α : Type} {r : α → α → Prop} {a b c : α} (h : r a b) (h2 : Relation.TransGen r b c) : Relation.TransGen r a c := by
  induction h2 with
  | single h3 => exact .tail (.single h) h3
  | tail _ h3 ih => exact .tail ih h3

theorem acc_sub {h : Heap} {op : Obj → Bool} {root : Val} (hn : NoLoop h op root) :
    ∀ (k : Nat) (N : List Addr) (v : Val), unvisited h N ≤ k → Within h root v →
      (∀ a ∈ N, Relation.TransGen (Sub h op) v (.ref a)) → Acc (Sub h op) v := by
  intro k
  induction k with
  | zero =>
    intro N
    have key : ∀ (m : Nat) (v : Val), sizeOf v ≤ m → unvisited h N ≤ 0 → Within h root v →
        (∀ a ∈ N, Relation.TransGen (Sub h op) v (.ref a)) → Acc (Sub h op) v := by
      intro m
      induction m with
      | zero => intro v hm; cases v <;> simp at hm
      | succ m ihm =>
        intro v hm hu hw hp
        refine ⟨_, fun x hx => ?_⟩
        have hp' : ∀ a ∈ N, Relation.TransGen (Sub h op) x (.ref a) := fun a ha => transGen_head hx (hp a ha)
        cases hx with
        | tuple ht =>
          refine ihm x ?_ hu (.step hw ht) hp'
          cases ht with
          | tuple hm' => have := List.sizeOf_lt_of_mem hm'; simp at hm; omega
        | set ht =>
          refine ihm x ?_ hu (.step hw ht) hp'
          cases ht with
          | set hm' => have := List.sizeOf_lt_of_mem hm'; simp at hm; omega
        | @ref a o _ h1 h2 ht =>
          have ha : a ∉ N := fun ha => hn a hw (hp a ha)
          have := unvisited_lt (List.getElem?_eq_some_iff.1 h1).1 ha
          omega
    exact fun v => key _ v (Nat.le_refl _)
  | succ k ih =>
    intro N
    have key : ∀ (m : Nat) (v : Val), sizeOf v ≤ m → unvisited h N ≤ k + 1 → Within h root v →
        (∀ a ∈ N, Relation.TransGen (Sub h op) v (.ref a)) → Acc (Sub h op) v := by
      intro m
      induction m with
      | zero => intro v hm; cases v <;> simp at hm
      | succ m ihm =>
        intro v hm hu hw hp
        refine ⟨_, fun x hx => ?_⟩
        have hx0 := hx
        have hp' : ∀ a ∈ N, Relation.TransGen (Sub h op) x (.ref a) := fun a ha => transGen_head hx (hp a ha)
        cases hx with
        | tuple ht =>
          refine ihm x ?_ hu (.step hw ht) hp'
          cases ht with
          | tuple hm' => have := List.sizeOf_lt_of_mem hm'; simp at hm; omega
        | set ht =>
          refine ihm x ?_ hu (.step hw ht) hp'
          cases ht with
          | set hm' => have := List.sizeOf_lt_of_mem hm'; simp at hm; omega
        | @ref a o _ h1 h2 ht =>
          have ha : a ∉ N := fun ha => hn a hw (hp a ha)
          have := unvisited_lt (List.getElem?_eq_some_iff.1 h1).1 ha
          refine ih (a :: N) x (by omega) (.step hw ht) (fun b hb => ?_)
          rcases List.mem_cons.1 hb with rfl | hb
          · exact .single hx0
          · exact hp' b hb
    exact fun v => key _ v (Nat.le_refl _)

theorem acc_of_noLoop {h : Heap} {op : Obj → Bool} {root v : Val} (hn : NoLoop h op root) (hv : Within h root v) : Acc (Sub h op) v :=
  acc_sub hn _ [] v (Nat.le_refl _) hv (fun _ h => by cases h)

/-! ### The induction -/

theorem ends_mono {w : World} {cfg : PCfg} {N : List Addr} {d : Idx} {v : Val} {n m : Nat} (h : Ends N d (flatten w cfg n v) (fun _ => True))
    (hnm : n ≤ m) : Ends N d (flatten w cfg m v) (fun _ => True) := by
  intro hd s hs
  obtain ⟨r, s1, h1, h2, h3⟩ := h hd s hs
  exact ⟨r, s1, flatten_mono hnm h1, h2, h3⟩

/-- the value can be encoded with this much fuel -/
def Good (w : World) (cfg : PCfg) (N : List Addr) (n : Nat) (x : Val) : Prop := ∀ d, Ends N d (flatten w cfg n x) (fun _ => True)

/-- enough fuel for every value in a list that can be encoded at all -/
theorem ends_all {w : World} {cfg : PCfg} {N : List Addr} : ∀ (xs : List Val),
    ∃ n, ∀ x ∈ xs, (∃ m, Good w cfg N m x) → Good w cfg N n x
  | [] => ⟨0, fun _ h => by cases h⟩
  | x :: xs => by
    obtain ⟨n, hn⟩ := ends_all (w := w) (cfg := cfg) (N := N) xs
    by_cases hx : ∃ m, Good w cfg N m x
    · obtain ⟨m, hm⟩ := hx
      refine ⟨max n m, fun y hy hg d => ?_⟩
      rcases List.mem_cons.1 hy with rfl | hy
      · exact ends_mono (hm d) (Nat.le_max_right ..)
      · exact ends_mono (hn y hy hg d) (Nat.le_max_left ..)
    · refine ⟨n, fun y hy hg => ?_⟩
      rcases List.mem_cons.1 hy with rfl | hy
      · exact (hx hg).elim
      · exact hn y hy hg

theorem ends_leaf {w : World} {cfg : PCfg} {N : List Addr} : ∀ x ∈ [Val.none, .str Tags.NEWOBJ],
    ∃ n, Good w cfg N n x := by
  intro x hx
  refine ⟨1, fun d => ?_⟩
  rcases List.mem_cons.1 hx with rfl | hx
  · exact Ends.pure trivial
  · rw [List.mem_singleton] at hx
    subst hx
    exact Ends.pure trivial

/-- what the encoder does with a container between push and pop -/
def inner (w : World) (cfg : PCfg) (n : Nat) (v : Val) : P Json :=
  Inv.objInner cfg v.ident (isEnumV w v) (w.repr v) (flattenBy w cfg (flatten w cfg n) v)

def isLeaf : Val → Bool
  | .none | .bool _ | .int _ | .float _ | .str _ | .bytes _ _ | .bytearray _ _ => true
  | _ => false

theorem flatten_level {w : World} {cfg : PCfg} {n : Nat} {v : Val} (hv : isLeaf v = false) :
    flatten w cfg (n + 1) v = level cfg v v.ident (isEnumV w v) (w.repr v) (flattenBy w cfg (flatten w cfg n) v) := by
  cases v <;> first | rfl | cases hv

theorem ends_leafs {w : World} {cfg : PCfg} {N : List Addr} {d : Idx} {v : Val} (hv : isLeaf v = true) :
    Ends N d (flatten w cfg 1 v) (fun _ => True) := by
  cases v <;> first | exact Ends.pure trivial | exact Ends.cached (Ends.pure trivial) | cases hv

section
variable {w : World} {cfg : PCfg} {N : List Addr} {v : Val}

/-- the body, given enough fuel for everything referred to -/
theorem ends_body {n : Nat} (hx : ∀ x, (Touches w.heap v x ∨ x = .none ∨ x = .str Tags.NEWOBJ) → Good w cfg N n x)
    (d : Idx) (c : List Val) (hs : d.stack = v :: c) : Ends N d (flattenBy w cfg (flatten w cfg n) v) (fun _ => True) :=
  (endsLogic w cfg N (fun x => Touches w.heap v x ∨ x = .none ∨ x = .str Tags.NEWOBJ) (.inr (.inl rfl)) (.inr (.inr rfl))).by_ (fl' := flatten w cfg n)
    (fun d x h => hx x h d) trivial (fun _ h => .inl h) hs

theorem ends_inst {n : Nat} {a : Addr} {i : Inst} (ha : w.heap[a]? = some (.inst i))
    (hx : ∀ x, (Touches w.heap (.ref a) x ∨ x = .none ∨ x = .str Tags.NEWOBJ) → Good w cfg N n x)
    (d : Idx) (c : List Val) (hs : d.stack = .ref a :: c) : Ends N d (flattenInst w cfg (flatten w cfg n) a i) (fun _ => True) :=
  (endsLogic w cfg N (fun x => Touches w.heap (.ref a) x ∨ x = .none ∨ x = .str Tags.NEWOBJ) (.inr (.inl rfl)) (.inr (.inr rfl))).inst (fl' := flatten w cfg n)
    (fun d x h => hx x h d) trivial (fun _ h => .inl (.inst ha h)) hs ha

theorem fuel_for (h : ∀ x, Touches w.heap v x → ∃ n, Good w cfg N n x) :
    ∃ n, ∀ x, (Touches w.heap v x ∨ x = .none ∨ x = .str Tags.NEWOBJ) → Good w cfg N n x := by
  obtain ⟨n, hn⟩ := ends_all (w := w) (cfg := cfg) (N := N) (touched w.heap v ++ [Val.none, .str Tags.NEWOBJ])
  refine ⟨n, fun x hx => ?_⟩
  rcases hx with hx | hx
  · exact hn x (List.mem_append.2 (.inl (mem_touched hx))) (h x hx)
  · have hx : x ∈ [Val.none, .str Tags.NEWOBJ] := by simpa using hx
    exact hn x (List.mem_append.2 (.inr hx)) (ends_leaf x hx)

theorem good_of_inner {n : Nat} (hl : isLeaf v = false) (h : ∀ d c, d.stack = v :: c → Ends N d (inner w cfg n v) (fun _ => True)) :
    Good w cfg N (n + 1) v := by
  intro d
  rw [flatten_level hl]
  exact Ends.level (h _ _ rfl)

/-- some amount of fuel is enough between push and pop -/
def InnerOk (w : World) (cfg : PCfg) (N : List Addr) (v : Val) : Prop :=
  ∃ n, ∀ d c, d.stack = v :: c → Ends N d (inner w cfg n v) (fun _ => True)

theorem good_of (h : isLeaf v = false → InnerOk w cfg N v) : ∃ n, Good w cfg N n v := by
  cases hl : isLeaf v with
  | true => exact ⟨1, fun d => ends_leafs hl⟩
  | false =>
    obtain ⟨n, hn⟩ := h hl
    exact ⟨n + 1, good_of_inner hl hn⟩

/-- objects without a guard: whatever they refer to is encoded first -/
theorem inner_open (h : ∀ x, Touches w.heap v x → ∃ n, Good w cfg N n x) : InnerOk w cfg N v := by
  obtain ⟨n, hn⟩ := fuel_for h
  exact ⟨n, fun d c hs => Ends.objInner (ends_body hn d c hs)⟩

/-- a guarded object met for the first time -/
theorem inner_new {a : Addr} (h : ∀ x, Touches w.heap (.ref a) x → ∃ n, Good w cfg (a :: N) n x) :
    InnerOk w cfg N (.ref a) := by
  obtain ⟨n, hn⟩ := fuel_for h
  refine ⟨n, fun d c hs => Ends.objInner ?_⟩
  unfold flattenBy
  simp only
  split
  · next xs ha =>
    refine Ends.mkref_then (fun b => ?_)
    cases b with
    | false => exact Ends.getref (fun _ => trivial)
    | true =>
      exact Ends.bind ((endsLogic w cfg (a :: N) (fun x => Touches w.heap (.ref a) x ∨ x = .none ∨ x = .str Tags.NEWOBJ) (.inr (.inl rfl)) (.inr (.inr rfl))).mapM (Q := fun _ => True) (f' := flatten w cfg n) _
        (fun x hx => hn x (.inl (.list ha hx)) d)) (fun _ _ => Ends.pure trivial)
  · next kvs ha =>
    refine Ends.mkref_then (fun b => ?_)
    cases b with
    | false => exact Ends.getref (fun _ => trivial)
    | true =>
      exact Ends.bind ((endsLogic w cfg (a :: N) (fun x => Touches w.heap (.ref a) x ∨ x = .none ∨ x = .str Tags.NEWOBJ) (.inr (.inl rfl)) (.inr (.inr rfl))).entries (fl' := flatten w cfg n)
        (fun d x h => hn x h d) (Logic.accD _) (fun k v hm => ⟨.inl (.dictKey ha hm), .inl (.dictVal ha hm)⟩) (Logic.D_nil _)) (fun _ _ => Ends.pure trivial)
  · next i ha =>
    have hb := ends_inst ha hn d c hs
    unfold refObjInstance
    split
    · refine Ends.mkref_then (fun b => ?_)
      cases b with
      | false => exact Ends.getref (fun _ => trivial)
      | true => exact hb
    · refine Ends.bind Ends.maxReached (fun m _ => Ends.bind Ends.inCycle (fun c _ => ?_))
      split
      · exact Ends.pure trivial
      · exact Ends.mkref_then (fun _ => hb)
  · exact Ends.ofExcept (fun _ h => by cases h)

/-- a guarded object met again -/
theorem inner_old {a : Addr} {o : Obj} (ho : w.heap[a]? = some o) (hg : unguarded cfg o = false) (ha : a ∈ N) :
    InnerOk w cfg N (.ref a) := by
  refine ⟨0, fun d c hs => ?_⟩
  unfold inner
  cases hm : cfg.makeRefs with
  | false =>
    have he : isEnumV w (.ref a) = false := by
      unfold isEnumV
      cases o <;> simp_all [unguarded]
    rw [he]
    exact Ends.objInner_old ha hm
  | true =>
    refine Ends.objInner ?_
    cases hu : cfg.unpicklable with
    | true =>
      have hr : (cfg.unpicklable && cfg.makeRefs) = true := by rw [hu, hm]; rfl
      unfold flattenBy
      simp only
      split
      · exact Ends.mkref_old ha hr (Ends.getref (fun _ => trivial))
      · exact Ends.mkref_old ha hr (Ends.getref (fun _ => trivial))
      · unfold refObjInstance
        rw [if_pos hu]
        exact Ends.mkref_old ha hr (Ends.getref (fun _ => trivial))
      · exact Ends.ofExcept (fun _ h => by cases h)
    | false =>
      unfold flattenBy
      simp only [ho]
      cases o with
      | inst i =>
        have he : i.info.isEnum = false := by simpa [unguarded, hu, hm] using hg
        simp only [refObjInstance, hu, he]
        exact Ends.bind Ends.maxReached (fun m _ => Ends.inCycle_then ha (Ends.pure trivial))
      | list | dict => simp [unguarded, hu, hm] at hg
      | proxy | idproxy => exact Ends.ofExcept (fun _ h => by cases h)
end

/-- **Termination.**  Every value whose unguarded part has no cycle is encoded in finitely many steps. -/
theorem inner_ends {w : World} {cfg : PCfg} {root : Val} (hn : NoLoop w.heap (unguarded cfg) root) :
    ∀ (k : Nat) (N : List Addr), unvisited w.heap N ≤ k → ∀ v, Within w.heap root v → isLeaf v = false → InnerOk w cfg N v := by
  intro k
  induction k using Nat.strongRecOn with
  | _ k ihk =>
    intro N hN v hv
    have hacc := acc_of_noLoop hn hv
    induction hacc with
    | intro v _ ih =>
      intro hl
      have hopen : (∀ x, Touches w.heap v x → Sub w.heap (unguarded cfg) x v) → InnerOk w cfg N v := fun hs =>
        inner_open (fun x hx => good_of (ih x (hs x hx) (.step hv hx)))
      cases v with
      | ref a =>
        cases ho : w.heap[a]? with
        | none => exact hopen (fun x hx => by cases hx <;> simp_all)
        | some o =>
          cases hg : unguarded cfg o with
          | true => exact hopen (fun x hx => .ref ho hg hx)
          | false =>
            by_cases ha : a ∈ N
            · exact inner_old ho hg ha
            · have hlt := unvisited_lt (List.getElem?_eq_some_iff.1 ho).1 ha
              exact inner_new (fun x hx => good_of (ihk _ (Nat.lt_of_lt_of_le hlt hN) (a :: N) (Nat.le_refl _) x (.step hv hx)))
      | tuple i xs => exact hopen (fun x hx => .tuple hx)
      | set i xs => exact hopen (fun x hx => .set hx)
      | _ => exact hopen (fun x hx => by cases hx)

theorem flatten_ends {w : World} {cfg : PCfg} {v : Val} (hn : NoLoop w.heap (unguarded cfg) v) :
    ∃ n, ∀ s : PState, -1 ≤ s.depth → ∃ r s', flatten w cfg n v s = some (r, s') := by
  cases hl : isLeaf v with
  | true =>
    refine ⟨1, fun s hs => ?_⟩
    cases v <;> simp only [isLeaf, reduceCtorEq] at hl
    all_goals first
      | exact ⟨_, _, rfl⟩
      | (show ∃ r s', cached cfg _ _ s = _
         unfold cached
         split
         · exact ⟨_, _, rfl⟩
         · rw [bind_ok (get_run s)]
           cases s.flattened.find? _ <;> exact ⟨_, _, rfl⟩)
  | false =>
    obtain ⟨n, h⟩ := inner_ends hn _ [] (Nat.le_refl _) v .self hl
    refine ⟨n + 1, fun s hs => ?_⟩
    rw [flatten_level hl]
    obtain ⟨r, s1, h1, _⟩ := Ends.level_run (N := []) (cfg := cfg) (v := v) (s := s) (k := s.depth) hs ⟨(fun _ h => by cases h), Int.le_refl _⟩
      (fun hd s hs => h ⟨_, [v]⟩ [] rfl hd s hs)
    exact ⟨r, s1, h1⟩

end JP.Pickler
