import Verif.Proofs.UNames
/-!
# `v1_decode` makes no difference for documents without references

`Sim B F x y P`: started with states that differ at most in the table of objects (and there in no placeholder), `x` and `y` both do not
terminate, or give the same result, which has `P`, and states that are so related again.  `F` are cells whose kind is known.
-/
namespace JP.Unpickler.V1
open JP PyM

/-- The document has an entry `py/id`, or (with `keys=True`) a document inside one of its `json://` keys has. -/
inductive HasRef (env : UEnv) : Json → Prop
  | here {kvs x} : (Tags.ID, x) ∈ kvs → HasRef env (.obj kvs)
  | elem {xs x} : x ∈ xs → HasRef env x → HasRef env (.arr xs)
  | value {kvs k x} : (k, x) ∈ kvs → HasRef env x → HasRef env (.obj kvs)
  | key {kvs k x j} : env.keys = true → (k, x) ∈ kvs → startsWith k Tags.JSON_KEY = true →
      env.loads (k.drop Tags.JSON_KEY.length) = some j → HasRef env j → HasRef env (.obj kvs)

def Free (env : UEnv) (j : Json) : Prop := ¬ HasRef env j

namespace Free
variable {env : UEnv}
theorem arr {xs : List Json} (h : Free env (.arr xs)) {x : Json} (hx : x ∈ xs) : Free env x := fun hr => h (.elem hx hr)
theorem value {kvs : List (Str × Json)} (h : Free env (.obj kvs)) {k : Str} {x : Json} (hx : (k, x) ∈ kvs) : Free env x :=
  fun hr => h (.value hx hr)
theorem get {kvs : List (Str × Json)} (h : Free env (.obj kvs)) {k : Str} {x : Json} (hx : dget k kvs = some x) : Free env x :=
  h.value (dget_mem' hx)
theorem item {kvs : List (Str × Json)} (h : Free env (.obj kvs)) {k : Str} {x : Json} (hx : Unpickler.item k kvs = .ok x) : Free env x := by
  unfold Unpickler.item at hx
  split at hx
  · next e => cases hx; exact h.get e
  · cases hx
theorem sub {kvs kvs' : List (Str × Json)} (h : Free env (.obj kvs)) (hs : ∀ e ∈ kvs', e ∈ kvs) : Free env (.obj kvs') := by
  intro hn
  cases hn with
  | here h1 => exact h (.here (hs _ h1))
  | value h1 h2 => exact h (.value (hs _ h1) h2)
  | key h0 h1 h2 h3 h4 => exact h (.key h0 (hs _ h1) h2 h3 h4)
theorem ddel {kvs : List (Str × Json)} (h : Free env (.obj kvs)) (k : Str) : Free env (.obj (ddel k kvs)) :=
  h.sub (fun _ he => (List.mem_filter.1 he).1)
theorem str (s : Str) : Free env (.str s) := fun h => by cases h
theorem null : Free env .null := fun h => by cases h
theorem nil : Free env (.arr []) := fun h => by cases h with | elem h _ => cases h
theorem empty : Free env (.obj []) := fun h => by
  cases h with
  | here h => cases h
  | value h _ => cases h
  | key _ h _ _ _ => cases h
theorem iter {j : Json} (h : Free env j) {xs : List Json} (hx : jsonIter j = .ok xs) : ∀ x ∈ xs, Free env x := by
  intro x hm
  unfold jsonIter at hx
  split at hx
  · cases hx; exact h.arr hm
  · cases hx
    obtain ⟨e, _, rfl⟩ := List.mem_map.1 hm
    exact str _
  · cases hx
    obtain ⟨e, _, rfl⟩ := List.mem_map.1 hm
    exact str _
  · cases hx
theorem noId {kvs : List (Str × Json)} (h : Free env (.obj kvs)) : dhas Tags.ID kvs = false := by
  cases hq : dhas Tags.ID kvs with
  | false => rfl
  | true =>
    unfold dhas at hq
    cases hg : dget Tags.ID kvs with
    | none => rw [hg] at hq; cases hq
    | some x => exact absurd (.here (dget_mem' hg)) h
end Free

/-! ### the states -/

inductive Kind | list | dict | inst | proxy | idproxy
  deriving DecidableEq

def kindOf : Obj → Kind
  | .list _ => .list
  | .dict _ => .dict
  | .inst _ => .inst
  | .proxy _ => .proxy
  | .idproxy _ => .idproxy

def kindAt (h : Heap) (a : Nat) : Option Kind := h[a]?.map kindOf

abbrev Facts := List (Nat × Kind)

/-- the cells have these kinds, and placeholders are at or after `B` -/
def Holds (B : Nat) (F : Facts) (h : Heap) : Prop := ∀ e ∈ F, kindAt h e.1 = some e.2 ∧ (e.2 = .proxy → B ≤ e.1)

theorem idxGet_isSome (i : Ident) (l : List (Ident × Nat)) : (idxGet i l).isSome = true ↔ ∃ n, (i, n) ∈ l := by
  unfold idxGet
  rw [Option.isSome_map, List.find?_isSome]
  constructor
  · rintro ⟨⟨j, n⟩, hm, he⟩
    exact ⟨n, by rw [← LawfulBEq.eq_of_beq he]; exact hm⟩
  · rintro ⟨n, hm⟩
    exact ⟨(i, n), hm, beq_self_eq_true _⟩

def known (l : List (Ident × Nat)) (i : Ident) : Prop := ∃ n, (i, n) ∈ l

theorem idxGet_none {i : Ident} {l : List (Ident × Nat)} : idxGet i l = none ↔ ¬ known l i := by
  unfold known
  rw [← idxGet_isSome]
  cases idxGet i l <;> simp

theorem idxGet_some {i : Ident} {l : List (Ident × Nat)} {n : Nat} (h : idxGet i l = some n) : known l i := by
  unfold known
  rw [← idxGet_isSome, h]; rfl

/-- the states are the same up to the table of objects, and there the placeholders at or after `B` are the same -/
structure Rel (B : Nat) (s s' : UState) : Prop where
  low : B ≤ s.heap.length
  heap : s'.heap = s.heap
  proxies : s'.proxies = s.proxies
  nextId : s'.nextId = s.nextId
  log : s'.log = s.log
  noId : ∀ a, kindAt s.heap a ≠ some .idproxy
  same : ∀ a, B ≤ a → kindAt s.heap a = some .proxy → (known s.idx (.addr a) ↔ known s'.idx (.addr a))

/-- the results of two programs -/
def Out {α : Type} (B : Nat) (F : Facts) (P : α → Prop) : Option (Except Exc α × UState) → Option (Except Exc α × UState) → Prop
  | none, none => True
  | some (r, t), some (r', t') => r = r' ∧ Rel B t t' ∧ Holds B F t.heap ∧ ∀ a, r = .ok a → P a
  | _, _ => False

def Sim {α : Type} (B : Nat) (F : Facts) (x y : U α) (P : α → Prop) : Prop :=
  ∀ s s', Rel B s s' → Holds B F s.heap → Out B F P (x s) (y s')

namespace Sim
variable {B : Nat} {F : Facts} {α β : Type}

theorem weaken {P Q : α → Prop} {x y : U α} (h : Sim B F x y P) (hq : ∀ a, P a → Q a) : Sim B F x y Q := by
  intro s s' hr hf
  have k := h s s' hr hf
  revert k
  cases x s with
  | none => cases y s' <;> exact id
  | some p => cases y s' with
    | none => exact id
    | some p' => exact fun ⟨a, b, c, d⟩ => ⟨a, b, c, fun z hz => hq z (d z hz)⟩

theorem pure {P : α → Prop} {a : α} (h : P a) : Sim B F (pure a : U α) (pure a) P :=
  fun s s' hr hf => ⟨rfl, hr, hf, fun b hb => by cases hb; exact h⟩

theorem throw {P : α → Prop} (e : Exc) : Sim B F (PyM.throw e : U α) (PyM.throw e) P :=
  fun s s' hr hf => ⟨rfl, hr, hf, fun b hb => by cases hb⟩

theorem ofExcept (x : Except Exc α) : Sim B F (PyM.ofExcept x : U α) (PyM.ofExcept x) (fun a => x = .ok a) := by
  cases x with
  | error e => exact throw e
  | ok a => exact pure rfl

theorem bind {P : α → Prop} {Q : β → Prop} {x y : U α} {f g : α → U β} (hx : Sim B F x y P) (hf : ∀ a, P a → Sim B F (f a) (g a) Q) :
    Sim B F (x >>= f) (y >>= g) Q := by
  intro s s' hr hh
  rw [bind_run, bind_run]
  have k := hx s s' hr hh
  cases he : x s with
  | none =>
    rw [he] at k
    cases he' : y s' with
    | none => trivial
    | some p => rw [he'] at k; exact k.elim
  | some p =>
    rw [he] at k
    cases he' : y s' with
    | none => rw [he'] at k; exact k.elim
    | some p' =>
      rw [he'] at k
      obtain ⟨r, t⟩ := p
      obtain ⟨r', t'⟩ := p'
      obtain ⟨e, hr1, hh1, hp⟩ := k
      subst e
      cases r with
      | error e => exact ⟨rfl, hr1, hh1, fun b hb => by cases hb⟩
      | ok a => exact hf a (hp a rfl) t t' hr1 hh1

theorem tryCatch {P : α → Prop} {x y : U α} {c : Exc → Bool} {f g : Exc → U α} (hx : Sim B F x y P) (hf : ∀ e, Sim B F (f e) (g e) P) :
    Sim B F (PyM.tryCatch x c f) (PyM.tryCatch y c g) P := by
  intro s s' hr hh
  have k := hx s s' hr hh
  unfold PyM.tryCatch
  cases he : x s with
  | none =>
    rw [he] at k
    cases he' : y s' with
    | none => trivial
    | some p => rw [he'] at k; exact k.elim
  | some p =>
    rw [he] at k
    cases he' : y s' with
    | none => rw [he'] at k; exact k.elim
    | some p' =>
      rw [he'] at k
      obtain ⟨r, t⟩ := p
      obtain ⟨r', t'⟩ := p'
      obtain ⟨e, hr1, hh1, hp⟩ := k
      subst e
      cases r with
      | ok a => exact ⟨rfl, hr1, hh1, hp⟩
      | error e =>
        dsimp only
        cases c e with
        | true => exact hf e t t' hr1 hh1
        | false => exact ⟨rfl, hr1, hh1, fun b hb => by cases hb⟩

theorem mapM {P : β → Prop} {f g : α → U β} : ∀ {xs : List α}, (∀ a ∈ xs, Sim B F (f a) (g a) P) →
    Sim B F (PyM.mapM f xs) (PyM.mapM g xs) (fun ys => ∀ y ∈ ys, P y)
  | [], _ => pure (fun y hy => by cases hy)
  | x :: xs, h => by
    rw [mapM_cons, mapM_cons]
    refine bind (h x List.mem_cons_self) (fun y hy => bind (mapM (xs := xs) (fun a ha => h a (List.mem_cons_of_mem _ ha))) (fun ys hys => pure (fun z hz => ?_)))
    rcases List.mem_cons.1 hz with rfl | hz
    · exact hy
    · exact hys z hz

theorem foldM {P : β → Prop} {f g : β → α → U β} : ∀ {xs : List α} {b : β}, (∀ a ∈ xs, ∀ b, P b → Sim B F (f b a) (g b a) P) → P b →
    Sim B F (PyM.foldM f b xs) (PyM.foldM g b xs) P
  | [], _, _, hb => pure hb
  | x :: xs, b, h, hb => by
    rw [foldM_cons, foldM_cons]
    exact bind (h x List.mem_cons_self b hb) (fun b' hb' => foldM (fun a ha => h a (List.mem_cons_of_mem _ ha)) hb')

theorem ite {P : α → Prop} {c : Prop} [Decidable c] {x y x' y' : U α} (hx : c → Sim B F x x' P) (hy : ¬ c → Sim B F y y' P) :
    Sim B F (if c then x else y) (if c then x' else y') P := by
  split
  · next h => exact hx h
  · next h => exact hy h

/-- Only the heap of the current state is looked at. -/
theorem get {P : β → Prop} {f g : UState → U β} (h : ∀ s s', s'.heap = s.heap → Sim B F (f s) (g s') P) :
    Sim B F (PyM.get >>= f) (PyM.get >>= g) P := by
  intro s s' hr hh
  rw [bind_run, bind_run, get_run, get_run]
  exact h s s' hr.heap s s' hr hh

/-- cells keep their kinds, and new ones are not placeholders -/
structure Calm (h h' : Heap) : Prop where
  keep : ∀ a k, kindAt h a = some k → kindAt h' a = some k
  old : ∀ a, kindAt h' a = some .proxy ∨ kindAt h' a = some .idproxy → kindAt h' a = kindAt h a

theorem Calm.refl (h : Heap) : Calm h h := ⟨fun _ _ e => e, fun _ _ => rfl⟩

theorem Calm.holds {h h' : Heap} (c : Calm h h') (hF : Holds B F h) : Holds B F h' := fun e he => ⟨c.keep _ _ (hF e he).1, (hF e he).2⟩

theorem kindAt_lt {h : Heap} {a : Nat} {k : Kind} (e : kindAt h a = some k) : a < h.length := by
  unfold kindAt at e
  cases hq : h[a]? with
  | none => rw [hq] at e; cases e
  | some o => exact (List.getElem?_eq_some_iff.1 hq).1

theorem kindAt_set {h : Heap} {a b : Nat} {o : Obj} (ha : a < h.length) : kindAt (h.set a o) b = if a = b then some (kindOf o) else kindAt h b := by
  unfold kindAt
  rw [List.getElem?_set]
  split
  · next e => subst e; simp [ha]
  · rfl

theorem Calm.set {h : Heap} {a : Nat} {o : Obj} (e : kindAt h a = some (kindOf o)) : Calm h (h.set a o) := by
  have : ∀ b, kindAt (h.set a o) b = kindAt h b := by
    intro b
    rw [kindAt_set (kindAt_lt e)]
    split
    · next q => subst q; exact e.symm
    · rfl
  exact ⟨fun b k hb => by rw [this]; exact hb, fun b _ => this b⟩

theorem kindAt_append {h : Heap} {o : Obj} {b : Nat} : kindAt (h ++ [o]) b = if b = h.length then some (kindOf o) else kindAt h b := by
  unfold kindAt
  rw [List.getElem?_append]
  split
  · next q => rw [if_neg (by omega)]
  · next q =>
    split
    · next e => subst e; simp
    · next e =>
      rw [List.getElem?_eq_none (by simp; omega), List.getElem?_eq_none (by omega)]

theorem Calm.append {h : Heap} {o : Obj} (h1 : kindOf o ≠ .proxy) (h2 : kindOf o ≠ .idproxy) : Calm h (h ++ [o]) := by
  refine ⟨fun b k hb => ?_, fun b hb => ?_⟩
  · rw [kindAt_append, if_neg (by have := kindAt_lt hb; omega)]; exact hb
  · rw [kindAt_append] at hb ⊢
    split at hb
    · rcases hb with e | e <;> injection e with e
      · exact absurd e h1
      · exact absurd e h2
    · next q => rw [if_neg q]

theorem Calm.length {h h' : Heap} (c : Calm h h') : h.length ≤ h'.length := by
  cases hl : h.length with
  | zero => exact Nat.zero_le _
  | succ n =>
    have hn : n < h.length := by omega
    have : kindAt h n = some (kindOf h[n]) := by unfold kindAt; rw [List.getElem?_eq_getElem hn]; rfl
    exact kindAt_lt (c.keep _ _ this)

/-- a step that leaves the table of objects alone -/
theorem calm {s s' t t' : UState} (hr : Rel B s s') (c : Calm s.heap t.heap) (h1 : t'.heap = t.heap) (h2 : t'.proxies = t.proxies)
    (h3 : t'.nextId = t.nextId) (h4 : t'.log = t.log) (h5 : t.idx = s.idx) (h6 : t'.idx = s'.idx) : Rel B t t' := by
  refine ⟨Nat.le_trans hr.low (c.length), h1, h2, h3, h4, fun a ha => ?_, fun a hb ha => ?_⟩
  · have := c.old a (.inr ha)
    rw [ha] at this
    exact hr.noId a this.symm
  · have := c.old a (.inl ha)
    rw [ha] at this
    rw [h5, h6]
    exact hr.same a hb this.symm

/-- programs that look at nothing but the heap and change nothing else -/
theorem ofHeap {P : α → Prop} {x y : U α} (f : Heap → Except Exc α × Heap)
    (hx : ∀ s, x s = some ((f s.heap).1, { s with heap := (f s.heap).2 }))
    (hy : ∀ s', (∀ a, kindAt s'.heap a ≠ some .idproxy) → y s' = some ((f s'.heap).1, { s' with heap := (f s'.heap).2 }))
    (hc : ∀ h, Holds B F h → Calm h (f h).2) (hp : ∀ h a, (f h).1 = .ok a → P a) : Sim B F x y P := by
  intro s s' hr hh
  rw [hx s, hy s' (by rw [hr.heap]; exact hr.noId), hr.heap]
  exact ⟨rfl, calm hr (hc _ hh) rfl hr.proxies hr.nextId hr.log rfl rfl, (hc _ hh).holds hh, hp _⟩

theorem alloc {Q : β → Prop} {o : Obj} (h1 : kindOf o ≠ .proxy) (h2 : kindOf o ≠ .idproxy) {f g : Addr → U β}
    (hf : ∀ a : Nat, Sim B ((a, kindOf o) :: F) (f a) (g a) Q) : Sim B F (Unpickler.alloc o >>= f) (Unpickler.alloc o >>= g) Q := by
  intro s s' hr hh
  rw [bind_run, bind_run]
  unfold Unpickler.alloc
  dsimp only
  rw [hr.heap]
  have c := Calm.append (h := s.heap) h1 h2
  have k := hf s.heap.length { s with heap := s.heap ++ [o] } { s' with heap := s.heap ++ [o] }
    (calm hr c rfl hr.proxies hr.nextId hr.log rfl rfl) (fun e he => by
      rcases List.mem_cons.1 he with rfl | he
      · show kindAt (s.heap ++ [o]) s.heap.length = _ ∧ _
        rw [kindAt_append, if_pos rfl]
        exact ⟨rfl, fun _ => hr.low⟩
      · exact c.holds hh e he)
  revert k
  generalize f s.heap.length { s with heap := s.heap ++ [o] } = p
  generalize g s.heap.length { s' with heap := s.heap ++ [o] } = p'
  cases p with
  | none => cases p' <;> exact id
  | some p => cases p' with
    | none => exact id
    | some p' => exact fun ⟨a, b, c, d⟩ => ⟨a, b, fun e he => c e (List.mem_cons_of_mem _ he), d⟩

theorem known_append {l : List (Ident × Nat)} {j : Ident} {n : Nat} {i : Ident} : known (l ++ [(j, n)]) i ↔ known l i ∨ i = j := by
  unfold known
  constructor
  · rintro ⟨m, h⟩
    rcases List.mem_append.1 h with h | h
    · exact .inl ⟨m, h⟩
    · rw [List.mem_singleton] at h; injection h with h; exact .inr h
  · rintro (⟨m, h⟩ | rfl)
    · exact ⟨m, List.mem_append_left _ h⟩
    · exact ⟨n, List.mem_append_right _ List.mem_cons_self⟩

theorem mkref_run (v : Val) (s : UState) : ∃ t, Unpickler.mkref v s = some (.ok v, t) ∧ t.heap = s.heap ∧ t.proxies = s.proxies ∧ t.nextId = s.nextId ∧
    t.log = s.log ∧ ∀ i, known t.idx i ↔ known s.idx i ∨ i = v.ident := by
  unfold Unpickler.mkref
  split
  · next n hn => exact ⟨s, rfl, rfl, rfl, rfl, rfl, fun i => ⟨.inl, fun h => h.elim id (fun e => e ▸ idxGet_some hn)⟩⟩
  · exact ⟨_, rfl, rfl, rfl, rfl, rfl, fun i => known_append⟩

theorem mkref (v : Val) : Sim B F (Unpickler.mkref v) (Unpickler.mkref v) (fun w => w = v) := by
  intro s s' hr hh
  obtain ⟨t, e, h1, h2, h3, h4, h5⟩ := mkref_run v s
  obtain ⟨t', e', h1', h2', h3', h4', h5'⟩ := mkref_run v s'
  rw [e, e']
  refine ⟨rfl, ⟨by rw [h1]; exact hr.low, by rw [h1, h1', hr.heap], by rw [h2, h2', hr.proxies], by rw [h3, h3', hr.nextId], by rw [h4, h4', hr.log], by rw [h1]; exact hr.noId, fun a hb ha => ?_⟩,
    by rw [h1]; exact hh, fun a ha => by cases ha; rfl⟩
  rw [h5, h5']
  rw [h1] at ha
  rw [hr.same a hb ha]

/-- a placeholder is made and entered into the table -/
theorem proxy {Q : β → Prop} {f g : Addr → Val → U β} (hf : ∀ a : Nat, Sim B ((a, .proxy) :: F) (f a (.ref a)) (g a (.ref a)) Q) :
    Sim B F (Unpickler.alloc (.proxy none) >>= fun p => Unpickler.mkref (.ref p) >>= f p) (Unpickler.alloc (.proxy none) >>= fun p => Unpickler.mkref (.ref p) >>= g p) Q := by
  intro s s' hr hh
  rw [bind_run, bind_run]
  unfold Unpickler.alloc
  dsimp only
  rw [bind_run, bind_run, hr.heap]
  obtain ⟨t, e, h1, h2, h3, h4, h5⟩ := mkref_run (.ref s.heap.length) { s with heap := s.heap ++ [.proxy none] }
  obtain ⟨t', e', h1', h2', h3', h4', h5'⟩ := mkref_run (.ref s.heap.length) { s' with heap := s.heap ++ [.proxy none] }
  rw [e, e']
  dsimp only at *
  have hk : ∀ a, kindAt t.heap a = if a = s.heap.length then some .proxy else kindAt s.heap a := by
    intro a
    rw [h1]
    exact kindAt_append
  have k := hf s.heap.length t t' ⟨by rw [h1]; exact Nat.le_trans hr.low (by simp), by rw [h1, h1'], by rw [h2, h2', hr.proxies], by rw [h3, h3', hr.nextId], by rw [h4, h4', hr.log], fun a ha => by
    rw [hk] at ha
    split at ha
    · cases ha
    · exact hr.noId a ha, fun a hb ha => by
    rw [h5, h5']
    rw [hk] at ha
    split at ha
    · next q => subst q; exact ⟨fun _ => .inr rfl, fun _ => .inr rfl⟩
    · rw [hr.same a hb ha]⟩ (fun e he => by
      rcases List.mem_cons.1 he with rfl | he
      · rw [hk, if_pos rfl]
        exact ⟨rfl, fun _ => hr.low⟩
      · rw [hk]
        split
        · next q => have := kindAt_lt (hh e he).1; omega
        · exact hh e he)
  revert k
  generalize f s.heap.length (.ref s.heap.length) t = p
  generalize g s.heap.length (.ref s.heap.length) t' = p'
  cases p with
  | none => cases p' <;> exact id
  | some p => cases p' with
    | none => exact id
    | some p' => exact fun ⟨a, b, c, d⟩ => ⟨a, b, fun e he => c e (List.mem_cons_of_mem _ he), d⟩

theorem setCell {a : Nat} {o : Obj} (hm : (a, kindOf o) ∈ F) : Sim B F (Unpickler.setCell a o) (Unpickler.setCell a o) (fun _ => True) :=
  ofHeap (fun h => (.ok (), h.set a o)) (fun _ => rfl) (fun _ _ => rfl) (fun _ hh => Calm.set (hh _ hm).1) (fun _ _ _ => trivial)

theorem swapref {p : Nat} (hm : (p, Kind.proxy) ∈ F) (v : Val) : Sim B F (Unpickler.swapref p v) (Unpickler.swapref p v) (fun _ => True) := by
  intro s s' hr hh
  unfold Unpickler.swapref
  have hs := hr.same p ((hh _ hm).2 rfl) (hh _ hm).1
  cases hg : idxGet (.addr p) s.idx with
  | none =>
    rw [idxGet_none.2 (fun h => idxGet_none.1 hg (hs.2 h))]
    exact ⟨rfl, hr, hh, fun _ _ => trivial⟩
  | some n =>
    cases hg' : idxGet (.addr p) s'.idx with
    | none => exact absurd (hs.1 (idxGet_some hg)) (idxGet_none.1 hg')
    | some n' =>
      have hk : ∀ (l : List (Ident × Nat)) (n : Nat) i, known ((l.filter (fun q => q.1 != .addr p && q.1 != v.ident)) ++ [(v.ident, n)]) i ↔
          (known l i ∧ i ≠ .addr p ∧ i ≠ v.ident) ∨ i = v.ident := by
        intro l n i
        rw [known_append]
        refine or_congr ?_ Iff.rfl
        unfold known
        constructor
        · rintro ⟨m, h⟩
          obtain ⟨h1, h2⟩ := List.mem_filter.1 h
          rw [Bool.and_eq_true] at h2
          exact ⟨⟨m, h1⟩, bne_iff_ne.1 h2.1, bne_iff_ne.1 h2.2⟩
        · rintro ⟨⟨m, h⟩, h1, h2⟩
          exact ⟨m, List.mem_filter.2 ⟨h, by rw [Bool.and_eq_true]; exact ⟨bne_iff_ne.2 h1, bne_iff_ne.2 h2⟩⟩⟩
      refine ⟨rfl, ⟨hr.low, hr.heap, hr.proxies, hr.nextId, hr.log, hr.noId, fun a hb ha => ?_⟩, hh, fun _ _ => trivial⟩
      rw [hk, hk, hr.same a hb ha]

theorem emit (e : Event) : Sim B F (Unpickler.emit e) (Unpickler.emit e) (fun _ => True) :=
  fun s s' hr hh => ⟨rfl, ⟨hr.low, hr.heap, hr.proxies, hr.nextId, by show s'.log ++ _ = s.log ++ _; rw [hr.log], hr.noId, hr.same⟩, hh, fun _ _ => trivial⟩

theorem fresh : Sim B F Unpickler.fresh Unpickler.fresh (fun _ => True) :=
  fun s s' hr hh => ⟨by rw [hr.nextId], ⟨hr.low, hr.heap, hr.proxies, by show s'.nextId + 1 = s.nextId + 1; rw [hr.nextId], hr.log, hr.noId, hr.same⟩, hh, fun _ _ => trivial⟩

theorem kindAt_inst {h : Heap} {a : Nat} {i : Inst} (e : h[a]? = some (.inst i)) : kindAt h a = some .inst := by unfold kindAt; rw [e]; rfl
theorem kindAt_dict {h : Heap} {a : Nat} {i} (e : h[a]? = some (.dict i)) : kindAt h a = some .dict := by unfold kindAt; rw [e]; rfl
theorem kindAt_list {h : Heap} {a : Nat} {i} (e : h[a]? = some (.list i)) : kindAt h a = some .list := by unfold kindAt; rw [e]; rfl

/-- one step that leaves the table alone -/
def Step (P : α → Prop) (s s' : UState) (p p' : Option (Except Exc α × UState)) : Prop :=
  ∃ r t t', p = some (r, t) ∧ p' = some (r, t') ∧ Calm s.heap t.heap ∧
    t'.heap = t.heap ∧ t'.proxies = t.proxies ∧ t'.nextId = t.nextId ∧ t'.log = t.log ∧ t.idx = s.idx ∧ t'.idx = s'.idx ∧ ∀ a, r = .ok a → P a

theorem ofStep {P : α → Prop} {x y : U α} (h : ∀ s s', Rel B s s' → Holds B F s.heap → Step P s s' (x s) (y s')) : Sim B F x y P := by
  intro s s' hr hh
  obtain ⟨r, t, t', e, e', c, h1, h2, h3, h4, h5, h6, h7⟩ := h s s' hr hh
  rw [e, e']
  exact ⟨rfl, calm hr c h1 h2 h3 h4 h5 h6, c.holds hh, h7⟩

theorem stay {P : α → Prop} {s s' : UState} (hr : Rel B s s') {r : Except Exc α} (hp : ∀ a, r = .ok a → P a) :
    Step P s s' (some (r, s)) (some (r, s')) :=
  ⟨r, s, s', rfl, rfl, Calm.refl _, hr.heap, hr.proxies, hr.nextId, hr.log, rfl, rfl, hp⟩

theorem write {P : α → Prop} {s s' : UState} (hr : Rel B s s') {r : Except Exc α} {h : Heap} (c : Calm s.heap h) (hp : ∀ a, r = .ok a → P a) :
    Step P s s' (some (r, { s with heap := h })) (some (r, { s' with heap := h })) :=
  ⟨r, _, _, rfl, rfl, c, rfl, hr.proxies, hr.nextId, hr.log, rfl, rfl, hp⟩

theorem modInst (a : Addr) (f : Inst → Inst) : Sim B F (Unpickler.modInst a f) (Unpickler.modInst a f) (fun _ => True) := by
  refine ofStep (fun s s' hr _ => ?_)
  unfold Unpickler.modInst
  rw [modify_run, modify_run, hr.heap]
  cases hg : s.heap[a]? with
  | none => exact stay hr (fun _ _ => trivial)
  | some o => cases o with
    | inst i => exact write hr (Calm.set (o := .inst (f i)) (kindAt_inst hg)) (fun _ _ => trivial)
    | _ => exact stay hr (fun _ _ => trivial)

theorem noteProxy (a : Addr) (sl : Slot) (v : Val) : Sim B F (Unpickler.noteProxy a sl v) (Unpickler.noteProxy a sl v) (fun _ => True) := by
  refine ofStep (fun s s' hr _ => ?_)
  unfold Unpickler.noteProxy
  rw [modify_run, modify_run, hr.heap]
  cases proxyAddr s.heap v with
  | none => exact stay hr (fun _ _ => trivial)
  | some p => exact ⟨_, _, _, rfl, rfl, Calm.refl _, rfl, by show s'.proxies ++ _ = s.proxies ++ _; rw [hr.proxies], hr.nextId, hr.log, rfl, rfl, fun _ _ => trivial⟩

theorem st_setattr {s s' : UState} (hr : Rel B s s') (a : Addr) (k : Str) (v : Val) : Step (fun _ => True) s s' (Unpickler.setattr a k v s) (Unpickler.setattr a k v s') := by
  unfold Unpickler.setattr
  rw [hr.heap]
  cases hg : s.heap[a]? with
  | none => exact stay hr (fun _ _ => trivial)
  | some o => cases o with
    | inst i =>
      dsimp only
      by_cases hc : attrOk i k = true
      · rw [if_pos hc, if_pos hc]
        cases i.dictCell with
        | none => exact write hr (Calm.set (o := .inst _) (kindAt_inst hg)) (fun _ _ => trivial)
        | some d =>
          dsimp only
          cases hd : s.heap[d]? with
          | none => exact stay hr (fun _ _ => trivial)
          | some o => cases o with
            | dict kvs => exact write hr (Calm.set (o := .dict _) (kindAt_dict hd)) (fun _ _ => trivial)
            | _ => exact stay hr (fun _ _ => trivial)
      · rw [if_neg hc, if_neg hc]
        exact stay hr (fun _ _ => trivial)
    | _ => exact stay hr (fun _ _ => trivial)

theorem dictSet (a : Addr) (k v : Val) : Sim B F (Unpickler.dictSet a k v) (Unpickler.dictSet a k v) (fun _ => True) := by
  refine ofStep (fun s s' hr _ => ?_)
  unfold Unpickler.dictSet
  rw [hr.heap]
  by_cases hc : hashable s.heap k = true
  · rw [if_pos hc, if_pos hc]
    cases hg : s.heap[a]? with
    | none => exact stay hr (fun _ _ => trivial)
    | some o => cases o with
      | dict kvs => exact write hr (Calm.set (o := .dict _) (kindAt_dict hg)) (fun _ _ => trivial)
      | _ => exact stay hr (fun _ _ => trivial)
  · rw [if_neg hc, if_neg hc]
    exact stay hr (fun _ _ => trivial)

theorem st_setItem {s s' : UState} (hr : Rel B s s') (a : Addr) (k v : Val) : Step (fun _ => True) s s' (Unpickler.setItem a k v s) (Unpickler.setItem a k v s') := by
  unfold Unpickler.setItem
  rw [hr.heap]
  cases hg : s.heap[a]? with
  | none => exact stay hr (fun _ _ => trivial)
  | some o => cases o with
    | inst i =>
      have hw : ∀ j : Inst, Calm s.heap (s.heap.set a (.inst j)) := fun j => Calm.set (o := .inst j) (kindAt_inst hg)
      dsimp only
      cases k with
      | str t =>
        dsimp only
        by_cases hc : (t == p!"__dict__") = true
        · rw [if_pos hc, if_pos hc]
          cases v with
          | ref d =>
            dsimp only
            cases hd : s.heap[d]? with
            | none => exact stay hr (fun _ _ => trivial)
            | some o => cases o with
              | dict kvs =>
                dsimp only
                by_cases hi : i.info.hasDict = true
                · rw [if_pos hi, if_pos hi]; exact write hr (hw _) (fun _ _ => trivial)
                · rw [if_neg hi, if_neg hi]; exact stay hr (fun _ _ => trivial)
              | _ => exact stay hr (fun _ _ => trivial)
          | _ => exact stay hr (fun _ _ => trivial)
        · rw [if_neg hc, if_neg hc]
          exact write hr (hw _) (fun _ _ => trivial)
      | _ =>
        dsimp only
        split
        · exact write hr (hw _) (fun _ _ => trivial)
        · exact stay hr (fun _ _ => trivial)
    | _ => exact stay hr (fun _ _ => trivial)

theorem st_setAttrMangled {s s' : UState} (hr : Rel B s s') (a : Addr) (k v : Val) :
    Step (fun _ => True) s s' (Unpickler.setAttrMangled a k v s) (Unpickler.setAttrMangled a k v s') := by
  unfold Unpickler.setAttrMangled
  rw [hr.heap]
  cases k with
  | str t =>
    dsimp only
    by_cases hc : startsWith t p!"__" = true
    · rw [if_pos hc, if_pos hc]
      cases hg : s.heap[a]? with
      | none => exact stay hr (fun _ _ => trivial)
      | some o => cases o with
        | inst i => exact st_setattr hr _ _ _
        | _ => exact stay hr (fun _ _ => trivial)
    · rw [if_neg hc, if_neg hc]
      exact st_setattr hr _ _ _
  | _ => exact stay hr (fun _ _ => trivial)

theorem storeEntry (a : Addr) (k v : Val) : Sim B F (Unpickler.storeEntry a k v) (Unpickler.storeEntry a k v) (fun _ => True) := by
  unfold Unpickler.storeEntry
  refine bind (P := fun _ => True) (ofStep (fun s s' hr _ => ?_)) (fun _ _ => ?_)
  · unfold Unpickler.storeRaw
    rw [hr.heap]
    by_cases hc : Unpickler.isDictSub s.heap a = true
    · rw [if_pos hc, if_pos hc]; exact st_setItem hr _ _ _
    · rw [if_neg hc, if_neg hc]; exact st_setAttrMangled hr _ _ _
  · intro s s' hr hh
    unfold Unpickler.noteEntry
    rw [hr.heap]
    by_cases hc : (Unpickler.isDictSub s.heap a && isDictKey k) = true
    · rw [if_pos hc, if_pos hc]; exact ⟨rfl, hr, hh, fun _ _ => trivial⟩
    · rw [if_neg hc, if_neg hc]; exact noteProxy _ _ _ s s' hr hh

theorem proxyGet_eq {s s' : UState} (hr : Rel B s s') (p : Addr) : Unpickler.proxyGet s' p = Unpickler.proxyGet s p := by
  unfold Unpickler.proxyGet
  rw [hr.heap]
  cases hg : s.heap[p]? with
  | none => rfl
  | some o => cases o with
    | idproxy i => exact absurd (by unfold kindAt; rw [hg]; rfl) (hr.noId p)
    | proxy v => cases v <;> rfl
    | _ => rfl

theorem fixFactory (v : Val) : Sim B F (Unpickler.fixFactory v) (Unpickler.fixFactory v) (fun _ => True) := by
  refine ofStep (fun s s' hr _ => ?_)
  unfold Unpickler.fixFactory
  rw [modify_run, modify_run]
  cases v with
  | ref a =>
    dsimp only
    rw [hr.heap]
    cases hg : s.heap[a]? with
    | none => exact stay hr (fun _ _ => trivial)
    | some o => cases o with
      | inst i =>
        have hw : ∀ j : Inst, Calm s.heap (s.heap.set a (.inst j)) := fun j => Calm.set (o := .inst j) (kindAt_inst hg)
        dsimp only
        cases i.factory with
        | none =>
          cases dget p!"default_factory" i.attrs with
          | none => exact stay hr (fun _ _ => trivial)
          | some f =>
            dsimp only
            cases proxyAddr s.heap f with
            | none => exact stay hr (fun _ _ => trivial)
            | some p =>
              dsimp only
              rw [proxyGet_eq hr]
              exact write hr (hw _) (fun _ _ => trivial)
        | some f =>
          dsimp only
          cases proxyAddr s.heap f with
          | none => exact stay hr (fun _ _ => trivial)
          | some p =>
            dsimp only
            rw [proxyGet_eq hr]
            exact write hr (hw _) (fun _ _ => trivial)
      | _ => exact stay hr (fun _ _ => trivial)
  | _ => exact stay hr (fun _ _ => trivial)

theorem swapOne (e : Addr × Slot × Addr) : Sim B F (Unpickler.swapOne e) (Unpickler.swapOne e) (fun _ => True) := by
  refine ofStep (fun s s' hr _ => ?_)
  unfold Unpickler.swapOne
  rw [proxyGet_eq hr, hr.heap]
  obtain ⟨a, sl, p⟩ := e
  dsimp only
  cases sl with
  | idx n =>
    cases hg : s.heap[a]? with
    | none => exact stay hr (fun _ _ => trivial)
    | some o => cases o with
      | list xs => exact write hr (Calm.set (o := .list _) (kindAt_list hg)) (fun _ _ => trivial)
      | _ => exact stay hr (fun _ _ => trivial)
  | key k =>
    cases hg : s.heap[a]? with
    | none => exact stay hr (fun _ _ => trivial)
    | some o => cases o with
      | dict xs => exact write hr (Calm.set (o := .dict _) (kindAt_dict hg)) (fun _ _ => trivial)
      | _ => exact stay hr (fun _ _ => trivial)
  | attr k =>
    cases k with
    | str t => exact st_setattr hr _ _ _
    | _ => exact stay hr (fun _ _ => trivial)

theorem swapProxies : Sim B F Unpickler.swapProxies Unpickler.swapProxies (fun _ => True) := by
  unfold Unpickler.swapProxies
  intro s s' hr hh
  rw [bind_run, bind_run, get_run, get_run]
  dsimp only
  rw [hr.proxies]
  refine bind (mapM (P := fun _ => True) (fun e _ => swapOne e)) (fun _ _ => ofStep (fun s s' hr _ => ?_)) s s' hr hh
  rw [modify_run, modify_run]
  exact ⟨_, _, _, rfl, rfl, Calm.refl _, hr.heap, rfl, hr.nextId, hr.log, rfl, rfl, fun _ _ => trivial⟩

mutual
theorem raw : ∀ (j : Json) {F : Facts}, Sim B F (Unpickler.raw j) (Unpickler.raw j) (fun _ => True)
  | .null, _ => by unfold Unpickler.raw; exact pure trivial
  | .bool _, _ => by unfold Unpickler.raw; exact pure trivial
  | .int _, _ => by unfold Unpickler.raw; exact pure trivial
  | .float _, _ => by unfold Unpickler.raw; exact pure trivial
  | .str _, _ => by unfold Unpickler.raw; exact pure trivial
  | .arr xs, _ => by
    unfold Unpickler.raw
    exact bind (raws xs) (fun _ _ => alloc (by simp [kindOf]) (by simp [kindOf]) (fun _ => pure trivial))
  | .obj kvs, _ => by
    unfold Unpickler.raw
    exact bind (rawKvs kvs) (fun _ _ => alloc (by simp [kindOf]) (by simp [kindOf]) (fun _ => pure trivial))
theorem raws : ∀ (xs : List Json) {F : Facts}, Sim B F (Unpickler.raws xs) (Unpickler.raws xs) (fun _ => True)
  | [], _ => by unfold Unpickler.raws; exact pure trivial
  | x :: xs, _ => by
    unfold Unpickler.raws
    exact bind (raw x) (fun _ _ => bind (raws xs) (fun _ _ => pure trivial))
theorem rawKvs : ∀ (xs : List (Str × Json)) {F : Facts}, Sim B F (Unpickler.rawKvs xs) (Unpickler.rawKvs xs) (fun _ => True)
  | [], _ => by unfold Unpickler.rawKvs; exact pure trivial
  | (k, x) :: xs, _ => by
    unfold Unpickler.rawKvs
    exact bind (raw x) (fun _ _ => bind (rawKvs xs) (fun _ _ => pure trivial))
end

theorem noteList (a : Addr) : ∀ (n : Nat) (vs : List Val), Sim B F (Unpickler.noteList a n vs) (Unpickler.noteList a n vs) (fun _ => True)
  | _, [] => by unfold Unpickler.noteList; exact pure trivial
  | n, v :: vs => by
    unfold Unpickler.noteList
    exact bind (noteProxy a (.idx n) v) (fun _ _ => noteList a (n + 1) vs)

end Sim

/-! ### the decoder -/

/-- the same with another value of `v1_decode` -/
abbrev withV1 (env : UEnv) (b : Bool) : UEnv := { env with v1 := b }

section
variable {env : UEnv} {b : Bool} {rs rs' : Json → U Val} {B : Nat} {F : Facts}
  (h : ∀ (F : Facts) j, Free env j → Sim B F (rs j) (rs' j) (fun _ => True))

include h in
theorem sm_mapM {xs : List Json} (hx : ∀ x ∈ xs, Free env x) : Sim B F (PyM.mapM rs xs) (PyM.mapM rs' xs) (fun _ => True) :=
  Sim.weaken (Sim.mapM (fun x hm => h F x (hx x hm))) (fun _ _ => trivial)

include h in
theorem sm_restoreList {xs : Except Exc (List Json)} (hx : ∀ l, xs = .ok l → ∀ x ∈ l, Free env x) :
    Sim B F (restoreList rs xs) (restoreList rs' xs) (fun _ => True) := by
  unfold restoreList
  exact Sim.alloc (by simp [kindOf]) (by simp [kindOf]) (fun a => Sim.bind (Sim.mkref _) (fun _ _ => Sim.bind (Sim.ofExcept _) (fun l hl =>
    Sim.bind (sm_mapM h (hx l hl)) (fun vs _ => Sim.bind (Sim.setCell List.mem_cons_self) (fun _ _ => Sim.bind (Sim.noteList _ _ _) (fun _ _ => Sim.pure trivial))))))

theorem sm_alloc {o : Obj} (h1 : kindOf o ≠ .proxy) (h2 : kindOf o ≠ .idproxy) {g : Addr → α} :
    Sim B F (Unpickler.alloc o >>= fun a => pure (g a)) (Unpickler.alloc o >>= fun a => pure (g a)) (fun _ => True) :=
  Sim.alloc h1 h2 (fun _ => Sim.pure trivial)

include h in
theorem sm_restoreIterator {kvs} (hd : Free env (.obj kvs)) : Sim B F (restoreIterator rs kvs) (restoreIterator rs' kvs) (fun _ => True) := by
  unfold restoreIterator
  refine Sim.bind (P := fun _ => True) (Sim.tryCatch (Sim.bind (Sim.ofExcept _) (fun j hj => sm_restoreList h (fun l hl => (hd.item hj).iter hl))) (fun _ => ?_))
    (fun a _ => sm_alloc (by simp [kindOf]) (by simp [kindOf]))
  have := sm_alloc (B := B) (F := F) (o := .list []) (g := id) (by simp [kindOf]) (by simp [kindOf])
  exact this

theorem sm_loadclassJ (j : Json) : Sim B F (loadclassJ env j) (loadclassJ (withV1 env b) j) (fun _ => True) := by
  unfold loadclassJ
  cases j with
  | str s => exact Sim.bind (Sim.emit _) (fun _ _ => Sim.pure trivial)
  | _ => exact Sim.throw _

theorem sm_reduceFallback {p : Nat} (hp : (p, Kind.proxy) ∈ F) : Sim B F (reduceFallback p) (reduceFallback p) (fun _ => True) := by
  unfold reduceFallback
  exact Sim.alloc (by simp [kindOf]) (by simp [kindOf]) (fun a => Sim.bind (Sim.setCell (List.mem_cons_of_mem _ hp)) (fun _ _ =>
    Sim.bind (Sim.swapref (List.mem_cons_of_mem _ hp) _) (fun _ _ => Sim.pure trivial)))

theorem sm_emitSetter (ops : List Op) : Sim B F (emitSetter ops) (emitSetter ops) (fun _ => True) := by
  unfold emitSetter
  split
  · exact Sim.emit _
  · exact Sim.emit _
  · exact Sim.pure trivial

theorem sm_reduceFinish {p : Nat} (hp : (p, Kind.proxy) ∈ F) (cls vals c d e g) :
    Sim B F (reduceFinish env p cls vals c d e g) (reduceFinish (withV1 env b) p cls vals c d e g) (fun _ => True) := by
  unfold reduceFinish
  refine Sim.get (fun s s' hs => ?_)
  rw [hs]
  exact Sim.bind (Sim.ofExcept _) (fun st _ => Sim.bind (sm_emitSetter _) (fun _ _ => Sim.bind (Sim.ofExcept _) (fun ls _ => Sim.bind (Sim.ofExcept _) (fun ds _ =>
    Sim.alloc (by simp [kindOf]) (by simp [kindOf]) (fun a => Sim.bind (Sim.setCell (List.mem_cons_of_mem _ hp)) (fun _ _ =>
      Sim.bind (Sim.swapref (List.mem_cons_of_mem _ hp) _) (fun _ _ => Sim.pure trivial)))))))

theorem sm_reduceBuild {p : Nat} (hp : (p, Kind.proxy) ∈ F) (vals) :
    Sim B F (reduceBuild env p vals) (reduceBuild (withV1 env b) p vals) (fun _ => True) := by
  unfold reduceBuild
  split
  · next f args c d e g =>
    refine Sim.get (fun s s' hs => ?_)
    rw [hs]
    have fin : ∀ n, Sim B F (emit (.call n) >>= fun _ => reduceFinish env p n [f, args, c, d, e, g] c d e g)
        (emit (.call n) >>= fun _ => reduceFinish (withV1 env b) p n [f, args, c, d, e, g] c d e g) (fun _ => True) :=
      fun n => Sim.bind (Sim.emit _) (fun _ _ => sm_reduceFinish hp _ _ _ _ _ _)
    refine Sim.ite (fun _ => Sim.bind (Sim.ofExcept _) (fun a _ => ?_)) (fun _ => ?_)
    · obtain ⟨a1, a2⟩ := a
      cases a1 with
      | type n => exact Sim.ite (fun _ => fin n) (fun _ => Sim.throw _)
      | _ => exact Sim.throw _
    · cases f with
      | type n =>
        dsimp only
        generalize starArgs s.heap args = q
        cases q with
        | none => exact Sim.throw _
        | some l => exact Sim.ite (fun _ => fin n) (fun _ => Sim.throw _)
      | func n =>
        dsimp only
        generalize starArgs s.heap args = q
        cases q with
        | none => exact Sim.throw _
        | some l => exact Sim.ite (fun _ => fin n) (fun _ => Sim.throw _)
      | _ => exact sm_reduceFallback hp
  · exact Sim.throw _

include h in
theorem sm_restoreReduce {kvs} (hd : Free env (.obj kvs)) : Sim B F (restoreReduce env rs kvs) (restoreReduce (withV1 env b) rs' kvs) (fun _ => True) := by
  unfold restoreReduce
  refine Sim.proxy (fun p => Sim.bind (P := fun _ => True) (Sim.tryCatch (Sim.bind (Sim.ofExcept _) (fun j hj => Sim.bind (Sim.ofExcept _) (fun xs hxs =>
      Sim.bind (sm_mapM h ((hd.item hj).iter hxs)) (fun vs _ => Sim.pure trivial))))
      (fun _ => Sim.pure trivial)) (fun r _ => ?_))
  cases r with
  | none => exact sm_reduceFallback List.mem_cons_self
  | some vs => exact sm_reduceBuild List.mem_cons_self _

theorem sm_restoreType (kvs) : Sim B F (restoreType env kvs) (restoreType (withV1 env b) kvs) (fun _ => True) := by
  unfold restoreType
  refine Sim.bind (Sim.ofExcept _) (fun j _ => Sim.bind (sm_loadclassJ j) (fun c _ => ?_))
  cases c with
  | some v => exact Sim.pure trivial
  | none => exact Sim.raw _

theorem sm_restoreModule (j) : Sim B F (restoreModule env j) (restoreModule (withV1 env b) j) (fun _ => True) := by
  unfold restoreModule
  cases j with
  | str s => exact Sim.bind (Sim.emit _) (fun _ _ => Sim.bind (Sim.ofExcept _) (fun r _ => Sim.weaken (Sim.mkref _) (fun _ _ => trivial)))
  | _ => exact Sim.throw _

theorem sm_restoreRepr (j) : Sim B F (restoreRepr env j) (restoreRepr (withV1 env b) j) (fun _ => True) := by
  unfold restoreRepr
  cases j with
  | str s => exact Sim.bind (Sim.emit _) (fun _ _ => Sim.bind (Sim.ofExcept _) (fun r _ => Sim.weaken (Sim.mkref _) (fun _ _ => trivial)))
  | _ => exact Sim.throw _

theorem sm_missingRaw (n kvs) :
    Sim B F (do processMissing env n; let r ← raw (.obj kvs); mkref r) (do processMissing (withV1 env b) n; let r ← raw (.obj kvs); mkref r) (fun _ => True) := by
  refine Sim.bind (P := fun _ => True) ?_ (fun _ _ => Sim.bind (Sim.raw _) (fun _ _ => Sim.weaken (Sim.mkref _) (fun _ _ => trivial)))
  unfold processMissing
  dsimp only
  cases env.onMissing with
  | ignore => exact Sim.pure trivial
  | error => exact Sim.bind (Sim.emit _) (fun _ _ => Sim.throw _)
  | _ => exact Sim.emit _

include h in
theorem sm_loadFactory {kvs} (hd : Free env (.obj kvs)) : Sim B F (loadFactory rs kvs) (loadFactory rs' kvs) (fun p => Free env (.obj p.2)) := by
  unfold loadFactory
  split
  · exact Sim.pure hd
  · next k _ =>
    split
    · exact Sim.pure (hd.ddel k)
    · exact Sim.pure (hd.ddel k)
    · next j _ hj => exact Sim.bind (h _ j (hd.get hj)) (fun v _ => Sim.pure (hd.ddel k))

include h in
theorem sm_restorePickledKey {kvs} (hd : Free env (.obj kvs)) (hk : env.keys = true) {k : Str} {x : Json}
    (hm : (k, x) ∈ kvs) : Sim B F (restorePickledKey env rs k) (restorePickledKey (withV1 env b) rs' k) (fun _ => True) := by
  unfold restorePickledKey
  refine Sim.ite (fun hj => ?_) (fun _ => Sim.pure trivial)
  dsimp only
  cases hl : env.loads (k.drop Tags.JSON_KEY.length) with
  | none => exact Sim.throw _
  | some j => exact h _ j (fun hs => hd (.key hk hm hj hl hs))

include h in
theorem sm_restoreKey {kvs} (hd : Free env (.obj kvs)) {k : Str} {x : Json}
    (hm : (k, x) ∈ kvs) : Sim B F (restoreKey env rs k) (restoreKey (withV1 env b) rs' k) (fun _ => True) := by
  unfold restoreKey
  exact Sim.ite (fun hk => sm_restorePickledKey h hd hk hm) (fun _ => Sim.pure trivial)

include h in
theorem sm_restoreFromJson (a : Addr) {kvs} (hd : Free env (.obj kvs)) :
    Sim B F (restoreFromJson env rs a kvs) (restoreFromJson (withV1 env b) rs' a kvs) (fun _ => True) := by
  unfold restoreFromJson
  refine Sim.bind (Sim.mapM (P := fun _ => True) (fun kv hm => ?_)) (fun _ _ => Sim.pure trivial)
  exact Sim.ite (fun _ => Sim.pure trivial) (fun _ => Sim.bind (sm_restoreKey h hd (k := kv.1) (x := kv.2) hm) (fun _ hk =>
    Sim.bind (h _ _ (hd.value (k := kv.1) hm)) (fun _ hv => Sim.storeEntry a _ _)))

theorem sm_restoreFromVals (a : Addr) (kvs) : Sim B F (restoreFromVals a kvs) (restoreFromVals a kvs) (fun _ => True) := by
  unfold restoreFromVals
  exact Sim.bind (Sim.mapM (P := fun _ => True) (fun kv _ => Sim.storeEntry a _ _)) (fun _ _ => Sim.pure trivial)

theorem sm_applyOtherState (a : Addr) (st) : Sim B F (applyOtherState a st) (applyOtherState a st) (fun _ => True) := by
  unfold applyOtherState
  refine Sim.get (fun s s' hs => ?_)
  rw [hs]
  have tail : ∀ (c : Bool) (v : Val), Sim B F (if c = true then pure (.ref a) else pure v) (if c = true then pure (.ref a) else pure v) (fun _ => True) :=
    fun c v => Sim.ite (fun _ => Sim.pure trivial) (fun _ => Sim.pure trivial)
  split
  · next x y =>
    cases dictEntries s.heap y with
    | none => exact tail _ _
    | some kvs =>
      refine Sim.bind (sm_restoreFromVals a kvs) (fun _ _ => ?_)
      cases dictEntries s.heap x with
      | none => exact Sim.pure trivial
      | some kvs0 => exact Sim.bind (sm_restoreFromVals a kvs0) (fun _ _ => Sim.pure trivial)
  · exact tail _ _

include h in
theorem sm_restoreState (a : Addr) {j} (hd : Free env j) : Sim B F (restoreState rs a j) (restoreState rs' a j) (fun _ => True) := by
  unfold restoreState
  refine Sim.bind (h _ j hd) (fun st hst => Sim.get (fun s s' hs => ?_))
  rw [hs]
  refine Sim.ite (fun _ => Sim.bind (Sim.modInst a _) (fun _ _ => Sim.pure trivial)) (fun _ => ?_)
  cases dictEntries s.heap st with
  | some kvs => exact Sim.bind (sm_restoreFromVals a kvs) (fun _ _ => Sim.pure trivial)
  | none => exact sm_applyOtherState a st

include h in
theorem sm_restoreSeq (a : Addr) {j} (hd : Free env j) : Sim B F (restoreSeq rs a j) (restoreSeq rs' a j) (fun _ => True) := by
  unfold restoreSeq
  refine Sim.get (fun s s' hs => ?_)
  rw [hs]
  cases (infoOf s.heap a).base with
  | list => exact Sim.bind (Sim.ofExcept _) (fun xs hxs => Sim.bind (Sim.mapM (P := fun _ => True) (fun x hx =>
      Sim.bind (h _ x (hd.iter hxs x hx)) (fun v hv => Sim.modInst a _))) (fun _ _ => Sim.pure trivial))
  | set =>
    refine Sim.bind (Sim.ofExcept _) (fun xs hxs => Sim.bind (Sim.mapM (P := fun _ => True) (fun x hx =>
      Sim.bind (h _ x (hd.iter hxs x hx)) (fun v hv => Sim.get (fun s s' hs => ?_)))) (fun _ _ => Sim.pure trivial))
    rw [hs]
    exact Sim.ite (fun _ => Sim.modInst a _) (fun _ => Sim.throw _)
  | _ => exact Sim.pure trivial

include h in
theorem sm_restoreSeqTag (a : Addr) {kvs} (hd : Free env (.obj kvs)) : Sim B F (restoreSeqTag rs a kvs) (restoreSeqTag rs' a kvs) (fun _ => True) := by
  unfold restoreSeqTag
  split
  · exact Sim.pure trivial
  · next j hj => exact sm_restoreSeq h a (hd.get hj)

include h in
theorem sm_restoreVariables (a : Addr) {kvs} (hd : Free env (.obj kvs)) :
    Sim B F (restoreVariables env rs a kvs) (restoreVariables (withV1 env b) rs' a kvs) (fun _ => True) := by
  unfold restoreVariables
  refine Sim.bind (sm_restoreFromJson h a hd) (fun _ _ => Sim.bind (sm_restoreSeqTag h a hd) (fun _ _ => ?_))
  split
  · exact Sim.pure trivial
  · next j hj => exact sm_restoreState h a (hd.get hj)

theorem sm_getargs {kvs} (hd : Free env (.obj kvs)) : Sim B F (getargs env kvs) (getargs (withV1 env b) kvs) (Free env) := by
  unfold getargs
  split
  · next j hj => exact Sim.pure (hd.get hj)
  · split
    · next j hj => exact Sim.pure (hd.get hj)
    · split
      · next sq o hsq ho =>
        refine Sim.bind (sm_loadclassJ o) (fun c hc => ?_)
        split
        · next n =>
          dsimp only
          cases (env.classInfo n).numFields with
          | none => exact Sim.pure Free.nil
          | some k =>
            dsimp only
            cases jsonLen sq with
            | none => exact Sim.throw _
            | some m =>
              refine Sim.pure ?_
              split
              · exact hd.get hsq
              · exact Free.nil
        · exact Sim.pure Free.nil
      · exact Sim.pure Free.nil

theorem free_kwArg {j : Json} (hj : Free env j) : Free env (kwArg j) := by
  unfold kwArg
  split
  · exact Free.null
  · exact hj

theorem sm_ctorArgs {kvs} (hd : Free env (.obj kvs)) : Sim B F (ctorArgs env kvs) (ctorArgs (withV1 env b) kvs) (fun p => Free env p.1 ∧ Free env p.2) := by
  unfold ctorArgs
  split
  · next j hj =>
    refine Sim.bind (Sim.ofExcept _) (fun xs hxs => ?_)
    split
    · next a k => exact Sim.pure ⟨(hd.get hj).iter hxs a (by simp), free_kwArg ((hd.get hj).iter hxs k (by simp))⟩
    · exact Sim.throw _
  · exact Sim.bind (sm_getargs hd) (fun a ha => Sim.pure ⟨ha, Free.empty⟩)

include h in
theorem sm_restoreArg {j} (hd : Free env j) : Sim B F (restoreArg rs j) (restoreArg rs' j) (fun _ => True) := by
  unfold restoreArg
  refine Sim.ite (fun _ => h _ j hd) (fun _ => ?_)
  cases j <;> exact Sim.pure trivial

include h in
theorem sm_restoreInstance (n : Str) {kvs} (hd : Free env (.obj kvs)) :
    Sim B F (restoreInstance env rs n kvs) (restoreInstance (withV1 env b) rs' n kvs) (fun _ => True) := by
  unfold restoreInstance
  refine Sim.proxy (fun p => Sim.bind (sm_loadFactory h hd) (fun fk hfk => ?_))
  obtain ⟨fac, kvs⟩ := fk
  refine Sim.bind (sm_ctorArgs hfk) (fun aj haj => ?_)
  obtain ⟨ja, jk⟩ := aj
  refine Sim.bind (sm_restoreArg h haj.1) (fun args _ => Sim.bind (sm_restoreArg h haj.2) (fun kw _ => Sim.get (fun s s' hs => Sim.bind (Sim.emit _) (fun _ _ => ?_))))
  rw [hs]
  dsimp only
  cases construct s.heap n (env.classInfo n) fac args kw with
  | none => exact sm_missingRaw _ _
  | some inst =>
    exact Sim.alloc (by simp [kindOf]) (by simp [kindOf]) (fun a => Sim.bind (Sim.setCell (List.mem_cons_of_mem _ List.mem_cons_self)) (fun _ _ =>
      Sim.bind (Sim.swapref (List.mem_cons_of_mem _ List.mem_cons_self) _) (fun _ _ => Sim.ite (fun _ => Sim.pure trivial) (fun _ =>
        Sim.bind (sm_restoreVariables h a hfk) (fun v _ => Sim.bind (Sim.fixFactory v) (fun _ _ => Sim.pure trivial))))))

theorem free_dateArgs {a : Json} (ha : Free env a) {q : Json × List Json} (hq : dateArgs a = .ok q) : ∀ x ∈ q.2, Free env x := by
  unfold dateArgs at hq
  split at hq
  · cases hq; exact fun x hx => ha.arr (List.mem_cons_of_mem _ hx)
  · cases hq
  · cases hq
    intro x hx
    obtain ⟨c, _, rfl⟩ := List.mem_map.1 hx
    exact Free.str _
  · cases hq
  · cases hq
  · cases hq

include h in
theorem sm_restoreDate {kvs} (hd : Free env (.obj kvs)) : Sim B F (restoreDate env rs kvs) (restoreDate (withV1 env b) rs' kvs) (fun _ => True) := by
  unfold restoreDate
  refine Sim.bind (Sim.ofExcept _) (fun r hr => Sim.bind (Sim.ofExcept _) (fun ps hps => ?_))
  have hi := (hd.item hr).iter hps
  split
  · next c a =>
    refine Sim.bind (h _ c (hi c (by simp))) (fun cls _ => Sim.bind (Sim.ofExcept _) (fun pa hpa => Sim.bind (Sim.ofExcept _) (fun b _ =>
      Sim.bind (sm_mapM h (free_dateArgs (hi a (by simp)) hpa)) (fun params _ => ?_))))
    split
    · next m => exact Sim.bind (Sim.emit _) (fun _ _ => sm_alloc (by simp [kindOf]) (by simp [kindOf]))
    · exact Sim.throw _
  · exact Sim.throw _

include h in
theorem sm_handlerRestore (k n) {kvs} (hd : Free env (.obj kvs)) :
    Sim B F (handlerRestore env rs k n kvs) (handlerRestore (withV1 env b) rs' k n kvs) (fun _ => True) := by
  unfold handlerRestore
  cases k with
  | record => exact Sim.bind (Sim.mapM (P := fun _ => True) (fun kv hm => Sim.bind (h _ kv.2 ((hd.ddel Tags.OBJECT).value (k := kv.1) hm)) (fun _ _ => Sim.pure trivial))) (fun fs _ =>
      sm_alloc (by simp [kindOf]) (by simp [kindOf]))
  | datetime => exact sm_restoreDate h hd
  | «opaque» => exact sm_alloc (by simp [kindOf]) (by simp [kindOf])
  | drop => exact Sim.throw _

include h in
theorem sm_restoreHandled (k n) {kvs} (hd : Free env (.obj kvs)) :
    Sim B F (restoreHandled env rs k n kvs) (restoreHandled (withV1 env b) rs' k n kvs) (fun _ => True) := by
  unfold restoreHandled
  exact Sim.proxy (fun p => Sim.bind (sm_handlerRestore h k n hd) (fun v _ => Sim.bind (Sim.setCell List.mem_cons_self) (fun _ _ =>
    Sim.bind (Sim.swapref List.mem_cons_self _) (fun _ _ => Sim.pure trivial))))

include h in
theorem sm_restoreObject {kvs} (hd : Free env (.obj kvs)) : Sim B F (restoreObject env rs kvs) (restoreObject (withV1 env b) rs' kvs) (fun _ => True) := by
  unfold restoreObject
  refine Sim.bind (Sim.ofExcept _) (fun j hj => Sim.bind (sm_loadclassJ j) (fun c _ => ?_))
  cases j with
  | str n =>
    refine Sim.bind (Sim.emit _) (fun _ _ => ?_)
    dsimp only
    cases env.handler n with
    | some k => exact sm_restoreHandled h k n hd
    | none => cases c with
      | none => exact sm_missingRaw _ _
      | some _ => exact sm_restoreInstance h n hd
  | _ => exact Sim.throw _

theorem sm_restoreFunction (kvs) : Sim B F (restoreFunction env kvs) (restoreFunction (withV1 env b) kvs) (fun _ => True) := by
  unfold restoreFunction
  exact Sim.bind (Sim.ofExcept _) (fun j hj => Sim.bind (sm_loadclassJ j) (fun c hc => Sim.pure trivial))

include h in
theorem sm_restoreTuple {kvs} (hd : Free env (.obj kvs)) : Sim B F (restoreTuple rs kvs) (restoreTuple rs' kvs) (fun _ => True) := by
  unfold restoreTuple
  exact Sim.bind (P := fun _ => True) (Sim.tryCatch (Sim.bind (Sim.ofExcept _) (fun j hj => Sim.bind (Sim.ofExcept _) (fun xs hxs =>
    sm_mapM h ((hd.item hj).iter hxs)))) (fun _ => Sim.pure trivial)) (fun vs _ => Sim.bind Sim.fresh (fun _ _ => Sim.pure trivial))

include h in
theorem sm_restoreSet {kvs} (hd : Free env (.obj kvs)) : Sim B F (restoreSet rs kvs) (restoreSet rs' kvs) (fun _ => True) := by
  unfold restoreSet
  refine Sim.bind (P := fun _ => True) (Sim.tryCatch (Sim.bind (Sim.ofExcept _) (fun j hj => Sim.bind (Sim.ofExcept _) (fun xs hxs =>
    Sim.foldM (P := fun _ => True) (fun x hx acc _ => Sim.bind (h _ x ((hd.item hj).iter hxs x hx)) (fun v hv => Sim.get (fun s s' hs => ?_))) trivial)))
    (fun _ => Sim.pure trivial)) (fun vs _ => Sim.bind Sim.fresh (fun _ _ => Sim.pure trivial))
  rw [hs]
  exact Sim.ite (fun _ => Sim.pure trivial) (fun _ => Sim.throw _)

/-- the only place where the option matters: a dictionary is entered into the table or not -/
theorem sm_mkref {a : Nat} (ha : (a, Kind.dict) ∈ F) : Sim B F (mkrefUnlessV1 env a) (mkrefUnlessV1 (withV1 env b) a) (fun _ => True) := by
  intro s s' hr hh
  obtain ⟨t, e, h1, h2, h3, h4, h5⟩ := Sim.mkref_run (.ref a) s
  obtain ⟨t', e', h1', h2', h3', h4', h5'⟩ := Sim.mkref_run (.ref a) s'
  have hne : ∀ c : Nat, kindAt s.heap c = some .proxy → Ident.addr c ≠ (Val.ref a).ident := by
    intro c hc he
    have : c = a := by
      have he : Ident.addr c = Ident.addr a := he
      injection he
    subst this
    have := (hh _ ha).1
    dsimp only at this
    rw [hc] at this
    cases this
  unfold mkrefUnlessV1
  dsimp only
  cases env.v1 with
  | true => cases b with
    | true => exact ⟨rfl, hr, hh, fun _ _ => trivial⟩
    | false =>
      rw [if_pos rfl, if_neg (by simp), bind_run, e']
      refine ⟨rfl, ⟨hr.low, by rw [h1', hr.heap], by rw [h2', hr.proxies], by rw [h3', hr.nextId], by rw [h4', hr.log], hr.noId, fun c hb hc => ?_⟩, hh, fun _ _ => trivial⟩
      rw [h5', hr.same c hb hc]
      exact ⟨.inl, fun q => q.elim id (fun q => absurd q (hne c hc))⟩
  | false => cases b with
    | false =>
      rw [if_neg (by simp), bind_run, bind_run, e, e']
      refine ⟨rfl, ⟨by rw [h1]; exact hr.low, by rw [h1, h1', hr.heap], by rw [h2, h2', hr.proxies], by rw [h3, h3', hr.nextId], by rw [h4, h4', hr.log], by rw [h1]; exact hr.noId, fun c hb hc => ?_⟩,
        by rw [h1]; exact hh, fun _ _ => trivial⟩
      rw [h1] at hc
      rw [h5, h5', hr.same c hb hc]
    | true =>
      rw [if_neg (by simp), if_pos rfl, bind_run, e]
      refine ⟨rfl, ⟨by rw [h1]; exact hr.low, by rw [h1, hr.heap], by rw [h2, hr.proxies], by rw [h3, hr.nextId], by rw [h4, hr.log], by rw [h1]; exact hr.noId, fun c hb hc => ?_⟩,
        by rw [h1]; exact hh, fun _ _ => trivial⟩
      rw [h1] at hc
      rw [h5, hr.same c hb hc]
      exact ⟨fun q => q.elim id (fun q => absurd q (hne c hc)), .inl⟩

include h in
theorem sm_restoreDict {kvs} (hd : Free env (.obj kvs)) : Sim B F (restoreDict env rs kvs) (restoreDict (withV1 env b) rs' kvs) (fun _ => True) := by
  unfold restoreDict
  refine Sim.alloc (by simp [kindOf]) (by simp [kindOf]) (fun a => Sim.bind (sm_mkref List.mem_cons_self) (fun _ _ => Sim.ite (fun hk => ?_) (fun _ => ?_)))
  · refine Sim.bind (Sim.mapM (P := fun _ => True) (fun kv hm => ?_)) (fun _ _ => Sim.bind (Sim.mapM (P := fun _ => True) (fun kv hm => ?_)) (fun _ _ => Sim.pure trivial))
    · unfold dictEntry1
      exact Sim.ite (fun _ => Sim.pure trivial) (fun _ => Sim.bind (h _ _ (hd.value (k := kv.1) hm)) (fun v hv => Sim.dictSet a _ _))
    · unfold dictEntry2
      exact Sim.ite (fun _ => Sim.bind (sm_restorePickledKey h hd hk (k := kv.1) (x := kv.2) hm) (fun k hkk => Sim.bind (h _ _ (hd.value (k := kv.1) hm)) (fun v hv =>
        Sim.bind (Sim.dictSet a _ _) (fun _ _ => Sim.noteProxy a _ _)))) (fun _ => Sim.pure trivial)
  · refine Sim.bind (Sim.mapM (P := fun _ => True) (fun kv hm => ?_)) (fun _ _ => Sim.pure trivial)
    unfold dictEntry
    exact Sim.bind (h _ _ (hd.value (k := kv.1) hm)) (fun v hv => Sim.bind (Sim.dictSet a _ _) (fun _ _ => Sim.noteProxy a _ _))

theorem sm_bytes (x : Except Exc Bytes) (g : Nat → Bytes → Val) :
    Sim B F (do let b ← PyM.ofExcept x; let n ← fresh; pure (g n b)) (do let b ← PyM.ofExcept x; let n ← fresh; pure (g n b)) (fun _ => True) :=
  Sim.bind (Sim.ofExcept _) (fun _ _ => Sim.bind Sim.fresh (fun _ _ => Sim.pure trivial))

include h in
theorem sm_restoreTags {kvs} (hd : Free env (.obj kvs)) : Sim B F (restoreTags env rs kvs) (restoreTags (withV1 env b) rs' kvs) (fun _ => True) := by
  unfold restoreTags
  refine Sim.ite (fun _ => sm_restoreTuple h hd) (fun _ => ?_)
  refine Sim.ite (fun _ => sm_restoreSet h hd) (fun _ => ?_)
  refine Sim.ite (fun _ => sm_bytes _ _) (fun _ => ?_)
  refine Sim.ite (fun _ => sm_bytes _ _) (fun _ => ?_)
  refine Sim.ite (fun _ => sm_bytes _ _) (fun _ => ?_)
  refine Sim.ite (fun hq => absurd hq (by rw [hd.noId]; simp)) (fun _ => ?_)
  refine Sim.ite (fun _ => sm_restoreIterator h hd) (fun _ => ?_)
  refine Sim.ite (fun _ => sm_restoreObject h hd) (fun _ => ?_)
  refine Sim.ite (fun _ => sm_restoreType kvs) (fun _ => ?_)
  refine Sim.ite (fun _ => sm_restoreReduce h hd) (fun _ => ?_)
  refine Sim.ite (fun _ => sm_restoreFunction kvs) (fun _ => ?_)
  refine Sim.ite (fun _ => Sim.bind (Sim.ofExcept _) (fun j hj => sm_restoreModule j)) (fun _ => ?_)
  exact Sim.ite (fun _ => Sim.bind (Sim.ofExcept _) (fun j hj => Sim.ite (fun _ => sm_restoreModule j) (fun _ => sm_restoreRepr j))) (fun _ => sm_restoreDict h hd)

include h in
theorem sm_restoreStep {j} (hd : Free env j) : Sim B F (restoreStep env rs j) (restoreStep (withV1 env b) rs' j) (fun _ => True) := by
  unfold restoreStep
  cases j with
  | arr xs => exact Sim.bind (sm_restoreList h (fun l hl x hx => by cases hl; exact hd.arr hx)) (fun _ ha => Sim.pure trivial)
  | obj kvs => exact sm_restoreTags h hd
  | _ => exact Sim.pure trivial

end

theorem sm_restore {env : UEnv} {b : Bool} {B : Nat} : ∀ (n : Nat) (F : Facts) (j), Free env j → Sim B F (restore env n j) (restore (withV1 env b) n j) (fun _ => True)
  | 0, _, _, _ => fun _ _ _ _ => trivial
  | n + 1, _, _, hd => sm_restoreStep (sm_restore n) hd

end JP.Unpickler.V1
