import Verif.CycleSpec
import Verif.Proofs.PExpand
import Verif.Proofs.Term
/-!
# The encoder without references on graphs with cycles
-/
namespace JP.Cycle
open PyM Expand
open JP.Pickler hiding level

section
variable {w : World} {cfg : PCfg} {root : Val}

theorem occurs_trans {h : Heap} {c : Addr → Bool} {op : List Addr} {x y : Val} (hm : met op x = false) (ht : Touches h x y) {q : List Addr} {z : Val} (h1 : Occurs h c (into c x op) y q z) :
    Occurs h c op x q z := by
  induction h1 with
  | self => exact .step .self hm ht
  | step _ hm' ht' ih => exact .step ih hm' ht'

theorem Occurs.within {h : Heap} {c : Addr → Bool} {op : List Addr} {x : Val} (ho : Occurs h c [] root op x) : Within h root x := by
  induction ho with
  | self => exact .self
  | step _ _ ht ih => exact .step ih ht

theorem mem_into {c : Addr → Bool} {v : Val} {op : List Addr} {a : Addr} : a ∈ into c v op ↔ (v = .ref a ∧ c a = true) ∨ a ∈ op := by
  cases v <;> simp only [into] <;> grind

theorem doc_scalar {x : Val} (hx : Scalar x) (n : Nat) (op op' : List Addr) : doc w cfg n op x = doc w cfg n op' x := by
  cases n with
  | zero => rfl
  | succ n => cases x <;> first | rfl | cases hx

/-- the document depends only on those objects in progress that can be reached -/
theorem doc_congr (href : (cfg.unpicklable && cfg.makeRefs) = false) (g : Shape w cfg root) : ∀ (n : Nat) {op op' : List Addr} {x : Val}, Within w.heap root x →
    (∀ q a, Occurs w.heap (cut w cfg) op x q (.ref a) → (a ∈ op ↔ a ∈ op')) → doc w cfg n op x = doc w cfg n op' x
  | 0, _, _, _, _, _ => rfl
  | n + 1, op, op', x, hx, h => by
    have hm : met op x = met op' x := by
      cases x with
      | ref a =>
        have := h _ a .self
        unfold met
        rw [Bool.eq_iff_iff, List.contains_iff_mem, List.contains_iff_mem]
        exact this
      | _ => rfl
    unfold doc
    rw [← hm]
    by_cases hc : met op x = true
    · rw [if_pos hc, if_pos hc]
    · rw [if_neg hc, if_neg hc]
      refine level_congr href g hx ?_
      rintro y (hy | hy)
      · refine doc_congr href g n (.step hx hy) (fun q a ha => ?_)
        rw [mem_into, mem_into, h q a (occurs_trans (by simpa using hc) hy ha)]
      · exact doc_scalar hy ..

theorem Ends.mono {h : Heap} {c : Addr → Bool} : ∀ {n : Nat} {op : List Addr} {x : Val}, Ends h c n op x → ∀ {m : Nat}, n ≤ m → Ends h c m op x
  | 0, _, _, hb, _, _ => by cases hb
  | n + 1, op, x, hb, m, hm => by
    cases m with
    | zero => omega
    | succ m =>
      rcases hb with hb | hb
      · exact .inl hb
      · exact .inr (fun y hy => Ends.mono (hb y hy) (by omega))

theorem Ends.occurs {h : Heap} {c : Addr → Bool} {n : Nat} (hb : Ends h c n [] root) {op : List Addr} {x : Val} (ho : Occurs h c [] root op x) : Ends h c n op x := by
  induction ho with
  | self => exact hb
  | step _ hm ht ih =>
    cases n with
    | zero => cases ih
    | succ n =>
      rcases ih with ih | ih
      · rw [hm] at ih; cases ih
      · exact Ends.mono (ih _ ht) (by omega)

/-- more levels change nothing -/
theorem doc_stable (href : (cfg.unpicklable && cfg.makeRefs) = false) (g : Shape w cfg root) : ∀ {n : Nat} {op : List Addr} {x : Val}, Within w.heap root x → Ends w.heap (cut w cfg) n op x →
    ∀ {m : Nat}, n < m → doc w cfg m op x = doc w cfg (m + 1) op x
  | 0, _, _, _, hb, _, _ => by cases hb
  | n + 1, op, x, hx, hb, m, hm => by
    obtain ⟨m, rfl⟩ : ∃ k, m = k + 1 := ⟨m - 1, by omega⟩
    show (if met op x then cutDoc w cfg x else level w cfg (doc w cfg m (into (cut w cfg) x op)) x) = (if met op x then cutDoc w cfg x else level w cfg (doc w cfg (m + 1) (into (cut w cfg) x op)) x)
    rcases hb with hb | hb
    · rw [if_pos hb, if_pos hb]
    · congr 1
      refine level_congr href g hx ?_
      rintro y (hy | hy)
      · exact doc_stable href g (.step hx hy) (hb y hy) (by omega : n < m)
      · obtain ⟨m, rfl⟩ : ∃ k, m = k + 1 := ⟨m - 1, by omega⟩
        cases y <;> first | rfl | cases hy

/-! ### every chain ends -/

theorem ends_list {h : Heap} {c : Addr → Bool} {op : List Addr} : ∀ (xs : List Val), (∀ x ∈ xs, ∃ n, Ends h c n op x) → ∃ n, ∀ x ∈ xs, Ends h c n op x
  | [], _ => ⟨0, fun x hx => by cases hx⟩
  | x :: xs, hx => by
    obtain ⟨n, hn⟩ := hx x List.mem_cons_self
    obtain ⟨m, hm⟩ := ends_list xs (fun y hy => hx y (List.mem_cons_of_mem _ hy))
    refine ⟨max n m, fun y hy => ?_⟩
    rcases List.mem_cons.1 hy with rfl | hy
    · exact Ends.mono hn (Nat.le_max_left ..)
    · exact Ends.mono (hm y hy) (Nat.le_max_right ..)

theorem ends_step {h : Heap} {c : Addr → Bool} {op : List Addr} {x : Val} (hx : ∀ y, Touches h x y → ∃ n, Ends h c n (into c x op) y) : ∃ n, Ends h c n op x := by
  by_cases hc : ∀ y ∈ touched h x, Touches h x y
  · obtain ⟨n, hn⟩ := ends_list (touched h x) (fun y hy => hx y (hc y hy))
    exact ⟨n + 1, .inr (fun y hy => hn y (mem_touched hy))⟩
  · classical
    obtain ⟨n, hn⟩ := ends_list ((touched h x).filter (fun y => decide (Touches h x y))) (fun y hy => hx y (by simpa using (List.mem_filter.1 hy).2))
    exact ⟨n + 1, .inr (fun y hy => hn y (List.mem_filter.2 ⟨mem_touched hy, by simpa using hy⟩))⟩

theorem ends_exists (h : Heap) {c : Addr → Bool} (hc : ∀ a, c a = true) : ∀ (k : Nat) (op : List Addr), unvisited h op ≤ k → ∀ x : Val, ∃ n, Ends h c n op x := by
  intro k
  induction k using Nat.strongRecOn with
  | ind k ih =>
    intro op hk x
    induction hn : sizeOf x using Nat.strongRecOn generalizing x with
    | ind m ihm =>
      subst hn
      cases x with
      | ref a =>
        by_cases ha : a ∈ op
        · exact ⟨1, .inl (by simpa [met] using ha)⟩
        · by_cases hl : a < h.length
          · refine ends_step (fun y hy => ?_)
            rw [show into c (.ref a) op = a :: op from if_pos (hc a)]
            have hu := unvisited_lt hl ha
            exact ih (unvisited h (a :: op)) (Nat.lt_of_lt_of_le hu hk) (a :: op) (Nat.le_refl _) y
          · refine ⟨1, .inr (fun y hy => ?_)⟩
            have : h[a]? = none := List.getElem?_eq_none (Nat.le_of_not_lt hl)
            cases hy with
            | list h1 | dictKey h1 | dictVal h1 | inst h1 => rw [this] at h1; cases h1
      | tuple i xs =>
        refine ends_step (fun y hy => ?_)
        cases hy with
        | tuple hm => exact ihm _ (by have := List.sizeOf_lt_of_mem hm; simp only [Val.tuple.sizeOf_spec]; omega) y rfl
      | set i xs =>
        refine ends_step (fun y hy => ?_)
        cases hy with
        | set hm => exact ihm _ (by have := List.sizeOf_lt_of_mem hm; simp only [Val.set.sizeOf_spec]; omega) y rfl
      | _ => exact ⟨1, .inr (fun y hy => by cases hy)⟩

end

/-! ### tables and cache -/

section
variable {w : World} {cfg : PCfg} {root : Val} {E : List Addr → Val → Json}

/-- the document is right for the value wherever it is written out -/
def Good (w : World) (cfg : PCfg) (root : Val) (E : List Addr → Val → Json) (x : Val) (j : Json) : Prop :=
  ∀ op, Occurs w.heap (cut w cfg) [] root op x → met op x = false → j = E op x

/-- what holds of the encoder's state inside the objects `op` -/
structure Inv (w : World) (cfg : PCfg) (root : Val) (E : List Addr → Val → Json) (d : Int) (op : List Addr) (s : PState) : Prop where
  depth : s.depth = d
  cache : ∀ x, Within w.heap root x → ¬ Scalar x → ∀ p, s.flattened.find? (fun p => p.1 == x.ident) = some p →
    (met op x = true → p.2 = cutDoc w cfg x) ∧ (met op x = false → Good w cfg root E x p.2)
  objs : ∀ id ∈ s.objs, (∃ p, s.flattened.find? (fun p => p.1 == id) = some p) ∨ (∃ a, id = .addr a ∧ (a ∈ op ∨ cut w cfg a = false)) ∨ (∀ x, Within w.heap root x → ¬ Scalar x → x.ident ≠ id)
  reg : ∀ a ∈ op, Ident.addr a ∈ s.objs

/-- … after `x` was written, before its document is cached -/
structure Post (w : World) (cfg : PCfg) (root : Val) (E : List Addr → Val → Json) (d : Int) (op : List Addr) (x : Val) (s : PState) : Prop where
  depth : s.depth = d
  cache : ∀ y, Within w.heap root y → ¬ Scalar y → y.ident ≠ x.ident → ∀ p, s.flattened.find? (fun p => p.1 == y.ident) = some p →
    (met op y = true → p.2 = cutDoc w cfg y) ∧ (met op y = false → Good w cfg root E y p.2)
  objs : ∀ id ∈ s.objs, id = x.ident ∨ (∃ p, s.flattened.find? (fun p => p.1 == id) = some p) ∨ (∃ a, id = .addr a ∧ (a ∈ op ∨ cut w cfg a = false)) ∨
    (∀ x, Within w.heap root x → ¬ Scalar x → x.ident ≠ id)
  reg : ∀ a ∈ op, Ident.addr a ∈ s.objs

theorem Inv.post {d : Int} {op : List Addr} {x : Val} {s : PState} (h : Inv w cfg root E d (into (cut w cfg) x op) s) : Post w cfg root E d op x s where
  depth := h.depth
  cache y hy hys hne p hp := by
    have : met (into (cut w cfg) x op) y = met op y := by
      cases y with
      | ref b =>
        unfold met
        rw [Bool.eq_iff_iff, List.contains_iff_mem, List.contains_iff_mem, mem_into]
        exact ⟨fun h => h.resolve_left (fun e => hne (by rw [e.1])), .inr⟩
      | _ => rfl
    rw [← this]
    exact h.cache y hy hys p hp
  objs id hi := by
    rcases h.objs id hi with h | ⟨a, rfl, ha⟩ | h
    · exact .inr (.inl h)
    · rcases ha with ha | ha
      · rcases mem_into.1 ha with ⟨rfl, _⟩ | ha
        · exact .inl rfl
        · exact .inr (.inr (.inl ⟨a, rfl, .inl ha⟩))
      · exact .inr (.inr (.inl ⟨a, rfl, .inr ha⟩))
    · exact .inr (.inr (.inr h))
  reg a ha := h.reg a (mem_into.2 (.inr ha))

/-- from outside an object to inside, the object being registered -/
theorem Inv.enter (g : Shape w cfg root) {d : Int} {op : List Addr} {x : Val} {s t : PState} (h : Inv w cfg root E d op s) (hx : Within w.heap root x) (hns : ¬ Scalar x)
    (hnc : s.flattened.find? (fun p => p.1 == x.ident) = none) (hd : t.depth = s.depth) (hf : t.flattened = s.flattened)
    (ho : ∀ id ∈ t.objs, id ∈ s.objs ∨ (id = x.ident ∧ ∃ a, x = .ref a)) (ho' : ∀ id ∈ s.objs, id ∈ t.objs) (hreg : ∀ a, x = .ref a → Ident.addr a ∈ t.objs) :
    Inv w cfg root E d (into (cut w cfg) x op) t where
  depth := by rw [hd]; exact h.depth
  cache y hy hys p hp := by
    rw [hf] at hp
    have hyx : y ≠ x := by rintro rfl; rw [hnc] at hp; cases hp
    have : met (into (cut w cfg) x op) y = met op y := by
      cases y with
      | ref b =>
        unfold met
        rw [Bool.eq_iff_iff, List.contains_iff_mem, List.contains_iff_mem, mem_into]
        exact ⟨fun h => h.resolve_left (fun e => hyx e.1.symm), .inr⟩
      | _ => rfl
    rw [this]
    exact h.cache y hy hys p hp
  objs id hi := by
    rw [hf]
    rcases ho id hi with hi | ⟨rfl, a, rfl⟩
    · rcases h.objs id hi with h | ⟨a, rfl, ha⟩ | h
      · exact .inl h
      · exact .inr (.inl ⟨a, rfl, ha.imp_left (fun ha => mem_into.2 (.inr ha))⟩)
      · exact .inr (.inr h)
    · refine .inr (.inl ⟨a, rfl, ?_⟩)
      cases hc : cut w cfg a
      · exact .inr rfl
      · exact .inl (mem_into.2 (.inl ⟨rfl, hc⟩))
  reg a ha := by
    rcases mem_into.1 ha with ⟨rfl, _⟩ | ha
    · exact hreg a rfl
    · exact ho' _ (h.reg a ha)

/-- registering something that is no value of the graph -/
theorem Inv.foreign {d : Int} {op : List Addr} {id : Ident} {s : PState} (h : Inv w cfg root E d op s) (hid : ∀ x, Within w.heap root x → ¬ Scalar x → x.ident ≠ id) :
    Inv w cfg root E d op { s with objs := if s.objs.contains id then s.objs else s.objs ++ [id] } where
  depth := h.depth
  cache := h.cache
  objs i hi := by
    simp only at hi ⊢
    split at hi
    · exact h.objs i hi
    · rcases List.mem_append.1 hi with hi | hi
      · exact h.objs i hi
      · rw [List.mem_singleton] at hi
        subst hi
        exact .inr (.inr hid)
  reg a ha := by
    simp only
    split
    · exact h.reg a ha
    · exact List.mem_append_left _ (h.reg a ha)

/-- registered before it is written at most while it is being written -/
def Once (w : World) (cfg : PCfg) : Val → Prop
  | .ref a => cut w cfg a = true
  | _ => True

/-- inside a body -/
theorem by_gives (href2 : (cfg.unpicklable && cfg.makeRefs) = false) (hmax : cfg.maxDepth = none) (g : Shape w cfg root) {fl : Val → P Json} {x : Val} (hx : Within w.heap root x)
    (hns : ¬ Scalar x) (hnb : ∀ i b, x ≠ .bytes i b ∧ x ≠ .bytearray i b) {d : Int} {op : List Addr} {F : Val → Json}
    (hfl : ∀ y, Touches w.heap x y ∨ Scalar y → Gives (Inv w cfg root E d (into (cut w cfg) x op)) (fl y) (F y)) {s : PState}
    (hs : Inv w cfg root E d op s) (hnew : Once w cfg x → s.objs.contains x.ident = false) (hnc : s.flattened.find? (fun p => p.1 == x.ident) = none) :
    ∃ s', flattenBy w cfg fl x s = some (.ok (level w cfg F x), s') ∧ Post w cfg root E d op x s' := by
  have hmark : ∀ a, x = .ref a → ∃ s', Pickler.mkref cfg (.addr a) s = some (.ok true, s') ∧ Inv w cfg root E d (into (cut w cfg) x op) s' := by
    rintro a rfl
    obtain ⟨s', e, he⟩ := mkref_run href2 (.addr a) s
    refine ⟨s', e, ?_⟩
    subst he
    refine hs.enter g hx hns hnc rfl rfl ?_ ?_ ?_
    · intro id hi
      simp only at hi
      split at hi
      · exact .inl hi
      · rcases List.mem_append.1 hi with hi | hi
        · exact .inl hi
        · exact .inr ⟨List.mem_singleton.1 hi, a, rfl⟩
    · intro id hi
      simp only
      split
      · exact hi
      · exact List.mem_append_left _ hi
    · intro b hb
      cases hb
      simp only
      split
      · rename_i h; exact List.contains_iff_mem.1 h
      · simp
  have hstay : (∀ a, x ≠ .ref a) → Inv w cfg root E d (into (cut w cfg) x op) s := fun h => by
    refine hs.enter g hx hns hnc rfl rfl (fun id hi => .inl hi) (fun id hi => hi) (fun a ha => (h a ha).elim)
  have hmap : ∀ xs : List Val, (∀ y ∈ xs, Touches w.heap x y ∨ Scalar y) → Gives (Inv w cfg root E d (into (cut w cfg) x op)) (PyM.mapM fl xs) (xs.map F) :=
    fun xs h => Runs.mapM _ (fun y hy => hfl y (h y hy))
  have em : maxReached cfg s = some (.ok false, s) := by
    unfold maxReached; rw [hmax]; rfl
  cases x with
  | none | bool | int | float | str => exact absurd trivial hns
  | bytes i b => exact absurd rfl (hnb i b).1
  | bytearray i b => exact absurd rfl (hnb i b).2
  | lambda i => exact ⟨s, rfl, (hstay (fun a h => by cases h)).post⟩
  | func n => exact ⟨s, rfl, (hstay (fun a h => by cases h)).post⟩
  | type n => exact ⟨s, rfl, (hstay (fun a h => by cases h)).post⟩
  | module n =>
    obtain ⟨s', e, he⟩ := mkref_run href2 (.mod n) s
    have hnew : s.objs.contains (.mod n) = false := hnew trivial
    rw [if_neg (by rw [hnew]; simp)] at he
    have hp : Post w cfg root E d op (.module n) s' := by
      have h0 := (hstay (fun a h => by cases h)).post
      subst he
      refine ⟨h0.depth, h0.cache, fun id hi => ?_, fun a ha => List.mem_append_left _ (h0.reg a ha)⟩
      rcases List.mem_append.1 hi with hi | hi
      · exact h0.objs id hi
      · exact .inl (List.mem_singleton.1 hi)
    refine ⟨s', ?_, hp⟩
    show refObjInstance cfg (.mod n) false (flattenModule w cfg n) s = _
    unfold refObjInstance flattenModule level
    by_cases hu : cfg.unpicklable = true
    · simp only [hu, if_true]
      rw [bind_ok e]
      rfl
    · obtain ⟨t, ht⟩ := g.pystr (.module n)
      simp only [hu, Bool.false_eq_true, if_false, ht]
      rw [bind_ok em]
      have ec : inCycle (.mod n) false false false s = some (.ok false, s) := by
        unfold inCycle
        rw [hnew]
        rfl
      rw [bind_ok ec]
      simp only [Bool.false_eq_true, if_false]
      rw [bind_ok e]
      rfl
  | tuple i xs =>
    obtain ⟨s2, e2, h2⟩ := hmap xs (fun y hy => .inl (.tuple hy)) s (hstay (fun a h => by cases h))
    refine ⟨s2, ?_, h2.post⟩
    unfold flattenBy level
    simp only
    rw [bind_ok e2]
    rfl
  | set i xs =>
    obtain ⟨s2, e2, h2⟩ := hmap xs (fun y hy => .inl (.set hy)) s (hstay (fun a h => by cases h))
    refine ⟨s2, ?_, h2.post⟩
    unfold flattenBy level
    simp only
    rw [bind_ok e2]
    rfl
  | ref a =>
    obtain ⟨o, ho, hk⟩ := g.cells a hx
    unfold flattenBy level
    simp only [ho]
    obtain ⟨s1, e1, h1⟩ := hmark a rfl
    rcases hk with ⟨xs, rfl⟩ | ⟨kvs, rfl⟩ | ⟨i, rfl⟩
    · obtain ⟨s2, e2, h2⟩ := hmap xs (fun y hy => .inl (.list ho hy)) s1 h1
      refine ⟨s2, ?_, h2.post⟩
      simp only
      rw [bind_ok e1]
      simp only [if_true]
      rw [bind_ok e2]
      rfl
    · have hm : ∀ k v, (k, v) ∈ kvs → (Touches w.heap (.ref a) k ∨ Scalar k) ∧ (Touches w.heap (.ref a) v ∨ Scalar v) :=
        fun k v hkv => ⟨.inl (.dictKey ho hkv), .inl (.dictVal ho hkv)⟩
      have hk : kept [] kvs = kvs := by
        unfold kept
        refine List.filter_eq_self.2 ?_
        rintro ⟨k, v⟩ _
        cases k <;> rfl
      have e := entries_gives (cfg := cfg) hfl g.repr hm [] []
      rw [hk] at e
      obtain ⟨s2, e2, h2⟩ := e s1 h1
      refine ⟨s2, ?_, h2.post⟩
      simp only
      rw [bind_ok e1]
      simp only [if_true]
      rw [bind_ok e2]
      rfl
    · have hp : Parts w (fun y => Touches w.heap (.ref a) y ∨ Scalar y) i := ⟨fun y hy => .inl (.inst ho hy), fun y hy => .inr hy⟩
      have hc := g.calm a i hx ho
      have hb := inst_gives (a := a) hfl g.repr g.pystr hp hc (by
        intro s hs
        obtain ⟨s', e, he⟩ := mkref_run href2 (.dictOf a) s
        exact ⟨s', e, he ▸ hs.foreign (fun y _ _ => by cases y <;> simp [Val.ident])⟩)
      obtain ⟨s2, e2, h2⟩ := hb s1 h1
      refine ⟨s2, ?_, h2.post⟩
      simp only
      unfold refObjInstance
      by_cases hu : cfg.unpicklable = true
      · rw [if_pos hu, bind_ok e1]
        exact e2
      · rw [if_neg hu, bind_ok em]
        have ec : inCycle (.addr a) i.info.isEnum false false s = some (.ok false, s) := by
          have hnew : s.objs.contains (.addr a) = false := hnew (by show cut w cfg a = true; unfold cut; rw [ho, Bool.or_true])
          unfold inCycle
          rw [hnew]
          rfl
        rw [bind_ok ec]
        simp only [Bool.false_eq_true, if_false]
        rw [bind_ok e1]
        exact e2

/-- the encoder on an object that is not registered, before the result is cached -/
theorem impl_gives (href : (cfg.unpicklable && cfg.makeRefs) = false) (hmax : cfg.maxDepth = none) (g : Shape w cfg root) {fl : Val → P Json} {x : Val} (hx : Within w.heap root x)
    (hns : ¬ Scalar x) {d : Int} {op : List Addr} {F : Val → Json}
    (hfl : ∀ y, Touches w.heap x y ∨ Scalar y → Gives (Inv w cfg root E (d + 1) (into (cut w cfg) x op)) (fl y) (F y)) {s : PState}
    (hs : Inv w cfg root E d op s) (hnew : Once w cfg x → s.objs.contains x.ident = false) (hnc : s.flattened.find? (fun p => p.1 == x.ident) = none) :
    ∃ s', flattenImpl w cfg fl x s = some (.ok (level w cfg F x), s') ∧
      (d = -1 → s = {} → s' = {}) ∧ (d ≠ -1 → Post w cfg root E d op x s') := by
  by_cases hb : (∃ i b, x = .bytes i b) ∨ ∃ i b, x = .bytearray i b
  · have hst : (∀ a, x ≠ .ref a) → Inv w cfg root E d (into (cut w cfg) x op) s := fun h =>
      hs.enter g hx hns hnc rfl rfl (fun id hi => .inl hi) (fun id hi => hi) (fun a ha => (h a ha).elim)
    rcases hb with ⟨i, b, rfl⟩ | ⟨i, b, rfl⟩ <;> exact ⟨s, rfl, fun _ h => h, fun _ => (hst (fun a h => by cases h)).post⟩
  · have hnb : ∀ i b, x ≠ .bytes i b ∧ x ≠ .bytearray i b := fun i b => ⟨fun h => hb (.inl ⟨i, b, h⟩), fun h => hb (.inr ⟨i, b, h⟩)⟩
    have e : flattenImpl w cfg fl x = (do push; let j ← flattenObj w cfg fl x; pop j) := by
      cases x <;> first | rfl | exact absurd trivial hns | exact absurd rfl (hnb _ _).1 | exact absurd rfl (hnb _ _).2
    let s1 : PState := { s with depth := s.depth + 1 }
    let s2 : PState := { s1 with seen := s1.seen ++ [x] }
    have h2 : Inv w cfg root E (d + 1) op s2 := ⟨by show s.depth + 1 = d + 1; rw [hs.depth], hs.cache, hs.objs, hs.reg⟩
    obtain ⟨s3, e3, h3⟩ := by_gives href hmax g hx hns hnb hfl h2 hnew hnc
    have eo : flattenObj w cfg fl x s1 = some (.ok (level w cfg F x), s3) := by
      unfold flattenObj flattenObjWith
      rw [bind_ok (a := ()) (s' := s2) rfl]
      have em : maxReached cfg s2 = some (.ok false, s2) := by
        unfold maxReached; rw [hmax]; rfl
      rw [bind_ok em]
      have ec : inCycle x.ident (isEnumV w x) false cfg.makeRefs s2 = some (.ok false, s2) := by
        unfold inCycle
        cases hr : cfg.makeRefs
        · have : s2.objs.contains x.ident = false := hnew (by cases x <;> first | trivial | (show cut w cfg _ = true; unfold cut; rw [hr]; rfl))
          rw [this]
          simp
        · simp
      unfold PyM.tryCatch
      rw [bind_ok ec]
      simp only [Bool.false_eq_true, if_false]
      rw [e3]
    rw [e, bind_ok (a := ()) (s' := s1) rfl, bind_ok eo]
    have hd : s3.depth - 1 = d := by rw [h3.depth]; omega
    unfold pop
    by_cases hm : d = -1
    · refine ⟨{}, ?_, fun _ _ => rfl, fun h => absurd hm h⟩
      simp only [hd, hm]
      rfl
    · refine ⟨{ s3 with depth := s3.depth - 1 }, ?_, fun h => absurd h hm, fun _ => ⟨hd, h3.cache, h3.objs, h3.reg⟩⟩
      have : (s3.depth - 1 == -1) = false := by rw [hd]; simpa using hm
      simp only [this, Bool.false_eq_true, if_false]

/-- an object in progress is cut -/
theorem impl_met (href : (cfg.unpicklable && cfg.makeRefs) = false) (hmax : cfg.maxDepth = none) (g : Shape w cfg root) {fl : Val → P Json} {a : Addr} (hcut : cut w cfg a = true)
    (hen : ∀ i, w.heap[a]? = some (.inst i) → i.info.isEnum = false) {d : Int} (hd : d ≠ -1) {op : List Addr} (ha : a ∈ op) {s : PState} (hs : Inv w cfg root E d op s) :
    ∃ s', flattenImpl w cfg fl (.ref a) s = some (.ok (cutDoc w cfg (.ref a)), s') ∧ Inv w cfg root E d op s' ∧ s'.flattened = s.flattened := by
  let s1 : PState := { s with depth := s.depth + 1 }
  let s2 : PState := { s1 with seen := s1.seen ++ [.ref a] }
  have e : flattenImpl w cfg fl (.ref a) = (do push; let j ← flattenObj w cfg fl (.ref a); pop j) := rfl
  have em : maxReached cfg s2 = some (.ok false, s2) := by
    unfold maxReached; rw [hmax]; rfl
  have hobj : s2.objs.contains (Ident.addr a) = true := List.contains_iff_mem.2 (hs.reg a ha)
  have eo : flattenObj w cfg fl (.ref a) s1 = some (.ok (cutDoc w cfg (.ref a)), s2) := by
    unfold flattenObj flattenObjWith
    rw [bind_ok (a := ()) (s' := s2) rfl]
    rw [bind_ok em]
    have hne : isEnumV w (.ref a) = false := by
      unfold isEnumV
      simp only
      cases ho : w.heap[a]? with
      | none => rfl
      | some o => cases o with
        | inst i => exact hen i ho
        | _ => rfl
    unfold PyM.tryCatch cutDoc
    cases hr : cfg.makeRefs
    · obtain ⟨t, ht⟩ := g.repr (.ref a)
      have ec : inCycle (Val.ref a).ident (isEnumV w (.ref a)) false false s2 = some (.ok true, s2) := by
        have : s2.objs.contains (Val.ref a).ident = true := hobj
        unfold inCycle
        rw [this, hne]
        rfl
      rw [bind_ok ec]
      simp only [if_true, Bool.false_eq_true, if_false, ht]
      rfl
    · have ec : inCycle (Val.ref a).ident (isEnumV w (.ref a)) false true s2 = some (.ok false, s2) := by
        unfold inCycle
        simp
      rw [bind_ok ec]
      have hu : cfg.unpicklable = false := by
        rw [hr, Bool.and_true] at href
        exact href
      simp only [Bool.false_eq_true, if_false, if_true]
      obtain ⟨i, ho⟩ : ∃ i, w.heap[a]? = some (.inst i) := by
        unfold cut at hcut
        rw [hr] at hcut
        cases ho : w.heap[a]? with
        | none => rw [ho] at hcut; cases hcut
        | some o => cases o with
          | inst i => exact ⟨i, rfl⟩
          | _ => rw [ho] at hcut; cases hcut
      have ec : inCycle (.addr a) i.info.isEnum false false s2 = some (.ok true, s2) := by
        unfold inCycle
        rw [hobj, hen i ho]
        rfl
      have eb : flattenBy w cfg fl (.ref a) s2 = some (.ok .null, s2) := by
        unfold flattenBy
        simp only [ho]
        unfold refObjInstance
        rw [if_neg (by rw [hu]; simp), bind_ok em, bind_ok ec]
        rfl
      rw [eb]
  rw [e, bind_ok (a := ()) (s' := s1) rfl, bind_ok eo]
  have hd' : s2.depth - 1 = d := by show s.depth + 1 - 1 = d; rw [hs.depth]; omega
  refine ⟨{ s2 with depth := s2.depth - 1 }, ?_, ⟨hd', hs.cache, hs.objs, hs.reg⟩, rfl⟩
  unfold pop
  have : (s2.depth - 1 == -1) = false := by rw [hd']; simpa using hd
  simp only [this, Bool.false_eq_true, if_false]

theorem occurs_cut {op : List Addr} {x : Val} (ho : Occurs w.heap (cut w cfg) [] root op x) : ∀ a ∈ op, cut w cfg a = true := by
  induction ho with
  | self => intro a ha; cases ha
  | step _ _ _ ih =>
    intro a ha
    rcases mem_into.1 ha with ⟨_, h⟩ | ha
    · exact h
    · exact ih a ha

theorem find_cons {l : List (Ident × Json)} {i k : Ident} {j : Json} : ((k, j) :: l).find? (fun p => p.1 == i) = if k = i then some (k, j) else l.find? (fun p => p.1 == i) := by
  rw [List.find?_cons]
  by_cases h : k = i
  · simp [h]
  · have : (k == i) = false := by simpa using h
    simp only [this, if_neg h]

theorem step_gives (href : (cfg.unpicklable && cfg.makeRefs) = false) (hmax : cfg.maxDepth = none) (g : Shape w cfg root) (hen : NoEnum w.heap (cut w cfg) root) (hco : ∀ x op op', Occurs w.heap (cut w cfg) [] root op x →
      Occurs w.heap (cut w cfg) [] root op' x → met op x = false → met op' x = false → E op x = E op' x) {fl : Val → P Json} {x : Val} {op : List Addr} (ho : Occurs w.heap (cut w cfg) [] root op x)
    (hE : E op x = if met op x then cutDoc w cfg x else level w cfg (E (into (cut w cfg) x op)) x) {d : Int} (hd : d ≠ -1)
    (hfl : ¬ Scalar x → met op x = false → ∀ y, Touches w.heap x y ∨ Scalar y → Gives (Inv w cfg root E (d + 1) (into (cut w cfg) x op)) (fl y) (E (into (cut w cfg) x op) y)) :
    Gives (Inv w cfg root E d op) (flattenStep w cfg fl x) (E op x) := by
  have hx := ho.within
  by_cases hns : Scalar x
  · rw [hE]
    intro s hs
    refine ⟨s, ?_, hs⟩
    cases x <;> first | rfl | cases hns
  · intro s hs
    rw [step_eq hns]
    unfold cached
    rw [if_neg (by rw [href]; simp), bind_ok (a := s) (s' := s) rfl]
    cases hf : s.flattened.find? (fun p => p.1 == x.ident) with
    | some p =>
      obtain ⟨h1, h2⟩ := hs.cache x hx hns p hf
      refine ⟨s, ?_, hs⟩
      have : p.2 = E op x := by
        by_cases hm : met op x = true
        · rw [hE, if_pos hm]; exact h1 hm
        · rw [Bool.not_eq_true] at hm
          exact h2 hm op ho hm
      simp only [this]
      rfl
    | none =>
      by_cases hm : met op x = true
      · cases x with
        | ref a =>
          have ha : a ∈ op := by simpa [met] using hm
          obtain ⟨s1, e1, h1, hfl1⟩ := impl_met (fl := fl) href hmax g (occurs_cut ho a ha) (fun i hi => hen op a i ho ha hi) hd ha hs
          refine ⟨{ s1 with flattened := (.addr a, cutDoc w cfg (.ref a)) :: s1.flattened }, ?_, h1.depth, ?_, ?_, h1.reg⟩
          · simp only
            rw [bind_ok e1, hE, if_pos hm]
            rfl
          · intro y hy hys p hp
            simp only at hp
            rw [find_cons] at hp
            split at hp
            · rename_i hid
              have : y = .ref a := g.ids y (.ref a) hy hx hys hid.symm
              subst this
              injection hp with hp
              subst hp
              exact ⟨fun _ => rfl, fun h => by rw [hm] at h; cases h⟩
            · exact h1.cache y hy hys p hp
          · intro id hi
            rcases h1.objs id hi with ⟨p, hp⟩ | h | h
            · refine .inl ?_
              simp only
              rw [find_cons]
              split
              · exact ⟨_, rfl⟩
              · exact ⟨p, hp⟩
            · exact .inr (.inl h)
            · exact .inr (.inr h)
        | _ => cases hm
      · rw [Bool.not_eq_true] at hm
        have hnew : Once w cfg x → s.objs.contains x.ident = false := by
          intro hon
          cases hc : s.objs.contains x.ident with
          | false => rfl
          | true =>
            rw [List.contains_iff_mem] at hc
            rcases hs.objs _ hc with ⟨p, hp⟩ | ⟨a, hid, ha⟩ | h
            · rw [hf] at hp; cases hp
            · exfalso
              cases x with
              | ref b =>
                injection hid with hid
                subst hid
                have hon : cut w cfg b = true := hon
                have ha : b ∈ op := ha.resolve_right (by rw [hon]; simp)
                have : met op (.ref b) = true := by simpa [met] using ha
                rw [hm] at this; cases this
              | _ => cases hid
            · exact absurd rfl (h x hx hns)
        obtain ⟨s1, e1, _, h1⟩ := impl_gives href hmax g hx hns (hfl hns hm) hs hnew hf
        have h1 := h1 hd
        have hE' : E op x = level w cfg (E (into (cut w cfg) x op)) x := by rw [hE, if_neg (by rw [hm]; simp)]
        refine ⟨{ s1 with flattened := (x.ident, level w cfg (E (into (cut w cfg) x op)) x) :: s1.flattened }, ?_, h1.depth, ?_, ?_, h1.reg⟩
        · simp only
          rw [bind_ok e1, hE']
          rfl
        · intro y hy hys p hp
          simp only at hp
          rw [find_cons] at hp
          split at hp
          · rename_i hid
            have : y = x := g.ids y x hy hx hys hid.symm
            subst this
            injection hp with hp
            subst hp
            refine ⟨(fun h => by rw [hm] at h; cases h), fun _ op' ho' hm' => ?_⟩
            show level w cfg (E (into (cut w cfg) y op)) y = E op' y
            rw [← hE']
            exact hco y op op' ho ho' hm hm'
          · rename_i hid
            exact h1.cache y hy hys (fun h => hid h.symm) p hp
        · intro id hi
          simp only
          rw [find_cons]
          by_cases hid : x.ident = id
          · rw [if_pos hid]; exact .inl ⟨_, rfl⟩
          · rw [if_neg hid]
            rcases h1.objs id hi with h | h | h | h
            · exact absurd h.symm hid
            · exact .inl h
            · exact .inr (.inl h)
            · exact .inr (.inr h)

theorem scalar_gives {I : PState → Prop} {m : Nat} {op : List Addr} {y : Val} (hs : Scalar y) (hE : E op y = level w cfg (E op) y) (hm : 0 < m) :
    Gives I (flatten w cfg m y) (E op y) := by
  obtain ⟨m, rfl⟩ : ∃ k, m = k + 1 := ⟨m - 1, by omega⟩
  rw [hE]
  intro s hs'
  refine ⟨s, ?_, hs'⟩
  unfold flatten
  cases y <;> first | rfl | cases hs

theorem flatten_gives (href : (cfg.unpicklable && cfg.makeRefs) = false) (hmax : cfg.maxDepth = none) (g : Shape w cfg root) (hen : NoEnum w.heap (cut w cfg) root)
    (hco : ∀ x op op', Occurs w.heap (cut w cfg) [] root op x → Occurs w.heap (cut w cfg) [] root op' x → met op x = false → met op' x = false → E op x = E op' x)
    (hE : ∀ op x, Occurs w.heap (cut w cfg) [] root op x → E op x = if met op x then cutDoc w cfg x else level w cfg (E (into (cut w cfg) x op)) x)
    (hE' : ∀ op x, Scalar x → E op x = level w cfg (E op) x) : ∀ {n : Nat} {op : List Addr} {x : Val}, Occurs w.heap (cut w cfg) [] root op x → Ends w.heap (cut w cfg) n op x →
    ∀ {m : Nat}, n < m → ∀ {d : Int}, 0 ≤ d → Gives (Inv w cfg root E d op) (flatten w cfg m x) (E op x)
  | 0, _, _, _, hb, _, _, _, _ => by cases hb
  | n + 1, op, x, ho, hb, m, hm, d, hd => by
    obtain ⟨m, rfl⟩ : ∃ k, m = k + 1 := ⟨m - 1, by omega⟩
    refine step_gives href hmax g hen hco ho (hE op x ho) (by omega) ?_
    rintro hns hmet y (hy | hy)
    · rcases hb with hb | hb
      · rw [hmet] at hb; cases hb
      · exact flatten_gives href hmax g hen hco hE hE' (.step ho hmet hy) (hb y hy) (by omega) (by omega)
    · exact scalar_gives hy (hE' _ y hy) (by omega)

/-- The whole call, from a new state. -/
theorem flatten_root (href : (cfg.unpicklable && cfg.makeRefs) = false) (hmax : cfg.maxDepth = none) (g : Shape w cfg root) (hen : NoEnum w.heap (cut w cfg) root)
    (hco : ∀ x op op', Occurs w.heap (cut w cfg) [] root op x → Occurs w.heap (cut w cfg) [] root op' x → met op x = false → met op' x = false → E op x = E op' x)
    (hE : ∀ op x, Occurs w.heap (cut w cfg) [] root op x → E op x = if met op x then cutDoc w cfg x else level w cfg (E (into (cut w cfg) x op)) x)
    (hE' : ∀ op x, Scalar x → E op x = level w cfg (E op) x) {n : Nat} (hb : Ends w.heap (cut w cfg) n [] root) {m : Nat} (hm : n < m) :
    flatten w cfg m root {} = some (.ok (E [] root), if root.ident.isScalar = true then {} else { flattened := [(root.ident, E [] root)] }) := by
  obtain ⟨m, rfl⟩ : ∃ k, m = k + 1 := ⟨m - 1, by omega⟩
  by_cases hns : Scalar root
  · rw [hE' _ _ hns]
    unfold flatten
    cases root <;> first | rfl | cases hns
  · have hi : ¬ root.ident.isScalar = true := by
      cases root <;> first | exact absurd trivial hns | (simp [Val.ident, Ident.isScalar])
    have hmet : met [] root = false := by cases root <;> rfl
    rw [if_neg hi]
    unfold flatten
    rw [step_eq hns]
    unfold cached
    rw [if_neg (by rw [href]; simp), bind_ok (a := ({} : PState)) (s' := {}) rfl]
    have h0 : Inv w cfg root E (-1) [] ({} : PState) := ⟨rfl, (fun x _ _ p hp => by cases hp), (fun i hi => by cases hi), (fun a ha => by cases ha)⟩
    obtain ⟨s1, e1, h1, _⟩ := impl_gives (fl := flatten w cfg m) href hmax g (x := root) .self hns (d := -1) (op := []) (F := E (into (cut w cfg) root [])) (by
      rintro y (hy | hy)
      · obtain ⟨n, rfl⟩ : ∃ k, n = k + 1 := ⟨n - 1, by cases n with | zero => cases hb | succ n => omega⟩
        rcases hb with hb | hb
        · rw [hmet] at hb; cases hb
        · exact flatten_gives href hmax g hen hco hE hE' (.step .self hmet hy) (hb y hy) (by omega) (by omega)
      · have hn : 0 < n := by cases n with | zero => cases hb | succ n => omega
        exact scalar_gives hy (hE' _ y hy) (by omega)) h0 (fun _ => rfl) rfl
    have := h1 rfl rfl
    subst this
    show (flattenImpl w cfg (flatten w cfg m) root >>= fun j => PyM.modify (fun s => { s with flattened := (root.ident, j) :: s.flattened }) >>= fun _ => pure j) ({} : PState) = _
    have hr : E [] root = level w cfg (E (into (cut w cfg) root [])) root := by
      rw [hE _ _ .self, if_neg (by rw [hmet]; simp)]
    rw [bind_ok (a := E [] root) (s' := ({} : PState)) ?_]
    · rfl
    · rw [hr]; exact e1

end
end JP.Cycle
