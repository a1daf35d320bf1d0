import Verif.TreeSpec
import Verif.JsonSpec
import Verif.Pickler
import Verif.Proofs.Term
/-!
# Flattening data that is a JSON tree

`Spells h v j as` (TreeSpec) with different addresses `as`: every object is met for the first time, so that the
encoder never writes a reference and never takes a cached result.
-/
namespace JP.Pickler
open JP PyM

/-- what is known from the state `s` about the state `s'` after the objects `as` were written -/
structure Wrote (as : List Addr) (s s' : PState) : Prop where
  depth : s'.depth = s.depth
  objs : ∀ i ∈ s'.objs, i ∈ s.objs ∨ ∃ a ∈ as, i = .addr a
  flat : ∀ p ∈ s'.flattened, p ∈ s.flattened ∨ ∃ a ∈ as, p.1 = .addr a

/-- none of the objects was met before -/
structure Unmet (as : List Addr) (s : PState) : Prop where
  objs : ∀ a ∈ as, Ident.addr a ∉ s.objs
  flat : ∀ p ∈ s.flattened, ∀ a ∈ as, p.1 ≠ .addr a

theorem Wrote.refl (s : PState) : Wrote [] s s := ⟨rfl, fun _ h => .inl h, fun _ h => .inl h⟩

theorem Wrote.trans {as bs : List Addr} {s s1 s2 : PState} (h : Wrote as s s1) (h' : Wrote bs s1 s2) : Wrote (as ++ bs) s s2 := by
  refine ⟨h'.depth.trans h.depth, fun i hi => ?_, fun p hp => ?_⟩
  · rcases h'.objs i hi with hi | ⟨a, ha, e⟩
    · rcases h.objs i hi with hi | ⟨a, ha, e⟩
      · exact .inl hi
      · exact .inr ⟨a, List.mem_append_left _ ha, e⟩
    · exact .inr ⟨a, List.mem_append_right _ ha, e⟩
  · rcases h'.flat p hp with hi | ⟨a, ha, e⟩
    · rcases h.flat p hi with hi | ⟨a, ha, e⟩
      · exact .inl hi
      · exact .inr ⟨a, List.mem_append_left _ ha, e⟩
    · exact .inr ⟨a, List.mem_append_right _ ha, e⟩

theorem Unmet.left {as bs : List Addr} {s : PState} (h : Unmet (as ++ bs) s) : Unmet as s :=
  ⟨fun a ha => h.objs a (List.mem_append_left _ ha), fun p hp a ha => h.flat p hp a (List.mem_append_left _ ha)⟩

theorem Unmet.right {as bs : List Addr} {s s1 : PState} (h : Unmet (as ++ bs) s) (hd : (as ++ bs).Nodup) (hw : Wrote as s s1) : Unmet bs s1 := by
  have hdis : ∀ a ∈ as, ∀ b ∈ bs, a ≠ b := (List.nodup_append.1 hd).2.2
  refine ⟨fun b hb hm => ?_, fun p hp b hb e => ?_⟩
  · rcases hw.objs _ hm with hm | ⟨a, ha, e⟩
    · exact h.objs b (List.mem_append_right _ hb) hm
    · cases e
      exact hdis b ha b hb rfl
  · rcases hw.flat _ hp with hm | ⟨a, ha, e'⟩
    · exact h.flat p hm b (List.mem_append_right _ hb) e
    · rw [e] at e'
      cases e'
      exact hdis b ha b hb rfl

/-- `x`, started at depth `k`, writes `j`, meeting the objects `as` -/
def Writes (k : Int) (as : List Addr) {α : Type} (x : P α) (j : α) : Prop :=
  ∀ s : PState, s.depth = k → Unmet as s → ∃ s', x s = some (.ok j, s') ∧ Wrote as s s'

theorem Writes.pure {k : Int} {α : Type} (j : α) : Writes k [] (Pure.pure j) j := fun s _ _ => ⟨s, rfl, .refl s⟩

theorem Writes.bind {k : Int} {as bs : List Addr} (hd : (as ++ bs).Nodup) {α β : Type} {x : P α} {f : α → P β} {a : α} {b : β} (hx : Writes k as x a)
    (hf : Writes k bs (f a) b) : Writes k (as ++ bs) (x >>= f) b := by
  intro s hs hu
  obtain ⟨s1, h1, w1⟩ := hx s hs hu.left
  obtain ⟨s2, h2, w2⟩ := hf s1 (by rw [w1.depth]; exact hs) (hu.right hd w1)
  exact ⟨s2, (bind_ok h1).trans h2, w1.trans w2⟩

theorem Writes.map {k : Int} {as : List Addr} (hd : as.Nodup) {α β : Type} {x : P α} {f : α → P β} {a : α} {b : β} (hx : Writes k as x a) (hf : f a = Pure.pure b) :
    Writes k as (x >>= f) b := by
  have := Writes.bind (bs := []) (f := f) (b := b) (by simpa using hd) hx (by rw [hf]; exact .pure b)
  simpa using this

theorem try_ok {α : Type} {x : P α} {p : Exc → Bool} {f : Exc → P α} {s s' : PState} {a : α} (h : x s = some (.ok a, s')) :
    PyM.tryCatch x p f s = some (.ok a, s') := by
  simp only [PyM.tryCatch, h]

theorem cached_writes {cfg : PCfg} {k : Int} {a : Addr} {as : List Addr} {x : P Json} {j : Json} (key : Writes k (a :: as) x j) :
    Writes k (a :: as) (cached cfg (.addr a) x) j := by
  unfold cached
  by_cases hr : (cfg.unpicklable && cfg.makeRefs) = true
  · rw [if_pos hr]
    exact key
  · rw [if_neg hr]
    intro s hs hu
    obtain ⟨s1, h1, w1⟩ := key s hs hu
    have hf : s.flattened.find? (fun p => p.1 == Ident.addr a) = none := by
      rw [List.find?_eq_none]
      intro p hp
      simp only [beq_iff_eq]
      exact hu.flat p hp a List.mem_cons_self
    refine ⟨{ s1 with flattened := (.addr a, j) :: s1.flattened }, ?_, w1.depth, w1.objs, fun p hp => ?_⟩
    · refine (bind_ok (get_run s)).trans ?_
      rw [hf]
      refine (bind_ok h1).trans ?_
      exact (bind_ok (modify_run _ _)).trans rfl
    · rcases List.mem_cons.1 hp with rfl | hp
      · exact .inr ⟨a, List.mem_cons_self, rfl⟩
      · exact w1.flat p hp

/-- one container: cache, depth, `_seen`, registration -/
theorem level_writes {w : World} {cfg : PCfg} {k : Int} (hmax : cfg.maxDepth ≠ some (k + 1)) {a : Addr} {as : List Addr} (hd : (a :: as).Nodup) {rep : Except Exc Str}
    {body : Bool → P Json} {j : Json} (hb : Writes (k + 1) as (body true) j) {seenV : Val} :
    Writes k (a :: as) (cached cfg (.addr a) (do
      push
      let j ← flattenObjWith cfg seenV (.addr a) false rep (do
        let new ← mkref cfg (.addr a)
        body new)
      pop j)) j := by
  have key : Writes k (a :: as) (do
      push
      let j ← flattenObjWith cfg seenV (.addr a) false rep (do
        let new ← mkref cfg (.addr a)
        body new)
      pop j) j := by
    intro s hs hu
    have hna : Ident.addr a ∉ s.objs := hu.objs a List.mem_cons_self
    have hnd : a ∉ as := (List.nodup_cons.1 hd).1
    let s1 : PState := { s with depth := s.depth + 1, seen := s.seen ++ [seenV], objs := s.objs ++ [.addr a] }
    have hu1 : Unmet as s1 := by
      refine ⟨fun b hb hm => ?_, fun p hp b hb => hu.flat p hp b (List.mem_cons_of_mem _ hb)⟩
      rcases List.mem_append.1 hm with hm | hm
      · exact hu.objs b (List.mem_cons_of_mem _ hb) hm
      · rw [List.mem_singleton] at hm
        cases hm
        exact hnd hb
    obtain ⟨s2, h2, w2⟩ := hb s1 (show s.depth + 1 = k + 1 by omega) hu1
    have hc : s.objs.contains (Ident.addr a) = false := by
      rw [Bool.eq_false_iff]
      intro h
      exact hna (List.contains_iff_mem.1 h)
    have hmk : mkref cfg (.addr a) { s with depth := s.depth + 1, seen := s.seen ++ [seenV] } = some (.ok true, s1) := by
      unfold mkref
      refine (bind_ok (a := true) (s' := s1) ?_).trans ?_
      · simp only [logRef]
        rw [hc]
        rfl
      · simp [pure_run]
    have hin : flattenObjWith cfg seenV (.addr a) false rep (mkref cfg (.addr a) >>= body) { s with depth := s.depth + 1 } = some (.ok j, s2) := by
      unfold flattenObjWith
      refine (bind_ok (modify_run _ _)).trans ?_
      refine (bind_ok (gets_run _ _)).trans ?_
      have hmax' : (some (s.depth + 1) == cfg.maxDepth) = false := by
        rw [hs]
        exact beq_eq_false_iff_ne.2 (Ne.symm hmax)
      simp only [hmax']
      refine try_ok ?_
      refine (bind_ok (a := false) (s' := { s with depth := s.depth + 1, seen := s.seen ++ [seenV] }) ?_).trans ?_
      · simp only [inCycle]
        rw [hc]
        simp
      · exact (bind_ok hmk).trans h2
    have hdep : s2.depth - 1 = s.depth := by
      rw [w2.depth]
      show s.depth + 1 - 1 = s.depth
      omega
    refine ⟨if s.depth == -1 then {} else { s2 with depth := s.depth }, ?_, ?_⟩
    · refine (bind_ok (modify_run _ _)).trans ?_
      refine (bind_ok hin).trans ?_
      simp only [pop, hdep]
    · by_cases he : s.depth = -1
      · rw [if_pos (by simpa using he)]
        exact ⟨he.symm, (fun _ h => by cases h), (fun _ h => by cases h)⟩
      · rw [if_neg (by simpa using he)]
        refine ⟨rfl, fun i hi => ?_, fun p hp => ?_⟩
        · rcases w2.objs i hi with h | ⟨b, hb, e⟩
          · rcases List.mem_append.1 h with h | h
            · exact .inl h
            · exact .inr ⟨a, List.mem_cons_self, List.mem_singleton.1 h⟩
          · exact .inr ⟨b, List.mem_cons_of_mem _ hb, e⟩
        · rcases w2.flat p hp with h | ⟨b, hb, e⟩
          · exact .inl h
          · exact .inr ⟨b, List.mem_cons_of_mem _ hb, e⟩
  exact cached_writes key

/-- a container at the limit -/
theorem level_cut {cfg : PCfg} {k : Int} (hmax : cfg.maxDepth = some (k + 1)) {a : Addr} {r : Str} {body : P Json} {seenV : Val} :
    Writes k [a] (cached cfg (.addr a) (do
      push
      let j ← flattenObjWith cfg seenV (.addr a) false (.ok r) body
      pop j)) (.str r) := by
  refine cached_writes (fun s hs _ => ?_)
  have hin : flattenObjWith cfg seenV (.addr a) false (.ok r) body { s with depth := s.depth + 1 }
      = some (.ok (.str r), { s with depth := s.depth + 1, seen := s.seen ++ [seenV] }) := by
    unfold flattenObjWith
    refine (bind_ok (modify_run _ _)).trans ?_
    refine (bind_ok (gets_run _ _)).trans ?_
    have hmax' : (some (s.depth + 1) == cfg.maxDepth) = true := by rw [hs, hmax]; exact beq_self_eq_true _
    simp only [hmax']
    refine try_ok ?_
    refine (bind_ok (a := true) (s' := { s with depth := s.depth + 1, seen := s.seen ++ [seenV] }) ?_).trans rfl
    simp [inCycle]
  have hdep : s.depth + 1 - 1 = s.depth := by omega
  refine ⟨if s.depth == -1 then {} else { s with seen := s.seen ++ [seenV] }, ?_, ?_⟩
  · refine (bind_ok (modify_run _ _)).trans ?_
    refine (bind_ok hin).trans ?_
    simp only [pop, hdep]
  · by_cases he : s.depth = -1
    · rw [if_pos (by simpa using he)]
      exact ⟨he.symm, (fun _ h => by cases h), (fun _ h => by cases h)⟩
    · rw [if_neg (by simpa using he)]
      exact ⟨rfl, (fun _ h => .inl h), (fun _ h => .inl h)⟩

/-- no key that the encoder would drop or escape -/
def KeyOk (cfg : PCfg) (k : Str) : Prop := Tags.isReserved k = false ∧ (cfg.keys = true → startsWith k Tags.JSON_KEY = false)

theorem spells_not_lambda {rep : Val → Except Exc Str} {h : Heap} {d : Option Nat} {v : Val} {j : Json} {as : List Addr} (hs : SpellsTo rep h d v j as) : ∀ n, v ≠ .lambda n := by
  intro n e
  cases j <;> simp only [SpellsTo] at hs
  case arr xs => obtain ⟨_, _, _, _, rfl, _⟩ := hs; cases e
  case obj xs => obtain ⟨_, _, _, _, rfl, _⟩ := hs; cases e
  case str s =>
    rcases hs with ⟨rfl, _⟩ | ⟨_, _, _, _, rfl, _⟩
    · cases e
    · cases e
  all_goals obtain ⟨rfl, _⟩ := hs; cases e

/-- one entry of a dict -/
def flattenEntry (w : World) (cfg : PCfg) (fl : Val → P Json) (k v : Val) (d : List (Str × Json)) : P (List (Str × Json)) :=
  if cfg.keys then flattenString w cfg fl k v d else flattenKeyValuePair w fl k v d

theorem flattenEntry_str {w : World} {cfg : PCfg} {fl : Val → P Json} {k : Str} {v : Val} (hk : KeyOk cfg k) (hv : ∀ n, v ≠ .lambda n)
    {d : List (Str × Json)} (hd : k ∉ d.map (·.1)) : flattenEntry w cfg fl (.str k) v d = fl v >>= fun j => Pure.pure (d ++ [(k, j)]) := by
  have hp : isPicklable (.str k) v = true := by
    simp only [isPicklable, hk.1]
    cases v with
    | lambda n => exact absurd rfl (hv n)
    | _ => rfl
  have hset : ∀ j : Json, dset k j d = d ++ [(k, j)] := fun j => dset_of_not_mem k j d hd
  unfold flattenEntry
  by_cases hc : cfg.keys = true
  · have hne : needsEscape k = false := by
      simp only [needsEscape, hk.1, hk.2 hc]
      rfl
    rw [if_pos hc]
    simp only [flattenString, hne, hc, flattenStringTail, hp, hset]
    rfl
  · rw [if_neg hc]
    unfold flattenKeyValuePair
    rw [if_pos hp]
    funext s
    refine (bind_ok (ofExcept_run _ _)).trans ?_
    simp only [hset]

theorem nonString_skip {w : World} {cfg : PCfg} {fl : Val → P Json} {k : Str} {v : Val} {d : List (Str × Json)} :
    flattenNonString w cfg fl (.str k) v d = Pure.pure d := by
  unfold flattenNonString
  split <;> rfl

theorem entries_str {w : World} {cfg : PCfg} {fl : Val → P Json} {es : List (Val × Val)} (hes : ∀ e ∈ es, ∃ k, e.1 = .str k) :
    flattenEntries w cfg fl es [] [] = foldM (fun d (kv : Val × Val) => flattenEntry w cfg fl kv.1 kv.2 d) [] es := by
  have hx : itemsExcl [] es = es := by
    unfold itemsExcl
    rw [List.filter_eq_self]
    intro e he
    obtain ⟨k, hk⟩ := hes e he
    rw [hk]
    rfl
  have hskip : ∀ (l : List (Val × Val)), (∀ e ∈ l, ∃ k, e.1 = .str k) → ∀ d, foldM (fun d (kv : Val × Val) => flattenNonString w cfg fl kv.1 kv.2 d) d l = Pure.pure d := by
    intro l
    induction l with
    | nil => intro _ _; rfl
    | cons e l ih =>
      intro hl d
      rw [foldM_cons]
      obtain ⟨k, hk⟩ := hl e List.mem_cons_self
      rw [hk, nonString_skip]
      funext s
      refine (bind_ok (pure_run _ _)).trans ?_
      rw [ih (fun e he => hl e (List.mem_cons_of_mem _ he))]
  unfold flattenEntries flattenEntry
  simp only [hx]
  by_cases hc : cfg.keys = true
  · simp only [hc, if_true]
    funext s
    rw [bind_run]
    cases h : foldM (fun d (kv : Val × Val) => flattenString w cfg fl kv.1 kv.2 d) [] es s with
    | none => rfl
    | some r =>
      obtain ⟨r, s'⟩ := r
      cases r with
      | error e => rfl
      | ok d => simp only [hskip es hes d]; rfl
  · simp only [hc]
    rfl

theorem spellsEntries_str {rep : Val → Except Exc Str} {h : Heap} {d : Option Nat} : ∀ {es : List (Val × Val)} {xs : List (Str × Json)} {as : List Addr}, SpellsToEntries rep h d es xs as → ∀ e ∈ es, ∃ k, e.1 = .str k
  | _, [], _, hs, e, he => by obtain ⟨rfl, _⟩ := hs; cases he
  | _, (k, x) :: xs, _, hs, e, he => by
    obtain ⟨v, es', bs, cs, rfl, _, h2, _⟩ := hs
    rcases List.mem_cons.1 he with rfl | he
    · exact ⟨k, rfl⟩
    · exact spellsEntries_str h2 e he

section
mutual
/-- Data that is not deeper than the limit is not cut. -/
theorem spells_to (rep : Val → Except Exc Str) {h : Heap} {d : Option Nat} : ∀ {j : Json} {v : Val} {as : List Addr},
    (∀ m, d = some m → j.depth ≤ m) → Spells h v j as → SpellsTo rep h d v j as
  | .null, _, _, _, hs => hs
  | .bool _, _, _, _, hs => hs
  | .int _, _, _, _, hs => hs
  | .float _, _, _, _, hs => hs
  | .str _, _, _, _, hs => .inl hs
  | .arr xs, _, _, hd, hs => by
    obtain ⟨a, vs, bs, h1, h2, h3, h4⟩ := hs
    have hd0 : ∀ m, d = some m → Json.depthL xs + 1 ≤ m := fun m hm => by simpa [Json.depth, Nat.add_comm] using hd m hm
    refine ⟨fun e => ?_, a, vs, bs, h1, h2, spells_to_all rep ?_ h3, h4⟩
    · have := hd0 0 e
      omega
    · intro m hm
      obtain ⟨m', rfl, rfl⟩ := Option.map_eq_some_iff.1 hm
      have := hd0 m' rfl
      omega
  | .obj xs, _, _, hd, hs => by
    obtain ⟨a, vs, bs, h1, h2, h3, h4⟩ := hs
    have hd0 : ∀ m, d = some m → Json.depthKv xs + 1 ≤ m := fun m hm => by simpa [Json.depth, Nat.add_comm] using hd m hm
    refine ⟨fun e => ?_, a, vs, bs, h1, h2, spells_to_entries rep ?_ h3, h4⟩
    · have := hd0 0 e
      omega
    · intro m hm
      obtain ⟨m', rfl, rfl⟩ := Option.map_eq_some_iff.1 hm
      have := hd0 m' rfl
      omega
theorem spells_to_all (rep : Val → Except Exc Str) {h : Heap} {d : Option Nat} : ∀ {xs : List Json} {vs : List Val} {as : List Addr},
    (∀ m, d = some m → Json.depthL xs ≤ m) → SpellsAll h vs xs as → SpellsToAll rep h d vs xs as
  | [], _, _, _, hs => hs
  | x :: xs, _, _, hd, hs => by
    obtain ⟨v, vs', bs, cs, h1, h2, h3, h4⟩ := hs
    refine ⟨v, vs', bs, cs, h1, spells_to rep ?_ h2, spells_to_all rep ?_ h3, h4⟩
    all_goals
      intro m hm
      have := hd m hm
      simp only [Json.depthL] at this
      omega
theorem spells_to_entries (rep : Val → Except Exc Str) {h : Heap} {d : Option Nat} : ∀ {xs : List (Str × Json)} {es : List (Val × Val)} {as : List Addr},
    (∀ m, d = some m → Json.depthKv xs ≤ m) → SpellsEntries h es xs as → SpellsToEntries rep h d es xs as
  | [], _, _, _, hs => hs
  | (k, x) :: xs, _, _, hd, hs => by
    obtain ⟨v, vs', bs, cs, h1, h2, h3, h4⟩ := hs
    refine ⟨v, vs', bs, cs, h1, spells_to rep ?_ h2, spells_to_entries rep ?_ h3, h4⟩
    all_goals
      intro m hm
      have := hd m hm
      simp only [Json.depthKv] at this
      omega
end

variable {w : World} {cfg : PCfg}

/-- from depth `k` on there are `d` levels -/
def Levels (cfg : PCfg) (k : Int) (d : Option Nat) : Prop := cfg.maxDepth = d.map (fun m => k + 1 + (m : Int))

theorem Levels.at {k : Int} (h : Levels cfg k (some 0)) : cfg.maxDepth = some (k + 1) := by simpa [Levels] using h
theorem Levels.above {k : Int} {d : Option Nat} (h : Levels cfg k d) (hd : d ≠ some 0) : cfg.maxDepth ≠ some (k + 1) := by
  unfold Levels at h
  rw [h]
  cases d with
  | none => simp
  | some m =>
    have : m ≠ 0 := fun e => hd (by rw [e])
    simp
    omega
theorem Levels.next {k : Int} {d : Option Nat} (h : Levels cfg k d) (hd : d ≠ some 0) : Levels cfg (k + 1) (d.map (· - 1)) := by
  unfold Levels at *
  rw [h]
  cases d with
  | none => rfl
  | some m =>
    have : m ≠ 0 := fun e => hd (by rw [e])
    simp
    omega

mutual
theorem writes_tree {k : Int} {d : Option Nat} (hmax : Levels cfg k d) : ∀ {j : Json} (n : Nat) {v : Val} {as : List Addr}, SpellsTo w.repr w.heap d v j as → as.Nodup →
    (∀ k ∈ j.keys, KeyOk cfg k) → j.Distinct → j.depth + 1 ≤ n → Writes k as (flatten w cfg n v) j
  | _, 0, _, _, _, _, _, _, h => by omega
  | .null, n + 1, _, _, hs, _, _, _, _ => by obtain ⟨rfl, rfl⟩ := hs; exact Writes.pure _
  | .bool _, n + 1, _, _, hs, _, _, _, _ => by obtain ⟨rfl, rfl⟩ := hs; exact Writes.pure _
  | .int _, n + 1, _, _, hs, _, _, _, _ => by obtain ⟨rfl, rfl⟩ := hs; exact Writes.pure _
  | .float _, n + 1, _, _, hs, _, _, _, _ => by obtain ⟨rfl, rfl⟩ := hs; exact Writes.pure _
  | .str _, n + 1, _, _, hs, _, _, _, _ => by
    rcases hs with ⟨rfl, rfl⟩ | ⟨rfl, ⟨a, o, rfl, ho, hlo⟩, hr, a', ha, rfl⟩
    · exact Writes.pure _
    · injection ha with ha
      subst ha
      have he : isEnumV w (.ref a) = false := by
        rcases hlo with ⟨_, rfl⟩ | ⟨_, rfl⟩ <;> simp only [isEnumV, ho]
      show Writes k _ (cached cfg (.addr a) (do
        push
        let j ← flattenObjWith cfg (.ref a) (.addr a) (isEnumV w (.ref a)) (w.repr (.ref a)) (flattenBy w cfg (flatten w cfg n) (.ref a))
        pop j)) _
      rw [he, hr]
      exact level_cut hmax.at
  | .arr xs, n + 1, _, _, hs, hn, hk, hd, hlt => by
    obtain ⟨hd0, a, vs, bs, rfl, h1, h2, rfl⟩ := hs
    have hall := writes_all (hmax.next hd0) n h2 (List.nodup_cons.1 hn).2 hk hd (by simp only [Json.depth] at hlt; omega)
    have he : isEnumV w (.ref a) = false := by simp only [isEnumV, h1]
    show Writes k _ (cached cfg (.addr a) (do
      push
      let j ← flattenObjWith cfg (.ref a) (.addr a) (isEnumV w (.ref a)) (w.repr (.ref a)) (flattenBy w cfg (flatten w cfg n) (.ref a))
      pop j)) _
    rw [he]
    simp only [flattenBy, h1]
    refine level_writes (w := w) (hmax.above hd0) hn (body := fun new => if new then do
        let js ← mapM (flatten w cfg n) vs
        Pure.pure (.arr js)
      else getref (.addr a)) ?_
    exact hall.map (List.nodup_cons.1 hn).2 rfl
  | .obj xs, n + 1, _, _, hs, hn, hk, hd, hlt => by
    obtain ⟨hd0, a, es, bs, rfl, h1, h2, rfl⟩ := hs
    have hall := writes_entries (hmax.next hd0) n h2 (List.nodup_cons.1 hn).2 hk hd.2 (by simp only [Json.depth] at hlt; omega) [] (by simpa using hd.1)
    have he : isEnumV w (.ref a) = false := by simp only [isEnumV, h1]
    show Writes k _ (cached cfg (.addr a) (do
      push
      let j ← flattenObjWith cfg (.ref a) (.addr a) (isEnumV w (.ref a)) (w.repr (.ref a)) (flattenBy w cfg (flatten w cfg n) (.ref a))
      pop j)) _
    rw [he]
    simp only [flattenBy, h1]
    refine level_writes (w := w) (hmax.above hd0) hn (body := fun new => if new then do
        let d ← flattenEntries w cfg (flatten w cfg n) es [] []
        Pure.pure (.obj d)
      else getref (.addr a)) ?_
    rw [entries_str (spellsEntries_str h2)]
    exact hall.map (List.nodup_cons.1 hn).2 rfl
theorem writes_all {k : Int} {d : Option Nat} (hmax : Levels cfg k d) : ∀ {xs : List Json} (n : Nat) {vs : List Val} {as : List Addr}, SpellsToAll w.repr w.heap d vs xs as → as.Nodup →
    (∀ k ∈ Json.keysL xs, KeyOk cfg k) → Json.DistinctL xs → Json.depthL xs + 1 ≤ n → Writes k as (mapM (flatten w cfg n) vs) xs
  | [], n, _, _, hs, _, _, _, _ => by obtain ⟨rfl, rfl⟩ := hs; exact Writes.pure _
  | x :: xs, n, _, _, hs, hn, hk, hd, hlt => by
    obtain ⟨v, vs', bs, cs, rfl, h1, h2, rfl⟩ := hs
    simp only [Json.depthL] at hlt
    obtain ⟨hn1, hn2, _⟩ := List.nodup_append.1 hn
    have w1 := writes_tree hmax n h1 hn1 (fun k hk' => hk k (List.mem_append_left _ hk')) hd.1 (by omega)
    have w2 := writes_all hmax n h2 hn2 (fun k hk' => hk k (List.mem_append_right _ hk')) hd.2 (by omega)
    rw [mapM_cons]
    exact w1.bind hn (w2.map hn2 rfl)
theorem writes_entries {k : Int} {d : Option Nat} (hmax : Levels cfg k d) : ∀ {xs : List (Str × Json)} (n : Nat) {es : List (Val × Val)} {as : List Addr}, SpellsToEntries w.repr w.heap d es xs as → as.Nodup →
    (∀ k ∈ Json.keysKv xs, KeyOk cfg k) → Json.DistinctKv xs → Json.depthKv xs + 1 ≤ n → ∀ d : List (Str × Json), ((d ++ xs).map (·.1)).Nodup →
    Writes k as (foldM (fun d (kv : Val × Val) => flattenEntry w cfg (flatten w cfg n) kv.1 kv.2 d) d es) (d ++ xs)
  | [], n, _, _, hs, _, _, _, _, d, _ => by obtain ⟨rfl, rfl⟩ := hs; rw [List.append_nil]; exact Writes.pure _
  | (k, x) :: xs, n, _, _, hs, hn, hk, hd, hlt, d, hnd => by
    obtain ⟨v, vs', bs, cs, rfl, h1, h2, rfl⟩ := hs
    simp only [Json.depthKv] at hlt
    obtain ⟨hn1, hn2, _⟩ := List.nodup_append.1 hn
    have w1 := writes_tree hmax n h1 hn1 (fun k hk' => hk k (List.mem_cons_of_mem _ (List.mem_append_left _ hk'))) hd.1 (by omega)
    have e : d ++ (k, x) :: xs = (d ++ [(k, x)]) ++ xs := by simp
    have w2 := writes_entries hmax n h2 hn2 (fun k hk' => hk k (List.mem_cons_of_mem _ (List.mem_append_right _ hk'))) hd.2 (by omega) (d ++ [(k, x)])
      (by rw [← e]; exact hnd)
    have hkd : k ∉ d.map (·.1) := by
      intro hm
      rw [List.map_append, List.nodup_append] at hnd
      exact hnd.2.2 k hm k (by simp) rfl
    rw [foldM_cons, e, flattenEntry_str (hk k List.mem_cons_self) (spells_not_lambda h1) hkd]
    exact Writes.bind hn (a := d ++ [(k, x)]) (w1.map hn1 rfl) w2
end
end

end JP.Pickler
