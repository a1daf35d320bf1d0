import Verif.ShareSpec
import Verif.JsonSpec
import Verif.Properties
import Verif.Proofs.PCongr
/-!
# The encoder on a value that shares nothing with what was encoded before
-/
namespace JP.Share
open JP PyM Pickler

variable {α β γ δ : Type}

theorem bumps_eq (k : Nat) (xs : List Json) : bumps k xs = xs.map (bump k) := by
  induction xs with
  | nil => rfl
  | cons x xs ih => simp [bumps, ih]

theorem named_sub {x : Val} {xs : List Val} (h : x ∈ xs) : ∀ i ∈ named x, i ∈ namedL xs := by
  induction xs with
  | nil => cases h
  | cons y ys ih =>
    intro i hi
    rw [namedL, List.mem_append]
    rcases List.mem_cons.1 h with rfl | h
    · exact .inl hi
    · exact .inr (ih h i hi)

mutual
theorem bump_free (k : Nat) : ∀ j : Json, Tags.ID ∉ j.keys → bump k j = j
  | .arr xs, h => by rw [bump, bumps_free k xs (by simpa [Json.keys] using h)]
  | .obj kvs, h => by rw [bump, bumpKv_free k kvs (by simpa [Json.keys] using h)]
  | .null, _ => rfl
  | .bool _, _ => rfl
  | .int _, _ => rfl
  | .float _, _ => rfl
  | .str _, _ => rfl
theorem bumps_free (k : Nat) : ∀ xs : List Json, Tags.ID ∉ Json.keysL xs → bumps k xs = xs
  | [], _ => rfl
  | x :: xs, h => by
    simp only [Json.keysL, List.mem_append, not_or] at h
    rw [bumps, bump_free k x h.1, bumps_free k xs h.2]
theorem bumpKv_free (k : Nat) : ∀ kvs : List (Str × Json), Tags.ID ∉ Json.keysKv kvs → bumpKv k kvs = kvs
  | [], _ => rfl
  | (t, x) :: xs, h => by
    simp only [Json.keysKv, List.mem_cons, List.mem_append, not_or] at h
    have ht : ¬ t = p!"py/id" := fun e => h.1 e.symm
    rw [bumpKv, if_neg ht, bump_free k x h.2.1, bumpKv_free k xs h.2.2]
end

/-- everything the value names is in `A` -/
def In (A : Ident → Prop) (v : Val) : Prop := ∀ i ∈ named v, A i

/-- with an object, everything found in it is in `A` -/
def Closed (w : World) (A : Ident → Prop) : Prop := ∀ a, A (.addr a) → ∀ i ∈ found w a, A i

theorem In.mem {A : Ident → Prop} {xs : List Val} (h : ∀ i ∈ namedL xs, A i) {x : Val} (hx : x ∈ xs) : In A x :=
  fun i hi => h i (named_sub hx i hi)

/-- the left table is the right one, made of objects in `A`, after `old`; neither counter is at the top -/
structure St (A : Ident → Prop) (old : List Ident) (s t : PState) : Prop where
  objs : s.objs = old ++ t.objs
  mine : ∀ i ∈ t.objs, A i
  left : 0 ≤ s.depth
  right : 0 ≤ t.depth

def Rel (R : α → β → Prop) : Except Exc α → Except Exc β → Prop
  | .ok a, .ok b => R a b
  | .error e, .error e' => e = e'
  | _, _ => False

/-- `x` does after `old` what `y` does alone -/
def Sim (A : Ident → Prop) (old : List Ident) (R : α → β → Prop) (x : P α) (y : P β) : Prop := ∀ s t, St A old s t →
  (x s = none ∧ y t = none) ∨ ∃ r r' s' t', x s = some (r, s') ∧ y t = some (r', t') ∧ Rel R r r' ∧ St A old s' t' ∧ s.depth ≤ s'.depth ∧ t.depth ≤ t'.depth

variable {A : Ident → Prop} {old : List Ident}

/-- documents -/
def D (k : Nat) (a b : Json) : Prop := a = bump k b
def DL (k : Nat) (a b : List Json) : Prop := a = b.map (bump k)
/-- objects under construction -/
def T (k : Nat) (d d' : List (Str × Json)) : Prop := d = bumpKv k d' ∧ ∀ kv ∈ d', kv.1 ≠ Tags.ID

namespace Sim

theorem done {R : α → β → Prop} {x : P α} {y : P β} {r : Except Exc α} {r' : Except Exc β} (h : Rel R r r') (hx : ∀ s, x s = some (r, s))
    (hy : ∀ s, y s = some (r', s)) : Sim A old R x y := fun s t hs =>
  .inr ⟨r, r', s, t, hx s, hy t, h, hs, Int.le_refl _, Int.le_refl _⟩

theorem pure {R : α → β → Prop} {a : α} {b : β} (h : R a b) : Sim A old R (Pure.pure a : P α) (Pure.pure b : P β) :=
  done (r := .ok a) (r' := .ok b) h (fun _ => rfl) (fun _ => rfl)
theorem throw {R : α → β → Prop} (e : Exc) : Sim A old R (PyM.throw e : P α) (PyM.throw e : P β) :=
  done (r := .error e) (r' := .error e) rfl (fun _ => rfl) (fun _ => rfl)
theorem same (x : Except Exc α) : Sim A old (fun a b => a = b ∧ x = .ok a) (PyM.ofExcept x : P α) (PyM.ofExcept x : P α) := by
  cases x with
  | error e => exact throw e
  | ok a => exact pure ⟨rfl, rfl⟩

theorem bind {R : α → β → Prop} {B : γ → δ → Prop} {x : P α} {y : P β} {f : α → P γ} {g : β → P δ} (h : Sim A old R x y)
    (hf : ∀ a b, R a b → Sim A old B (f a) (g b)) : Sim A old B (x >>= f) (y >>= g) := by
  intro s t hs
  simp only [bind_run]
  rcases h s t hs with ⟨h1, h2⟩ | ⟨r, r', s', t', h1, h2, h3, h4, h5, h6⟩
  · rw [h1, h2]; exact .inl ⟨rfl, rfl⟩
  · rw [h1, h2]
    cases r with
    | error e =>
      cases r' with
      | ok b => exact h3.elim
      | error e' => exact .inr ⟨.error e, .error e', s', t', rfl, rfl, h3, h4, h5, h6⟩
    | ok a =>
      cases r' with
      | error e' => exact h3.elim
      | ok b =>
        rcases hf a b h3 s' t' h4 with ⟨g1, g2⟩ | ⟨q, q', s2, t2, g1, g2, g3, g4, g5, g6⟩
        · exact .inl ⟨g1, g2⟩
        · exact .inr ⟨q, q', s2, t2, g1, g2, g3, g4, by omega, by omega⟩

theorem tryCatch {R : α → β → Prop} {x : P α} {y : P β} {p : Exc → Bool} {f : Exc → P α} {g : Exc → P β} (h : Sim A old R x y)
    (hf : ∀ e, Sim A old R (f e) (g e)) : Sim A old R (PyM.tryCatch x p f) (PyM.tryCatch y p g) := by
  intro s t hs
  unfold PyM.tryCatch
  rcases h s t hs with ⟨h1, h2⟩ | ⟨r, r', s', t', h1, h2, h3, h4, h5, h6⟩
  · rw [h1, h2]; exact .inl ⟨rfl, rfl⟩
  · rw [h1, h2]
    cases r with
    | ok a =>
      cases r' with
      | error e' => exact h3.elim
      | ok b => exact .inr ⟨.ok a, .ok b, s', t', rfl, rfl, h3, h4, h5, h6⟩
    | error e =>
      cases r' with
      | ok b => exact h3.elim
      | error e' =>
        have h3 : e = e' := h3
        subst h3
        simp only
        split
        · rcases hf e s' t' h4 with ⟨g1, g2⟩ | ⟨q, q', s2, t2, g1, g2, g3, g4, g5, g6⟩
          · exact .inl ⟨g1, g2⟩
          · exact .inr ⟨q, q', s2, t2, g1, g2, g3, g4, by omega, by omega⟩
        · exact .inr ⟨.error e, .error e, s', t', rfl, rfl, rfl, h4, h5, h6⟩

theorem ite {R : α → β → Prop} {x1 x2 : P α} {y1 y2 : P β} {c : Bool} (h1 : c = true → Sim A old R x1 y1) (h2 : c = false → Sim A old R x2 y2) :
    Sim A old R (if c then x1 else x2) (if c then y1 else y2) := by
  cases hc : c with
  | true => exact h1 hc
  | false => exact h2 hc

theorem mapM {k : Nat} {f g : Val → P Json} : ∀ xs : List Val, (∀ v ∈ xs, Sim A old (D k) (f v) (g v)) → Sim A old (DL k) (PyM.mapM f xs) (PyM.mapM g xs)
  | [], _ => Sim.pure rfl
  | x :: xs, h => by
    rw [mapM_cons, mapM_cons]
    refine (h x (List.mem_cons_self ..)).bind (fun a b hab => (Sim.mapM xs (fun v hv => h v (List.mem_cons_of_mem _ hv))).bind (fun as bs hs => Sim.pure ?_))
    unfold DL D at *
    rw [List.map_cons, hab, hs]

theorem foldM {R : α → β → Prop} {f : α → γ → P α} {g : β → γ → P β} : ∀ (xs : List γ) {a : α} {b : β}, R a b →
    (∀ x ∈ xs, ∀ a b, R a b → Sim A old R (f a x) (g b x)) → Sim A old R (PyM.foldM f a xs) (PyM.foldM g b xs)
  | [], _, _, h, _ => Sim.pure h
  | x :: xs, a, b, h, hf => by
    rw [foldM_cons, foldM_cons]
    exact (hf x (List.mem_cons_self ..) a b h).bind (fun a' b' h' => Sim.foldM xs h' (fun y hy => hf y (List.mem_cons_of_mem _ hy)))

/-- one more object, not among the old ones -/
theorem mkref (cfg : PCfg) {id : Ident} (ha : A id) (hi : id ∉ old) : Sim A old (· = ·) (Pickler.mkref cfg id) (Pickler.mkref cfg id) := by
  refine Sim.bind (R := (· = ·)) (fun s t hs => .inr ?_) (fun a b e => Sim.pure (by rw [e]))
  have hc : s.objs.contains id = t.objs.contains id := by
    rw [hs.objs, Bool.eq_iff_iff]
    simp [hi]
  unfold logRef
  rw [hc]
  split
  · exact ⟨_, _, s, t, rfl, rfl, rfl, hs, Int.le_refl _, Int.le_refl _⟩
  · exact ⟨_, _, _, _, rfl, rfl, rfl, ⟨by simp [hs.objs], fun i hi => (by rcases List.mem_append.1 hi with hi | hi; exact hs.mine i hi; rw [List.mem_singleton.1 hi]; exact ha), hs.left, hs.right⟩, Int.le_refl _, Int.le_refl _⟩

theorem getref {id : Ident} (hi : id ∉ old) : Sim A old (D old.length) (Pickler.getref id) (Pickler.getref id) := by
  intro s t hs
  refine .inr ⟨_, _, s, t, rfl, rfl, ?_, hs, Int.le_refl _, Int.le_refl _⟩
  have hc : s.objs.contains id = t.objs.contains id := by
    rw [hs.objs, Bool.eq_iff_iff]
    simp [hi]
  show _ = bump _ _
  rw [hc]
  cases h : t.objs.contains id with
  | false => rfl
  | true =>
    show Json.obj [(Tags.ID, .int (s.objs.idxOf id))] = .obj [(Tags.ID, .int (t.objs.idxOf id + old.length))]
    rw [hs.objs, List.idxOf_append, if_neg hi]
    simp

/-- a whole level -/
theorem wrap {x y : P Json} {k : Nat} (h : Sim A old (D k) x y) :
    Sim A old (D k) (Pickler.push >>= fun _ => x >>= fun j => Pickler.pop j) (Pickler.push >>= fun _ => y >>= fun j => Pickler.pop j) := by
  intro s t hs
  simp only [Pickler.push, bind_run, modify_run]
  have hl := hs.left
  have hr := hs.right
  rcases h { s with depth := s.depth + 1 } { t with depth := t.depth + 1 } ⟨hs.objs, hs.mine, by simp only; omega, by simp only; omega⟩ with ⟨h1, h2⟩ | ⟨r, r', s', t', h1, h2, h3, h4, h5, h6⟩
  · rw [h1, h2]; exact .inl ⟨rfl, rfl⟩
  · rw [h1, h2]
    simp only at h5 h6
    cases r with
    | error e =>
      cases r' with
      | ok b => exact h3.elim
      | error e' => exact .inr ⟨.error e, .error e', s', t', rfl, rfl, h3, h4, by omega, by omega⟩
    | ok a =>
      cases r' with
      | error e' => exact h3.elim
      | ok b =>
        refine .inr ⟨.ok a, .ok b, { s' with depth := s'.depth - 1 }, { t' with depth := t'.depth - 1 }, ?_, ?_, h3, ⟨h4.objs, h4.mine, by simp only; omega, by simp only; omega⟩, by simp only; omega, by simp only; omega⟩
        · simp only [Pickler.pop]
          rw [if_neg (by simp; omega)]
        · simp only [Pickler.pop]
          rw [if_neg (by simp; omega)]

end Sim

/-! ### objects under construction -/

theorem T.nil {k : Nat} : T k [] [] := ⟨rfl, fun _ h => by cases h⟩

theorem T.doc {k : Nat} {d d' : List (Str × Json)} (h : T k d d') : D k (.obj d) (.obj d') := by
  unfold D
  rw [h.1, bump]

theorem doc_arr {k : Nat} {xs xs' : List Json} (h : DL k xs xs') : D k (.arr xs) (.arr xs') := by
  unfold D
  rw [h, bump, bumps_eq]

theorem T.put {k : Nat} {d d' : List (Str × Json)} {t : Str} {j j' : Json} (h : T k d d') (ht : t ≠ Tags.ID) (hj : D k j j') :
    T k (dset t j d) (dset t j' d') := by
  obtain ⟨rfl, hd⟩ := h
  unfold D at hj
  subst hj
  have ht' : ¬ t = p!"py/id" := ht
  induction d' with
  | nil =>
    refine ⟨?_, fun kv hkv => ?_⟩
    · simp only [bumpKv, dset]
      rw [if_neg ht']
    · simp only [dset, List.mem_cons, List.not_mem_nil, or_false] at hkv
      rw [hkv]; exact ht
  | cons e d' ih =>
    obtain ⟨t2, x⟩ := e
    have hd2 := hd (t2, x) (List.mem_cons_self ..)
    obtain ⟨ih1, ih2⟩ := ih (fun kv hkv => hd kv (List.mem_cons_of_mem _ hkv))
    by_cases hk : t2 = t
    · subst hk
      refine ⟨?_, fun kv hkv => ?_⟩
      · simp only [bumpKv, dset, beq_self_eq_true, if_true]
        rw [if_neg ht']
      · simp only [dset, beq_self_eq_true, if_true] at hkv
        rcases List.mem_cons.1 hkv with rfl | hkv
        · exact ht
        · exact hd kv (List.mem_cons_of_mem _ hkv)
    · refine ⟨?_, fun kv hkv => ?_⟩
      · simp only [bumpKv, dset, beq_iff_eq, hk, if_false]
        rw [ih1]
      · simp only [dset, beq_iff_eq, hk, if_false] at hkv
        rcases List.mem_cons.1 hkv with rfl | hkv
        · exact hd2
        · exact ih2 kv hkv

theorem T.has {k : Nat} {d d' : List (Str × Json)} (h : T k d d') (t : Str) : dhas t d = dhas t d' := by
  obtain ⟨rfl, -⟩ := h
  induction d' with
  | nil => rfl
  | cons e d' ih =>
    obtain ⟨t2, x⟩ := e
    simp only [dhas, bumpKv, dget] at ih ⊢
    split
    · rfl
    · exact ih

theorem T.isEmpty {k : Nat} {d d' : List (Str × Json)} (h : T k d d') : d.isEmpty = d'.isEmpty := by
  obtain ⟨rfl, -⟩ := h
  cases d' <;> rfl

/-! ### the functions of the encoder -/

/-- what is fixed: the options and the user's code -/
structure Rules (w : World) (cfg : PCfg) : Prop where
  unp : cfg.unpicklable = true
  refs : cfg.makeRefs = true
  keys : cfg.keys = false
  depth : cfg.maxDepth = none
  repr : ∀ v, w.repr v ≠ .ok Tags.ID ∧ w.pystr v ≠ .ok Tags.ID
  field : ∀ (a : Addr) (i : Inst) (kv : Str × Val), w.heap[a]? = some (.inst i) → kv ∈ i.hfields → kv.1 ≠ Tags.ID
  safe : ∀ f e j, cfg.failSafe = some f → f e = .ok j → Tags.ID ∉ j.keys

variable {w : World} {cfg : PCfg} {fl : Val → P Json}
variable (H : Rules w cfg) (hc : Closed w A) (ho : ∀ i, A i → i ∉ old) (hfl : ∀ v, In A v → Sim A old (D old.length) (fl v) (fl v))

theorem id_reserved : Tags.isReserved Tags.ID = true := by decide +kernel

include H in
theorem reprKey_ne {k v : Val} {t : Str} (hp : isPicklable k v = true) (h : reprKey w k = .ok t) : t ≠ Tags.ID := by
  rintro rfl
  unfold reprKey at h
  cases k with
  | none => injection h with h; revert h; decide +kernel
  | str s =>
    injection h with h
    subst h
    simp only [isPicklable, id_reserved] at hp
    cases hp
  | _ =>
    dsimp only at h
    split at h
    · rename_i hr
      injection h with h
      subst h
      exact (H.repr _).1 hr
    · split at h
      · exact (H.repr _).2 h
      · cases h

include H hfl in
theorem sim_kvp {k v : Val} (hv : In A v) {d d' : List (Str × Json)} (h : T old.length d d') :
    Sim A old (T old.length) (flattenKeyValuePair w fl k v d) (flattenKeyValuePair w fl k v d') := by
  unfold flattenKeyValuePair
  refine Sim.ite (fun hp => ?_) (fun _ => Sim.pure h)
  refine (Sim.same _).bind (fun t t' e => ?_)
  obtain ⟨rfl, e⟩ := e
  exact (hfl v hv).bind (fun j j' hj => Sim.pure (h.put (reprKey_ne H hp e) hj))

include H hfl in
theorem sim_entries {kvs : List (Val × Val)} {ex : List Str} (hv : ∀ kv ∈ kvs, In A kv.2) {d d' : List (Str × Json)} (h : T old.length d d') :
    Sim A old (T old.length) (flattenEntries w cfg fl kvs ex d) (flattenEntries w cfg fl kvs ex d') := by
  unfold flattenEntries
  rw [H.keys]
  simp only [Bool.false_eq_true, if_false]
  exact Sim.foldM _ h (fun kv hkv _ _ h => sim_kvp H hfl (hv kv (List.mem_filter.1 hkv).1) h)

include H hfl in
theorem sim_clone {x : Val} (hx : In A x) : Sim A old (D old.length) (flattenClone w cfg fl x) (flattenClone w cfg fl x) := by
  unfold flattenClone
  refine (sim_entries H hfl (fun kv hkv => ?_) ?_).bind (fun _ _ h => Sim.pure h.doc)
  · rw [List.mem_singleton.1 hkv]; exact hx
  · rw [H.unp]
    exact ⟨rfl, fun kv hkv => by rw [List.mem_singleton.1 hkv]; show Tags.OBJECT ≠ Tags.ID; decide +kernel⟩

include H hfl ho in
theorem sim_factory {f : Val} {o : Option Exc} {x : Val} (hf : A f.ident) (hx : In A x) :
    Sim A old (D old.length) (flattenFactory w cfg fl f (outcome o x)) (flattenFactory w cfg fl f (outcome o x)) := by
  have step : Sim A old (D old.length) (do
      let new ← mkref cfg f.ident
      if new then do
        let x ← PyM.ofExcept (outcome o x)
        flattenClone w cfg fl x
      else getref f.ident) (do
      let new ← mkref cfg f.ident
      if new then do
        let x ← PyM.ofExcept (outcome o x)
        flattenClone w cfg fl x
      else getref f.ident) := by
    refine (Sim.mkref cfg hf (ho _ hf)).bind (fun a b e => ?_)
    subst e
    refine Sim.ite (fun _ => ?_) (fun _ => Sim.getref (ho _ hf))
    refine (Sim.same _).bind (fun a b e => ?_)
    obtain ⟨rfl, e⟩ := e
    have : a = x := by
      cases o with
      | none => injection e with e; exact e.symm
      | some e' => cases e
    subst this
    exact sim_clone H hfl hx
  unfold flattenFactory
  cases f with
  | type n => exact Sim.pure rfl
  | _ => exact step

/-- what is known of an instance whose address is in `A` -/
structure Inside (A : Ident → Prop) (w : World) (a : Addr) (i : Inst) : Prop where
  dictOf : A (.dictOf a)
  stateOf : A (.stateOf a)
  cell : ∀ d, i.dictCell = some d → A (.addr d)
  factory : ∀ f, i.factory = some f → A f.ident
  vals : ∀ v ∈ valuesOf i, In A v
  field : ∀ kv ∈ i.hfields, kv.1 ≠ Tags.ID

include H hc in
theorem inside {a : Addr} {i : Inst} (ha : A (.addr a)) (hi : w.heap[a]? = some (.inst i)) : Inside A w a i := by
  have h := hc a ha
  unfold found at h
  rw [hi] at h
  simp only [List.mem_append] at h
  refine ⟨h _ (.inl (.inl (.inl (by simp)))), h _ (.inl (.inl (.inl (by simp)))), fun d hd => h _ (.inl (.inl (.inr (by simp [hd])))),
    fun f hf => h _ (.inl (.inr (by simp [hf]))), fun v hv => In.mem (fun i hi => h i (.inr hi)) hv, fun kv hkv => H.field a i kv hi hkv⟩

theorem Inside.attrs {a : Addr} {i : Inst} (h : Inside A w a i) {kv : Str × Val} (hk : kv ∈ i.attrs) : In A kv.2 :=
  h.vals _ (by unfold valuesOf; simp only [List.mem_append, List.mem_map]; exact .inl (.inl (.inl (.inl (.inl (.inl (.inl ⟨kv, hk, rfl⟩)))))))
theorem Inside.items {a : Addr} {i : Inst} (h : Inside A w a i) {kv : Val × Val} (hk : kv ∈ i.items) : In A kv.2 :=
  h.vals _ (by unfold valuesOf; simp only [List.mem_append, List.mem_map]; exact .inl (.inl (.inl (.inl (.inl (.inl (.inr ⟨kv, hk, rfl⟩)))))))
theorem Inside.elems {a : Addr} {i : Inst} (h : Inside A w a i) {v : Val} (hk : v ∈ i.elems) : In A v :=
  h.vals _ (by unfold valuesOf; simp only [List.mem_append]; exact .inl (.inl (.inl (.inl (.inl (.inr hk))))))
theorem Inside.dirAttrs {a : Addr} {i : Inst} (h : Inside A w a i) {kv : Str × Val} (hk : kv ∈ i.dirAttrs) : In A kv.2 :=
  h.vals _ (by unfold valuesOf; simp only [List.mem_append, List.mem_map]; exact .inl (.inl (.inl (.inl (.inr ⟨kv, hk, rfl⟩)))))
theorem Inside.hfields {a : Addr} {i : Inst} (h : Inside A w a i) {kv : Str × Val} (hk : kv ∈ i.hfields) : In A kv.2 :=
  h.vals _ (by unfold valuesOf; simp only [List.mem_append, List.mem_map]; exact .inl (.inl (.inl (.inr ⟨kv, hk, rfl⟩))))
theorem Inside.args {a : Addr} {i : Inst} (h : Inside A w a i) {v : Val} (hk : v ∈ [i.newargs, i.newargsEx.1, i.newargsEx.2, i.initargs, i.exemplar]) :
    In A v :=
  h.vals _ (by unfold valuesOf; simp only [List.mem_append]; exact .inl (.inl (.inr hk)))
theorem Inside.state {a : Addr} {i : Inst} (h : Inside A w a i) {v : Val} (hk : i.state = .ok v) : In A v :=
  h.vals _ (by unfold valuesOf; simp only [List.mem_append, hk]; exact .inl (.inr (List.mem_singleton.2 rfl)))
theorem Inside.reduceStr {a : Addr} {i : Inst} (h : Inside A w a i) {v : Val} (hk : i.reduce = .str (some v)) : In A v :=
  h.vals _ (by unfold valuesOf; simp only [List.mem_append, hk]; exact .inr (List.mem_singleton.2 rfl))
theorem Inside.reduceTup {a : Addr} {i : Inst} (h : Inside A w a i) {xs : List Val} (hk : i.reduce = .tup xs) {v : Val} (hv : v ∈ xs) : In A v :=
  h.vals _ (by unfold valuesOf; simp only [List.mem_append, hk]; exact .inr hv)

include hc in
theorem dict_in {a : Addr} {kvs : List (Val × Val)} (ha : A (.addr a)) (h : w.heap[a]? = some (.dict kvs)) : ∀ kv ∈ kvs, In A kv.2 := by
  intro kv hkv
  have hf := hc a ha
  unfold found at hf
  rw [h] at hf
  exact In.mem hf (List.mem_map.2 ⟨kv, hkv, rfl⟩)

include hc in
theorem dictItems_in {a : Addr} {i : Inst} (hi : Inside A w a i) : ∀ kv ∈ dictItems w i, In A kv.2 := by
  intro kv hkv
  unfold dictItems at hkv
  cases hd : i.dictCell with
  | none =>
    rw [hd] at hkv
    obtain ⟨e, he, rfl⟩ := List.mem_map.1 hkv
    exact hi.attrs he
  | some d =>
    rw [hd] at hkv
    dsimp only at hkv
    split at hkv
    · rename_i kvs hk
      exact dict_in hc (hi.cell d hd) hk kv hkv
    · cases hkv

theorem dictIdent_in {a : Addr} {i : Inst} (hi : Inside A w a i) : A (dictIdent a i) := by
  unfold dictIdent
  cases hd : i.dictCell with
  | none => exact hi.dictOf
  | some d => exact hi.cell d hd

include H ho hfl in
theorem sim_default {a : Addr} {i : Inst} (hi : Inside A w a i) {d d' : List (Str × Json)} (h : T old.length d d') :
    Sim A old (T old.length) (flattenDefault w cfg fl i.factory (outcome i.errs.factory i.exemplar) d)
      (flattenDefault w cfg fl i.factory (outcome i.errs.factory i.exemplar) d') := by
  unfold flattenDefault
  cases hf : i.factory with
  | none => exact Sim.pure h
  | some f =>
    dsimp only
    rw [h.has]
    refine (sim_factory H ho hfl (hi.factory f hf) (hi.args (by simp))).bind (fun j j' hj => Sim.pure ?_)
    cases dhas p!"default_factory" d' with
    | false => exact h.put (t := p!"default_factory") (by decide +kernel) hj
    | true => exact h.put (t := Tags.DEFAULT_FACTORY) (by decide +kernel) hj

include H hc ho hfl in
theorem sim_ownDict {a : Addr} {i : Inst} {ex : List Str} (hi : Inside A w a i) {d d' : List (Str × Json)} (h : T old.length d d') :
    Sim A old (T old.length) (flattenOwnDict w cfg fl a i ex d) (flattenOwnDict w cfg fl a i ex d') := by
  unfold flattenOwnDict
  refine Sim.ite (fun _ => ?_) (fun _ => Sim.pure h)
  refine (Sim.mkref cfg (dictIdent_in hi) (ho _ (dictIdent_in hi))).bind (fun x y e => ?_)
  subst e
  refine Sim.ite (fun _ => ?_) (fun _ => ?_)
  · exact (sim_entries H hfl (dictItems_in hc hi) T.nil).bind (fun dd dd' hd => Sim.pure (h.put (by decide +kernel) hd.doc))
  · exact (Sim.getref (ho _ (dictIdent_in hi))).bind (fun j j' hj => Sim.pure (h.put (by decide +kernel) hj))

include H hc ho hfl in
theorem sim_dictSub {a : Addr} {i : Inst} (hi : Inside A w a i) {d d' : List (Str × Json)} (h : T old.length d d') :
    Sim A old (T old.length) (flattenDictSub w cfg fl a i d) (flattenDictSub w cfg fl a i d') := by
  unfold flattenDictSub
  exact (sim_entries H hfl (fun kv hkv => hi.items hkv) h).bind (fun _ _ h => (sim_default H ho hfl hi h).bind (fun _ _ h => sim_ownDict H hc ho hfl hi h))

/-- a flag and data -/
def TB (k : Nat) (p p' : Bool × List (Str × Json)) : Prop := p.1 = p'.1 ∧ T k p.2 p'.2

theorem dget_mem {k : Str} {v : Val} : ∀ {l : List (Str × Val)}, dget k l = some v → ∃ kv ∈ l, kv.2 = v
  | [], h => by cases h
  | (k', v') :: r, h => by
    simp only [dget] at h
    split at h
    · injection h with h
      exact ⟨_, List.mem_cons_self .., h⟩
    · obtain ⟨kv, hk, e⟩ := dget_mem h
      exact ⟨kv, List.mem_cons_of_mem _ hk, e⟩

include H hfl in
theorem sim_objAttrs {i : Inst} {lk : List (Str × Val)} (hl : ∀ kv ∈ lk, In A kv.2) {ns : List Str} {d d' : List (Str × Json)} (h : T old.length d d') :
    Sim A old (TB old.length) (flattenObjAttrs w fl i lk ns d) (flattenObjAttrs w fl i lk ns d') := by
  unfold flattenObjAttrs
  refine Sim.foldM (R := TB old.length) ns ⟨rfl, h⟩ (fun k hk p p' hp => ?_)
  refine Sim.ite (fun _ => Sim.pure hp) (fun _ => ?_)
  refine Sim.tryCatch ?_ (fun _ => Sim.pure hp)
  refine (Sim.same _).bind (fun v v' e => ?_)
  obtain ⟨rfl, e⟩ := e
  refine Sim.bind (R := T old.length) (sim_kvp H hfl ?_ hp.2) (fun x y hxy => Sim.pure ⟨rfl, hxy⟩)
  split at e
  · rename_i v' hv
    injection e with e
    subst e
    obtain ⟨kv, hkv, rfl⟩ := dget_mem hv
    exact hl kv hkv
  · cases e

include H hfl in
theorem sim_slots {a : Addr} {i : Inst} (hi : Inside A w a i) {d d' : List (Str × Json)} (h : T old.length d d') :
    Sim A old (D old.length) (flattenSlots w fl i d) (flattenSlots w fl i d') := by
  unfold flattenSlots
  refine (sim_objAttrs H hfl (fun kv hkv => hi.attrs hkv) h).bind (fun p p' hp => ?_)
  obtain ⟨f, d⟩ := p
  obtain ⟨f', d'⟩ := p'
  obtain ⟨e, hp⟩ := hp
  dsimp only at e hp
  subst e
  refine Sim.ite (fun _ => Sim.pure hp.doc) (fun _ => ?_)
  exact (sim_objAttrs H hfl (fun kv hkv => hi.dirAttrs hkv) hp).bind (fun p p' hp => Sim.pure hp.2.doc)

include H hc hfl in
theorem sim_sequence {a : Addr} {i : Inst} (hi : Inside A w a i) {d d' : List (Str × Json)} (h : T old.length d d') :
    Sim A old (D old.length) (flattenSequence w cfg fl i d) (flattenSequence w cfg fl i d') := by
  unfold flattenSequence flattenSeqAttrs
  refine Sim.bind (R := T old.length) ?_ (fun d d' h => ?_)
  · exact Sim.ite (fun _ => sim_entries H hfl (dictItems_in hc hi) h) (fun _ => Sim.pure h)
  · refine (Sim.mapM _ (fun v hv => hfl v (hi.elems hv))).bind (fun js js' hj => ?_)
    refine Sim.ite (fun _ => Sim.pure ?_) (fun _ => Sim.pure (doc_arr hj))
    exact (h.put (t := Tags.SEQ) (by decide +kernel) (doc_arr hj)).doc

include H in
theorem sim_objWith {v : Val} {id : Ident} {en : Bool} {rep : Except Exc Str} {x : P Json} (h : Sim A old (D old.length) x x) :
    Sim A old (D old.length) (flattenObjWith cfg v id en rep x) (flattenObjWith cfg v id en rep x) := by
  unfold flattenObjWith
  refine Sim.bind (R := fun _ _ => True) (fun s t hs => .inr ⟨.ok (), .ok (), _, _, rfl, rfl, trivial, ⟨hs.objs, hs.mine, hs.left, hs.right⟩, Int.le_refl _, Int.le_refl _⟩) (fun _ _ _ => ?_)
  refine Sim.bind (R := fun a b => a = false ∧ b = false) (fun s t hs => .inr ⟨.ok false, .ok false, s, t, ?_, ?_, ⟨rfl, rfl⟩, hs, Int.le_refl _, Int.le_refl _⟩) (fun m m' e => ?_)
  · unfold maxReached; rw [H.depth]; rfl
  · unfold maxReached; rw [H.depth]; rfl
  obtain ⟨rfl, rfl⟩ := e
  refine Sim.tryCatch ?_ (fun e => ?_)
  · refine Sim.bind (R := fun a b => a = false ∧ b = false) (fun s t hs => .inr ⟨.ok false, .ok false, s, t, ?_, ?_, ⟨rfl, rfl⟩, hs, Int.le_refl _, Int.le_refl _⟩) (fun m m' e => ?_)
    · unfold inCycle; rw [H.refs]; rfl
    · unfold inCycle; rw [H.refs]; rfl
    obtain ⟨rfl, rfl⟩ := e
    exact h
  · cases hf : cfg.failSafe with
    | none => exact Sim.throw e
    | some f =>
      dsimp only
      cases hj : f e with
      | error e' => exact Sim.throw e'
      | ok j => exact Sim.pure (bump_free _ j (H.safe f e j hf hj)).symm

include H in
theorem cached_off (id : Ident) (x : P Json) : cached cfg id x = x := by
  unfold cached
  rw [H.unp, H.refs]
  rfl

include H ho hfl in
theorem sim_filteredState {a : Addr} {kvs : List (Val × Val)} {ex : List Str} (ha : A (.stateOf a)) (hk : ∀ kv ∈ kvs, In A kv.2) :
    Sim A old (D old.length) (flattenFilteredState w cfg fl a kvs ex) (flattenFilteredState w cfg fl a kvs ex) := by
  unfold flattenFilteredState
  rw [cached_off H]
  refine Sim.wrap (sim_objWith H ?_)
  refine (Sim.mkref cfg ha (ho _ ha)).bind (fun x y e => ?_)
  subst e
  refine Sim.ite (fun _ => ?_) (fun _ => Sim.getref (ho _ ha))
  exact (sim_entries H hfl (fun kv hkv => hk kv (List.mem_filter.1 hkv).1) T.nil).bind (fun dd dd' hd => Sim.pure hd.doc)

include H hc ho hfl in
theorem sim_rest {a : Addr} {i : Inst} (hi : Inside A w a i) {d d' : List (Str × Json)} (h : T old.length d d') :
    Sim A old (D old.length) (flattenRest w cfg fl a i d) (flattenRest w cfg fl a i d') := by
  unfold flattenRest
  cases i.info.base with
  | dict => exact (sim_dictSub H hc ho hfl hi h).bind (fun _ _ h => Sim.pure h.doc)
  | list => exact sim_sequence H hc hfl hi h
  | set => exact sim_sequence H hc hfl hi h
  | tuple => exact sim_sequence H hc hfl hi h
  | plain =>
    dsimp only
    refine Sim.ite (fun _ => ?_) (fun _ => Sim.ite (fun _ => ?_) (fun _ => Sim.ite (fun _ => ?_) (fun _ => ?_)))
    · refine (Sim.mapM _ (fun v hv => hfl v (hi.elems ?_))).bind (fun js js' hj => (Sim.same _).bind (fun _ _ _ => Sim.pure ?_))
      · unfold iterated at hv
        split at hv
        · exact hv
        · exact List.mem_of_mem_take hv
      · exact (h.put (t := Tags.ITERATOR) (by decide +kernel) (doc_arr hj)).doc
    · exact (sim_entries H hfl (dictItems_in hc hi) h).bind (fun _ _ h => Sim.pure h.doc)
    · exact sim_slots H hfl hi h
    · rw [h.isEmpty]
      refine Sim.ite (fun _ => Sim.pure h.doc) (fun _ => ?_)
      rw [H.unp]
      exact Sim.pure rfl

include H in
theorem putState_doc {d d' : List (Str × Json)} {k : Nat} {j j' : Json} (h : T k d d') (hj : D k j j') : D k (putState cfg j d) (putState cfg j' d') := by
  unfold putState
  rw [H.unp]
  exact (h.put (t := Tags.STATE) (by decide +kernel) hj).doc

include H hc ho hfl in
theorem sim_getstate {a : Addr} {i : Inst} (hi : Inside A w a i) {d d' : List (Str × Json)} (h : T old.length d d') :
    Sim A old (D old.length) (flattenGetstate w cfg fl a i d) (flattenGetstate w cfg fl a i d') := by
  have hr := sim_rest H hc ho hfl hi h
  unfold flattenGetstate
  refine Sim.ite (fun _ => ?_) (fun _ => hr)
  cases hst : i.state with
  | error e => exact Sim.ite (fun _ => Sim.pure rfl) (fun _ => Sim.throw e)
  | ok st =>
    have hin := hi.state hst
    dsimp only
    split
    · rename_i kvs hk
      refine Sim.ite (fun _ => hr) (fun _ => ?_)
      refine (sim_filteredState H ho hfl hi.stateOf ?_).bind (fun j j' hj => Sim.pure (putState_doc H h hj))
      cases st <;> simp only [reduceCtorEq] at hk
      rename_i d2
      cases hd : w.heap[d2]? with
      | none => rw [hd] at hk; cases hk
      | some o =>
        rw [hd] at hk
        cases o <;> simp only [reduceCtorEq] at hk
        split at hk
        · cases hk
        · injection hk with hk
          subst hk
          exact dict_in hc (hin _ (List.mem_singleton.2 rfl)) hd
    · refine Sim.ite (fun _ => ?_) (fun _ => hr)
      exact (hfl st hin).bind (fun j j' hj => Sim.pure (putState_doc H h hj))

include hfl in
theorem sim_newargs {a : Addr} {i : Inst} (hi : Inside A w a i) {d d' : List (Str × Json)} (h : T old.length d d') :
    Sim A old (T old.length) (flattenNewargs fl i d) (flattenNewargs fl i d') := by
  unfold flattenNewargs
  refine Sim.ite (fun _ => ?_) (fun _ => Sim.ite (fun _ => ?_) (fun _ => Sim.pure h))
  · refine (Sim.same _).bind (fun x y e => ?_)
    obtain ⟨rfl, e⟩ := e
    have : x = i.newargsEx := by
      cases ho : i.errs.newargsEx with
      | none => rw [ho] at e; injection e with e; exact e.symm
      | some e' => rw [ho] at e; cases e
    subst this
    refine (hfl _ (hi.args (by simp))).bind (fun j j' hj => (hfl _ (hi.args (by simp))).bind (fun k k' hk => Sim.pure ?_))
    refine h.put (t := Tags.NEWARGSEX) (by decide +kernel) (doc_arr ?_)
    unfold DL
    rw [hj, hk]
    rfl
  · refine (Sim.same _).bind (fun x y e => ?_)
    obtain ⟨rfl, e⟩ := e
    have : x = i.newargs := by
      cases ho : i.errs.newargs with
      | none => rw [ho] at e; injection e with e; exact e.symm
      | some e' => rw [ho] at e; cases e
    subst this
    exact (hfl _ (hi.args (by simp))).bind (fun j j' hj => Sim.pure (h.put (t := Tags.NEWARGS) (by decide +kernel) hj))

include hfl in
theorem sim_initargs {a : Addr} {i : Inst} (hi : Inside A w a i) {d d' : List (Str × Json)} (h : T old.length d d') :
    Sim A old (T old.length) (flattenInitargs fl i d) (flattenInitargs fl i d') := by
  unfold flattenInitargs
  refine Sim.ite (fun _ => ?_) (fun _ => Sim.pure h)
  refine (Sim.same _).bind (fun x y e => ?_)
  obtain ⟨rfl, e⟩ := e
  have : x = i.initargs := by
    cases ho : i.errs.initargs with
    | none => rw [ho] at e; injection e with e; exact e.symm
    | some e' => rw [ho] at e; cases e
  subst this
  exact (hfl _ (hi.args (by simp))).bind (fun j j' hj => Sim.pure (h.put (t := Tags.INITARGS) (by decide +kernel) hj))

include H in
theorem objTag_T (k : Nat) (i : Inst) : T k (objTag cfg i) (objTag cfg i) := by
  unfold objTag
  rw [H.unp]
  exact ⟨rfl, fun kv hkv => by rw [List.mem_singleton.1 hkv]; show Tags.OBJECT ≠ Tags.ID; decide +kernel⟩

include H hc ho hfl in
theorem sim_body {a : Addr} {i : Inst} (hi : Inside A w a i) : Sim A old (D old.length) (flattenBody w cfg fl a i) (flattenBody w cfg fl a i) := by
  unfold flattenBody
  exact (sim_newargs hfl hi (objTag_T H _ i)).bind (fun _ _ h => (sim_initargs hfl hi h).bind (fun _ _ h => sim_getstate H hc ho hfl hi h))

theorem isNull_bump (k : Nat) (j : Json) : isNullJ (bump k j) = isNullJ j := by cases j <;> rfl

theorem dropWhile_bump (k : Nat) (l : List Json) : (l.map (bump k)).dropWhile isNullJ = (l.dropWhile isNullJ).map (bump k) := by
  induction l with
  | nil => rfl
  | cons j l ih =>
    simp only [List.map_cons, List.dropWhile_cons, isNull_bump]
    split
    · exact ih
    · rfl

theorem dl_trim {k : Nat} {js js' : List Json} (h : DL k js js') : DL k (trimReduce js) (trimReduce js') := by
  unfold DL at *
  subst h
  unfold trimReduce
  rw [List.map_append, List.map_take, List.map_reverse, ← dropWhile_bump, List.map_reverse, List.map_drop]

include H hc ho hfl in
theorem sim_reduce {a : Addr} {i : Inst} (hi : Inside A w a i) : Sim A old (D old.length) (flattenReduce w cfg fl a i) (flattenReduce w cfg fl a i) := by
  have hb := sim_body H hc ho hfl hi
  unfold flattenReduce
  rw [H.unp]
  cases i.info.reduces with
  | false => exact hb
  | true =>
    simp only [Bool.and_self, if_true]
    cases hr : i.reduce with
    | nothing => exact hb
    | «raise» e => exact Sim.ite (fun _ => hb) (fun _ => Sim.throw e)
    | str o =>
      cases o with
      | none => exact hb
      | some v => exact Sim.tryCatch (hfl v (hi.reduceStr hr)) (fun _ => hb)
    | tup xs =>
      refine Sim.ite (fun _ => hb) (fun _ => Sim.ite (fun _ => ?_) (fun _ => hb))
      have hin : ∀ v ∈ newobjMark (padReduce xs), In A v := by
        have hp : ∀ v ∈ padReduce xs, In A v := by
          intro v hv
          rcases List.mem_append.1 hv with hv | hv
          · exact hi.reduceTup hr hv
          · rw [List.eq_of_mem_replicate hv]; intro i hi; cases hi
        intro v hv
        unfold newobjMark at hv
        split at hv
        · rename_i n r he
          rcases List.mem_cons.1 hv with rfl | hv
          · intro i hi; split at hi <;> cases hi
          · exact hp v (he ▸ List.mem_cons_of_mem _ hv)
        · rename_i n r he
          rcases List.mem_cons.1 hv with rfl | hv
          · intro i hi; split at hi <;> cases hi
          · exact hp v (he ▸ List.mem_cons_of_mem _ hv)
        · exact hp v hv
      refine (Sim.mapM _ (fun v hv => hfl v (hin v hv))).bind (fun js js' hj => Sim.pure ?_)
      exact (T.put T.nil (t := Tags.REDUCE) (by decide +kernel) (doc_arr (dl_trim hj))).doc

include H hfl in
theorem sim_date {a : Addr} {i : Inst} (hi : Inside A w a i) : Sim A old (D old.length) (flattenDate w cfg fl a i) (flattenDate w cfg fl a i) := by
  unfold flattenDate
  rw [H.unp]
  simp only [if_true]
  refine (Sim.mapM _ (fun v hv => hfl v ?_)).bind (fun js js' hj => (Sim.same _).bind (fun _ _ _ => Sim.pure ?_))
  · obtain ⟨kv, hkv, rfl⟩ := List.mem_map.1 hv
    exact hi.hfields (List.mem_of_mem_tail hkv)
  · refine ((objTag_T H _ i).put (by decide +kernel) (doc_arr ?_)).doc
    unfold DL at hj ⊢
    subst hj
    simp only [List.map_cons, List.map_nil, bump, bumps_eq, List.map_dropLast]
    congr 1
    rw [List.getLastD_eq_getLast?, List.getLastD_eq_getLast?, List.getLast?_map]
    cases js'.getLast? <;> rfl

include H hc ho hfl in
theorem sim_inst {a : Addr} {i : Inst} (hi : Inside A w a i) : Sim A old (D old.length) (flattenInst w cfg fl a i) (flattenInst w cfg fl a i) := by
  unfold flattenInst
  cases w.handler i.cls with
  | none => exact sim_reduce H hc ho hfl hi
  | some hd =>
    cases hd with
    | record =>
      refine Sim.bind (R := T old.length) (Sim.foldM _ (objTag_T H _ i) (fun kv hkv d d' h => ?_)) (fun d d' h => (Sim.same _).bind (fun _ _ _ => Sim.pure h.doc))
      exact (hfl _ (hi.hfields hkv)).bind (fun j j' hj => Sim.pure (h.put (hi.field kv hkv) hj))
    | datetime => exact sim_date H hfl hi
    | «opaque» => exact (Sim.same _).bind (fun _ _ _ => Sim.pure (objTag_T H _ i).doc)
    | drop => exact (Sim.same _).bind (fun _ _ _ => Sim.pure rfl)

include H in
theorem sim_refObj {id : Ident} {e : Bool} (ha : A id) (hi : id ∉ old) {x : P Json} (h : Sim A old (D old.length) x x) :
    Sim A old (D old.length) (refObjInstance cfg id e x) (refObjInstance cfg id e x) := by
  unfold refObjInstance
  rw [H.unp]
  simp only [if_true]
  refine (Sim.mkref cfg ha hi).bind (fun a b e => ?_)
  subst e
  exact Sim.ite (fun _ => h) (fun _ => Sim.getref hi)

include H hc ho hfl in
theorem sim_by {v : Val} (hv : In A v) : Sim A old (D old.length) (flattenBy w cfg fl v) (flattenBy w cfg fl v) := by
  cases v with
  | ref a =>
    have ha : A (.addr a) := hv _ (List.mem_singleton.2 rfl)
    simp only [flattenBy]
    cases hcell : w.heap[a]? with
    | none => exact Sim.throw _
    | some o =>
      cases o with
      | list xs =>
        refine (Sim.mkref cfg ha (ho _ ha)).bind (fun x y e => ?_)
        subst e
        refine Sim.ite (fun _ => ?_) (fun _ => Sim.getref (ho _ ha))
        have hf := hc a ha
        unfold found at hf
        rw [hcell] at hf
        exact (Sim.mapM _ (fun v hv => hfl v (In.mem hf hv))).bind (fun _ _ h => Sim.pure (doc_arr h))
      | dict kvs =>
        refine (Sim.mkref cfg ha (ho _ ha)).bind (fun x y e => ?_)
        subst e
        refine Sim.ite (fun _ => ?_) (fun _ => Sim.getref (ho _ ha))
        exact (sim_entries H hfl (dict_in hc ha hcell) T.nil).bind (fun _ _ h => Sim.pure h.doc)
      | inst i => exact sim_refObj H ha (ho _ ha) (sim_inst H hc ho hfl (inside H hc ha hcell))
      | _ => exact Sim.throw _
  | tuple i xs =>
    simp only [flattenBy, H.unp, if_true]
    exact (Sim.mapM _ (fun v hx => hfl v (In.mem hv hx))).bind (fun _ _ h => Sim.pure (T.put T.nil (t := Tags.TUPLE) (by decide +kernel) (doc_arr h)).doc)
  | set i xs =>
    simp only [flattenBy, H.unp, if_true]
    exact (Sim.mapM _ (fun v hx => hfl v (In.mem hv hx))).bind (fun _ _ h => Sim.pure (T.put T.nil (t := Tags.SET) (by decide +kernel) (doc_arr h)).doc)
  | module n =>
    simp only [flattenBy]
    have ha : A (.mod n) := hv _ (List.mem_singleton.2 rfl)
    refine sim_refObj H ha (ho _ ha) ?_
    unfold flattenModule
    rw [H.unp]
    exact Sim.pure rfl
  | func n => simp only [flattenBy, H.unp, if_true]; exact Sim.pure rfl
  | type n => simp only [flattenBy]; exact Sim.pure rfl
  | lambda n => simp only [flattenBy]; exact Sim.pure rfl
  | _ => simp only [flattenBy]; exact Sim.throw _

theorem bytes_doc (k : Nat) (b : Bytes) : D k (flattenBytestring cfg b) (flattenBytestring cfg b) := by
  unfold flattenBytestring D
  cases cfg.useBase85 <;> rfl

include H hc ho hfl in
theorem sim_step {v : Val} (hv : In A v) : Sim A old (D old.length) (flattenStep w cfg fl v) (flattenStep w cfg fl v) := by
  have h : Sim A old (D old.length) (push >>= fun _ => flattenObj w cfg fl v >>= fun j => pop j) (push >>= fun _ => flattenObj w cfg fl v >>= fun j => pop j) :=
    Sim.wrap (sim_objWith H (sim_by H hc ho hfl hv))
  cases v with
  | bytes i b => simp only [flattenStep, cached_off H]; exact Sim.pure (bytes_doc _ _)
  | bytearray i b =>
    simp only [flattenStep, cached_off H]
    exact Sim.pure (T.put T.nil (t := Tags.BYTEARRAY) (by decide +kernel) (bytes_doc _ _)).doc
  | none => exact Sim.pure rfl
  | bool b => exact Sim.pure rfl
  | int b => exact Sim.pure rfl
  | float b => exact Sim.pure rfl
  | str b => exact Sim.pure rfl
  | _ => simp only [flattenStep, cached_off H]; exact h

include H hc ho in
omit hfl in
theorem sim_flatten : ∀ (n : Nat) (v : Val), In A v → Sim A old (D old.length) (flatten w cfg n v) (flatten w cfg n v)
  | 0, _, _ => fun _ _ _ => .inl ⟨rfl, rfl⟩
  | n + 1, _, hv => sim_step H hc ho (sim_flatten n) hv

theorem reach_closed (w : World) (v : Val) : Closed w (Reach w v) := fun _ ha _ hi => .step ha hi
theorem reach_in (w : World) (v : Val) : In (Reach w v) v := fun _ hi => .here hi

end JP.Share
