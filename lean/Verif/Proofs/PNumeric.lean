import Verif.NumericSpec
import Verif.Properties
import Verif.Proofs.PCongr
/-!
# The encoder with numbers as keys and without
-/
namespace JP.NumericKeys
open JP PyM Pickler

/-- does not begin with the mark -/
def Unm (t : Str) : Prop := unmark t = t

theorem Chars.unm {t : Str} (h : Chars t) : Unm t := by
  cases t with
  | nil => rfl
  | cons c r =>
    have := h c (List.mem_cons_self ..)
    show (if c = MARK then r else c :: r) = c :: r
    rw [if_neg]
    unfold MARK
    omega

variable {F : JsonText.FloatText} {w : World} {cfg : PCfg} {fl fl' : Val → P Json} {α β γ δ : Type}

theorem plains_eq (xs : List Json) : plains xs = xs.map plain := by
  induction xs with
  | nil => rfl
  | cons x xs ih => simp [plains, ih]

theorem plainKv_eq (kvs : List (Str × Json)) : plainKv kvs = kvs.map (fun kv => (unmark kv.1, plain kv.2)) := by
  induction kvs with
  | nil => rfl
  | cons x xs ih => simp [plainKv, ih]

/-- the states agree up to the marks -/
def St (s s' : PState) : Prop :=
  s.depth = s'.depth ∧ s.objs = s'.objs ∧ s.seen = s'.seen ∧ s'.flattened = s.flattened.map (fun p => (p.1, plain p.2))

def Res (A : α → β → Prop) : Option (Except Exc α × PState) → Option (Except Exc β × PState) → Prop
  | none, none => True
  | some (.ok a, t), some (.ok b, t') => A a b ∧ St t t'
  | some (.error e, t), some (.error e', t') => e = e' ∧ St t t'
  | _, _ => False

/-- `x` does with marks what `y` does without -/
def Sim (A : α → β → Prop) (x : P α) (y : P β) : Prop := ∀ s s', St s s' → Res A (x s) (y s')

/-- documents -/
def D (a b : Json) : Prop := b = plain a
def DL (a b : List Json) : Prop := b = a.map plain
/-- objects under construction, with the keys as `Q` says -/
def T (Q : Str → Prop) (d d' : List (Str × Json)) : Prop := d' = plainKv d ∧ ∀ kv ∈ d, Q kv.1

namespace Sim

theorem pure {A : α → β → Prop} {a : α} {b : β} (h : A a b) : Sim A (Pure.pure a : P α) (Pure.pure b : P β) := fun _ _ hs => ⟨h, hs⟩
theorem throw {A : α → β → Prop} (e : Exc) : Sim A (PyM.throw e : P α) (PyM.throw e : P β) := fun _ _ hs => ⟨rfl, hs⟩
theorem same (x : Except Exc α) : Sim (· = ·) (PyM.ofExcept x : P α) (PyM.ofExcept x : P α) := by
  intro s s' hs
  cases x <;> exact ⟨rfl, hs⟩

theorem bind {A : α → β → Prop} {B : γ → δ → Prop} {x : P α} {y : P β} {f : α → P γ} {g : β → P δ} (h : Sim A x y)
    (hf : ∀ a b, A a b → Sim B (f a) (g b)) : Sim B (x >>= f) (y >>= g) := by
  intro s s' hs
  have := h s s' hs
  rw [bind_run, bind_run]
  cases hx : x s with
  | none =>
    cases hy : y s' with
    | none => trivial
    | some r => rw [hx, hy] at this; exact this.elim
  | some r =>
    obtain ⟨r, t⟩ := r
    cases hy : y s' with
    | none => rw [hx, hy] at this; cases r <;> exact this.elim
    | some r' =>
      obtain ⟨r', t'⟩ := r'
      rw [hx, hy] at this
      cases r with
      | error e =>
        cases r' with
        | error e' => exact this
        | ok b => exact this.elim
      | ok a =>
        cases r' with
        | error e' => exact this.elim
        | ok b => exact hf a b this.1 t t' this.2

theorem tryCatch {A : α → β → Prop} {x : P α} {y : P β} {p : Exc → Bool} {f : Exc → P α} {g : Exc → P β} (h : Sim A x y)
    (hf : ∀ e, Sim A (f e) (g e)) : Sim A (PyM.tryCatch x p f) (PyM.tryCatch y p g) := by
  intro s s' hs
  have := h s s' hs
  unfold PyM.tryCatch
  cases hx : x s with
  | none =>
    cases hy : y s' with
    | none => trivial
    | some r => rw [hx, hy] at this; exact this.elim
  | some r =>
    obtain ⟨r, t⟩ := r
    cases hy : y s' with
    | none => rw [hx, hy] at this; cases r <;> exact this.elim
    | some r' =>
      obtain ⟨r', t'⟩ := r'
      rw [hx, hy] at this
      cases r with
      | error e =>
        cases r' with
        | error e' =>
          obtain ⟨e1, ht⟩ := this
          subst e1
          dsimp only
          cases hp : p e with
          | true => simp only [if_true]; exact hf e t t' ht
          | false => exact ⟨rfl, ht⟩
        | ok b => exact this.elim
      | ok a =>
        cases r' with
        | error e' => exact this.elim
        | ok b => exact this

theorem ite {A : α → β → Prop} {x1 x2 : P α} {y1 y2 : P β} {c : Bool} (h1 : c = true → Sim A x1 y1) (h2 : c = false → Sim A x2 y2) :
    Sim A (if c then x1 else x2) (if c then y1 else y2) := by
  cases hc : c with
  | true => exact h1 hc
  | false => exact h2 hc

theorem mapM {f g : Val → P Json} (h : ∀ v, Sim D (f v) (g v)) : ∀ xs : List Val, Sim DL (PyM.mapM f xs) (PyM.mapM g xs)
  | [] => Sim.pure rfl
  | x :: xs => by
    rw [mapM_cons, mapM_cons]
    refine (h x).bind (fun a b hab => (Sim.mapM h xs).bind (fun as bs hs => Sim.pure ?_))
    unfold DL D at *
    rw [List.map_cons, hab, hs]

theorem foldM {A : α → β → Prop} {f : α → γ → P α} {g : β → γ → P β} : ∀ (xs : List γ) {a : α} {b : β}, A a b →
    (∀ x ∈ xs, ∀ a b, A a b → Sim A (f a x) (g b x)) → Sim A (PyM.foldM f a xs) (PyM.foldM g b xs)
  | [], _, _, h, _ => Sim.pure h
  | x :: xs, a, b, h, hf => by
    rw [foldM_cons, foldM_cons]
    exact (hf x (List.mem_cons_self ..) a b h).bind (fun a' b' h' => Sim.foldM xs h' (fun y hy => hf y (List.mem_cons_of_mem _ hy)))

theorem mkref (id : Ident) : Sim (· = ·) (Pickler.mkref cfg id) (Pickler.mkref cfg id) := by
  refine Sim.bind (A := (· = ·)) (fun s s' hs => ?_) (fun a b e => Sim.pure (by rw [e]))
  unfold logRef
  rw [hs.2.1]
  split
  · exact ⟨rfl, hs⟩
  · exact ⟨rfl, hs.1, rfl, hs.2.2⟩

theorem getref (id : Ident) : Sim D (Pickler.getref id) (Pickler.getref id) := by
  intro s s' hs
  unfold Pickler.getref
  refine ⟨?_, hs⟩
  rw [hs.2.1]
  unfold D
  cases hc : s'.objs.contains id with
  | true => rfl
  | false => rfl

theorem push : Sim (fun _ _ => True) Pickler.push Pickler.push :=
  fun s s' hs => ⟨trivial, by show s.depth + 1 = s'.depth + 1; rw [hs.1], hs.2⟩

theorem pop {a b : Json} (h : D a b) : Sim D (Pickler.pop a) (Pickler.pop b) := by
  intro s s' hs
  unfold Pickler.pop
  refine ⟨h, ?_⟩
  dsimp only
  rw [hs.1]
  split
  · exact ⟨rfl, rfl, rfl, rfl⟩
  · exact ⟨rfl, hs.2⟩

theorem wrap {x y : P Json} (h : Sim D x y) :
    Sim D (Pickler.push >>= fun _ => x >>= fun j => Pickler.pop j) (Pickler.push >>= fun _ => y >>= fun j => Pickler.pop j) :=
  Sim.push.bind (fun _ _ _ => h.bind (fun _ _ hj => Sim.pop hj))

end Sim

/-! ### entries -/

theorem T.mono {Q Q' : Str → Prop} {d d' : List (Str × Json)} (h : T Q d d') (hq : ∀ k, Q k → Q' k) : T Q' d d' := ⟨h.1, fun kv hkv => hq _ (h.2 kv hkv)⟩

theorem T.nil {Q : Str → Prop} : T Q [] [] := ⟨rfl, fun _ h => by cases h⟩

theorem mem_dset {k x : Str} {j : Json} {d : List (Str × Json)} {kv : Str × Json} (h : kv ∈ dset k j d) : kv.1 = k ∨ ∃ kv' ∈ d, kv'.1 = kv.1 := by
  induction d with
  | nil =>
    simp only [dset, List.mem_cons, List.not_mem_nil, or_false] at h
    exact .inl (by rw [h])
  | cons e d ih =>
    obtain ⟨k', j'⟩ := e
    unfold dset at h
    by_cases hk : k' = k
    · simp only [hk, if_true, beq_self_eq_true] at h
      rcases List.mem_cons.1 h with h | h
      · exact .inl (by rw [h])
      · exact .inr ⟨kv, List.mem_cons_of_mem _ h, rfl⟩
    · simp only [beq_iff_eq, hk, if_false] at h
      rcases List.mem_cons.1 h with h | h
      · exact .inr ⟨(k', j'), List.mem_cons_self .., by rw [h]⟩
      · rcases ih h with h | ⟨kv', h1, h2⟩
        · exact .inl h
        · exact .inr ⟨kv', List.mem_cons_of_mem _ h1, h2⟩

theorem plain_dset {k : Str} {j : Json} {d : List (Str × Json)} (h : ∀ kv ∈ d, unmark kv.1 = unmark k → kv.1 = k) :
    plainKv (dset k j d) = dset (unmark k) (plain j) (plainKv d) := by
  induction d with
  | nil => rfl
  | cons e d ih =>
    obtain ⟨k', j'⟩ := e
    have ih := ih (fun kv hkv => h kv (List.mem_cons_of_mem _ hkv))
    have h0 := h (k', j') (List.mem_cons_self ..)
    by_cases hk : k' = k
    · subst hk
      simp [dset, plainKv]
    · have : unmark k' ≠ unmark k := fun e => hk (h0 e)
      simp [dset, plainKv, hk, this, ih]

theorem T.dset {Q : Str → Prop} {k : Str} {j j' : Json} {d d' : List (Str × Json)} (h : T Q d d') (hk : Q k)
    (hq : ∀ kv ∈ d, unmark kv.1 = unmark k → kv.1 = k) (hj : D j j') : T Q (JP.dset k j d) (JP.dset (unmark k) j' d') := by
  refine ⟨?_, fun kv hkv => ?_⟩
  · rw [plain_dset hq, h.1, hj]
  · rcases mem_dset (x := k) hkv with e | ⟨kv', h1, e⟩
    · rw [e]; exact hk
    · rw [← e]; exact h.2 kv' h1

/-- tags and such -/
def Base (k : Str) : Prop := Unm k ∧ ¬ Numeral k
/-- … and numbers -/
def Fine (k : Str) : Prop := Unm k ∨ ∃ t, k = MARK :: t ∧ Numeral t

theorem Base.unm {k : Str} (h : Base k) : Unm k := h.1
theorem Base.fine {k : Str} (h : Base k) : Fine k := .inl h.1

theorem T.unm {k : Str} {j j' : Json} {d d' : List (Str × Json)} (h : T Unm d d') (hk : Unm k) (hj : D j j') : T Unm (JP.dset k j d) (JP.dset k j' d') := by
  have := h.dset hk (fun kv hkv e => by rw [h.2 kv hkv, hk] at e; exact e) hj
  rwa [hk] at this

theorem T.base {k : Str} {j j' : Json} {d d' : List (Str × Json)} (h : T Base d d') (hk : Base k) (hj : D j j') : T Base (JP.dset k j d) (JP.dset k j' d') := by
  have := h.dset hk (fun kv hkv e => by rw [(h.2 kv hkv).1, hk.1] at e; exact e) hj
  rwa [hk.1] at this

theorem fine_base {k x : Str} (hk : Base k) (hx : Fine x) (e : unmark x = unmark k) : x = k := by
  rcases hx with hx | ⟨t, h1, h2⟩
  · rw [hx, hk.1] at e; exact e
  · subst h1
    rw [hk.1] at e
    have e : t = k := e
    subst e
    exact absurd h2 hk.2

theorem T.fine {k : Str} {j j' : Json} {d d' : List (Str × Json)} (h : T Fine d d') (hk : Base k) (hj : D j j') : T Fine (JP.dset k j d) (JP.dset k j' d') := by
  have := h.dset hk.fine (fun kv hkv e => fine_base hk (h.2 kv hkv) e) hj
  rwa [hk.1] at this

theorem T.doc {Q : Str → Prop} {d d' : List (Str × Json)} (h : T Q d d') : D (.obj d) (.obj d') := by
  unfold D; rw [h.1]; rfl

theorem dhas_fine {k : Str} {d d' : List (Str × Json)} (h : T Fine d d') (hk : Base k) : dhas k d = dhas k d' := by
  rw [h.1]
  have h2 := h.2
  clear h
  induction d with
  | nil => rfl
  | cons e d ih =>
    obtain ⟨x, j⟩ := e
    have ih := ih (fun kv hkv => h2 kv (List.mem_cons_of_mem _ hkv))
    have hx := h2 (x, j) (List.mem_cons_self ..)
    unfold dhas at *
    simp only [plainKv, dget]
    by_cases hxk : x = k
    · subst hxk
      rw [hk.1]
      simp
    · have : unmark x ≠ k := by
        intro e
        apply hxk
        exact fine_base hk hx (by rw [hk.1]; exact e)
      simp only [beq_iff_eq, hxk, this, if_false]
      exact ih

/-- the keys of the two runs -/
theorem reprKey_cases {k : Val} (h : KeyOk F w k) :
    (∃ e, reprKey w k = .error e ∧ reprKey (world F w) k = .error e) ∨
    ∃ t, reprKey w k = .ok t ∧ ((keyText F k = none ∧ reprKey (world F w) k = .ok t ∧ Unm t) ∨
      ((keyText F k).isSome ∧ reprKey (world F w) k = .ok (MARK :: t) ∧ Numeral t)) := by
  unfold KeyOk at h
  cases hk : keyText F k with
  | some t =>
    rw [hk] at h
    have h1 : (world F w).repr k = .ok (MARK :: t) := by show repr F w k = _; unfold repr; rw [hk]
    refine .inr ⟨t, ?_, .inr ⟨rfl, ?_, h.2⟩⟩
    · cases k <;> first | (simp [keyText] at hk; done) | (unfold reprKey; rw [h.1])
    · cases k <;> first | (simp [keyText] at hk; done) | (unfold reprKey; rw [h1])
  | none =>
    rw [hk] at h
    have h1 : (world F w).repr k = w.repr k := by show repr F w k = _; unfold repr; rw [hk]
    have h2 : reprKey (world F w) k = reprKey w k := by
      cases k <;> first | rfl | (unfold reprKey; rw [h1]; rfl)
    cases hr : reprKey w k with
    | error e => exact .inl ⟨e, rfl, by rw [h2, hr]⟩
    | ok t => exact .inr ⟨t, rfl, .inl ⟨rfl, by rw [h2, hr], (h t hr).unm⟩⟩

theorem unmark_numeral {t : Str} (h : Numeral t) : unmark t = t := by
  obtain ⟨c, r, rfl, h⟩ := h
  show (if c = MARK then r else c :: r) = c :: r
  rw [if_neg]
  unfold MARK
  omega

/-- a key that is in the object does not get in the way of one that comes -/
def Free (F : JsonText.FloatText) (w : World) (x : Str) (k : Val) : Prop := ∀ t, reprKey (world F w) k = .ok t → unmark x = unmark t → x = t

variable (hfl : ∀ v, Sim D (fl v) (fl' v))

include hfl in
theorem sim_pair {k v : Val} {d d' : List (Str × Json)} (hk : KeyOk F w k) (h : T Fine d d') (hf : ∀ kv ∈ d, Free F w kv.1 k) :
    Sim (fun d1 d1' => T Fine d1 d1' ∧ ∀ kv ∈ d1, (∃ kv' ∈ d, kv'.1 = kv.1) ∨ reprKey (world F w) k = .ok kv.1)
      (flattenKeyValuePair (world F w) fl k v d) (flattenKeyValuePair w fl' k v d') := by
  unfold flattenKeyValuePair
  cases isPicklable k v with
  | false => exact Sim.pure ⟨h, fun kv hkv => .inl ⟨kv, hkv, rfl⟩⟩
  | true =>
    rw [if_pos rfl, if_pos rfl]
    rcases reprKey_cases hk with ⟨e, h1, h2⟩ | ⟨t, h1, h2⟩
    · rw [h1, h2]
      exact Sim.throw e
    · rw [h1]
      rcases h2 with ⟨h2, h3, h4⟩ | ⟨h2, h3, h4⟩
      · rw [h3]
        show Sim _ ((fl v) >>= fun j => Pure.pure (JP.dset t j d)) ((fl' v) >>= fun j => Pure.pure (JP.dset t j d'))
        refine (hfl v).bind (fun j j' hj => Sim.pure ⟨?_, fun kv hkv => ?_⟩)
        · have := h.dset (.inl h4) (fun kv hkv e => hf kv hkv t h3 e) hj
          rwa [h4] at this
        · rcases mem_dset (x := t) hkv with e | e
          · exact .inr (by rw [e])
          · exact .inl e
      · rw [h3]
        show Sim _ ((fl v) >>= fun j => Pure.pure (JP.dset (MARK :: t) j d)) ((fl' v) >>= fun j => Pure.pure (JP.dset t j d'))
        refine (hfl v).bind (fun j j' hj => Sim.pure ⟨?_, fun kv hkv => ?_⟩)
        · exact h.dset (.inr ⟨t, rfl, h4⟩) (fun kv hkv e => hf kv hkv _ h3 e) hj
        · rcases mem_dset (x := t) hkv with e | e
          · exact .inr (by rw [e])
          · exact .inl e

theorem free_of_apart {k1 k2 : Val} {x : Str} (h1 : KeyOk F w k1) (h2 : KeyOk F w k2) (ha : Apart F w k1 k2) (hx : reprKey (world F w) k1 = .ok x) : Free F w x k2 := by
  intro t ht e
  rcases reprKey_cases h1 with ⟨e1, _, q⟩ | ⟨t1, p1, q1⟩
  · rw [hx] at q; cases q
  rcases reprKey_cases h2 with ⟨e1, _, q⟩ | ⟨t2, p2, q2⟩
  · rw [ht] at q; cases q
  rcases q1 with ⟨a1, b1, c1⟩ | ⟨a1, b1, c1⟩ <;> rcases q2 with ⟨a2, b2, c2⟩ | ⟨a2, b2, c2⟩ <;> rw [hx] at b1 <;> rw [ht] at b2 <;>
    injection b1 with b1 <;> injection b2 with b2 <;> subst b1 <;> subst b2
  · rw [c1, c2] at e; exact e
  · rw [c1] at e
    have e : x = t2 := e
    subst e
    have := (ha _ p1 p2).2
    rw [this] at a2; cases a2
  · rw [c2] at e
    have e : t1 = t := e
    subst e
    have := (ha _ p1 p2).1
    rw [this] at a1; cases a1
  · have e : t1 = t2 := e
    rw [e]

include hfl in
theorem sim_fold : ∀ (kvs : List (Val × Val)) {d d' : List (Str × Json)}, KeysOk F w kvs → T Fine d d' → (∀ kv ∈ d, ∀ e ∈ kvs, Free F w kv.1 e.1) →
    Sim (T Fine) (PyM.foldM (fun d (kv : Val × Val) => flattenKeyValuePair (world F w) fl kv.1 kv.2 d) d kvs)
      (PyM.foldM (fun d (kv : Val × Val) => flattenKeyValuePair w fl' kv.1 kv.2 d) d' kvs)
  | [], _, _, _, h, _ => Sim.pure h
  | e :: kvs, d, d', hk, h, hf => by
    rw [foldM_cons, foldM_cons]
    obtain ⟨hp, hps⟩ := List.pairwise_cons.1 hk.2
    have he := hk.1 e (List.mem_cons_self ..)
    refine (sim_pair hfl he h (fun kv hkv => hf kv hkv e (List.mem_cons_self ..))).bind (fun d1 d1' h1 => ?_)
    refine sim_fold kvs ⟨fun kv hkv => hk.1 kv (List.mem_cons_of_mem _ hkv), hps⟩ h1.1 (fun kv hkv e' he' => ?_)
    rcases h1.2 kv hkv with ⟨kv', hkv', e1⟩ | e1
    · rw [← e1]; exact hf kv' hkv' e' (List.mem_cons_of_mem _ he')
    · exact free_of_apart he (hk.1 e' (List.mem_cons_of_mem _ he')) (hp e' he') e1

theorem free_base {x : Str} {k : Val} (hx : Base x) (hk : KeyOk F w k) : Free F w x k := by
  intro t ht e
  rcases reprKey_cases hk with ⟨e1, _, q⟩ | ⟨t1, p1, q1⟩
  · rw [ht] at q; cases q
  rcases q1 with ⟨a1, b1, c1⟩ | ⟨a1, b1, c1⟩ <;> rw [ht] at b1 <;> injection b1 with b1 <;> subst b1
  · exact (fine_base hx (.inl c1) e.symm).symm
  · exact (fine_base hx (.inr ⟨_, rfl, c1⟩) e.symm).symm

theorem KeysOk.excl {kvs : List (Val × Val)} (h : KeysOk F w kvs) (ex : List Str) : KeysOk F w (itemsExcl ex kvs) :=
  ⟨fun kv hkv => h.1 kv (List.mem_filter.1 hkv).1, h.2.filter _⟩

theorem KeysOk.strs {attrs : List (Str × Val)} (h : ∀ kv ∈ attrs, Chars kv.1) : KeysOk F w (asItems attrs) := by
  unfold asItems
  refine ⟨fun kv hkv => ?_, ?_⟩
  · obtain ⟨e, he, rfl⟩ := List.mem_map.1 hkv
    show ∀ t, reprKey w (.str e.1) = .ok t → Chars t
    intro t ht
    injection ht with ht
    subst ht
    exact h e he
  · rw [List.pairwise_map]
    clear h
    induction attrs with
    | nil => exact .nil
    | cons e l ih => exact .cons (fun _ _ _ _ _ => ⟨rfl, rfl⟩) ih

/-- the hypotheses -/
structure Hyp (F : JsonText.FloatText) (w : World) (cfg : PCfg) : Prop where
  heap : HeapOk F w
  keys : cfg.keys = false
  safe : SafeOk cfg

variable (H : Hyp F w cfg)

include H hfl in
theorem sim_entries {kvs : List (Val × Val)} {ex : List Str} {d d' : List (Str × Json)} (hk : KeysOk F w kvs) (h : T Base d d') :
    Sim (T Fine) (flattenEntries (world F w) cfg fl kvs ex d) (flattenEntries w cfg fl' kvs ex d') := by
  unfold flattenEntries
  dsimp only
  rw [H.keys, if_neg (by decide), if_neg (by decide)]
  exact sim_fold hfl _ (hk.excl ex) (h.mono (fun _ h => h.fine)) (fun kv hkv e he => free_base (h.2 kv hkv) ((hk.excl ex).1 e he))

theorem base_of {k : Str} (h : (match k with
    | [] => true
    | c :: _ => decide (c ≠ MARK) && decide (c ≠ 45) && !(decide (48 ≤ c) && decide (c ≤ 57))) = true) : Base k := by
  cases k with
  | nil => exact ⟨rfl, fun ⟨_, _, e, _⟩ => by cases e⟩
  | cons c r =>
    simp only [Bool.and_eq_true, decide_eq_true_eq, Bool.not_eq_true', Bool.and_eq_false_iff, decide_eq_false_iff_not] at h
    obtain ⟨⟨h1, h2⟩, h3⟩ := h
    refine ⟨by show (if c = MARK then r else c :: r) = c :: r; rw [if_neg h1], fun ⟨c', r', e, h⟩ => ?_⟩
    injection e with e1 e2
    subst e1
    omega

theorem dictItems_ok (H : Hyp F w cfg) {i : Inst} (hi : InstOk F w i) : KeysOk F w (dictItems w i) := by
  unfold dictItems
  cases i.dictCell with
  | none => exact KeysOk.strs hi.attrs
  | some d =>
    dsimp only
    cases hd : w.heap[d]? with
    | none => exact ⟨fun _ h => (by cases h), .nil⟩
    | some o =>
      cases o with
      | dict kvs => exact H.heap.dict d kvs hd
      | _ => exact ⟨fun _ h => (by cases h), .nil⟩

include H hfl in
theorem sim_clone (x : Val) : Sim D (flattenClone (world F w) cfg fl x) (flattenClone w cfg fl' x) := by
  unfold flattenClone
  refine (sim_entries hfl H (KeysOk.strs (attrs := [(p!"exemplar", x)]) (fun kv hkv => ?_)) ?_).bind (fun a b hab => Sim.pure hab.doc)
  · simp only [List.mem_cons, List.not_mem_nil, or_false] at hkv
    rw [hkv]
    show ∀ c ∈ p!"exemplar", c < 0x110000
    decide
  · cases cfg.unpicklable with
    | true => exact ⟨rfl, fun kv hkv => by
        simp only [if_true, List.mem_cons, List.not_mem_nil, or_false] at hkv
        rw [hkv]; exact base_of rfl⟩
    | false => exact T.nil

include H hfl in
theorem sim_factory (f : Val) (x : Except Exc Val) : Sim D (flattenFactory (world F w) cfg fl f x) (flattenFactory w cfg fl' f x) := by
  have step : Sim D (do
      let new ← mkref cfg f.ident
      if new then do
        let x ← PyM.ofExcept x
        flattenClone (world F w) cfg fl x
      else getref f.ident) (do
      let new ← mkref cfg f.ident
      if new then do
        let x ← PyM.ofExcept x
        flattenClone w cfg fl' x
      else getref f.ident) := by
    refine (Sim.mkref f.ident).bind (fun a b e => ?_)
    subst e
    refine Sim.ite (fun _ => ?_) (fun _ => Sim.getref _)
    refine (Sim.same x).bind (fun a b e => ?_)
    subst e
    exact sim_clone hfl H a
  unfold flattenFactory
  cases f with
  | type n => exact Sim.pure rfl
  | _ => exact step

include H hfl in
theorem sim_default {fo : Option Val} {x : Except Exc Val} {d d' : List (Str × Json)} (h : T Fine d d') :
    Sim (T Fine) (flattenDefault (world F w) cfg fl fo x d) (flattenDefault w cfg fl' fo x d') := by
  unfold flattenDefault
  cases fo with
  | none => exact Sim.pure h
  | some f =>
    dsimp only
    rw [dhas_fine h (k := p!"default_factory") (base_of rfl)]
    refine (sim_factory hfl H f x).bind (fun j j' hj => Sim.pure ?_)
    cases dhas p!"default_factory" d' with
    | false => exact h.fine (k := p!"default_factory") (base_of rfl) hj
    | true => exact h.fine (k := Tags.DEFAULT_FACTORY) (base_of rfl) hj

include H hfl in
theorem sim_ownDict {a : Addr} {i : Inst} {ex : List Str} {d d' : List (Str × Json)} (hi : InstOk F w i) (h : T Fine d d') :
    Sim (T Fine) (flattenOwnDict (world F w) cfg fl a i ex d) (flattenOwnDict w cfg fl' a i ex d') := by
  unfold flattenOwnDict
  refine Sim.ite (fun _ => ?_) (fun _ => Sim.pure h)
  refine (Sim.mkref _).bind (fun x y e => ?_)
  subst e
  refine Sim.ite (fun _ => ?_) (fun _ => ?_)
  · exact (sim_entries hfl H (dictItems_ok H hi) T.nil).bind (fun dd dd' hd => Sim.pure (h.fine (base_of rfl) hd.doc))
  · exact (Sim.getref _).bind (fun j j' hj => Sim.pure (h.fine (base_of rfl) hj))

include H hfl in
theorem sim_dictSub {a : Addr} {i : Inst} {d d' : List (Str × Json)} (hi : InstOk F w i) (h : T Base d d') :
    Sim (T Fine) (flattenDictSub (world F w) cfg fl a i d) (flattenDictSub w cfg fl' a i d') := by
  unfold flattenDictSub
  exact (sim_entries hfl H hi.items h).bind (fun _ _ h => (sim_default hfl H h).bind (fun _ _ h => sim_ownDict hfl H hi h))

/-- a flag and data -/
def TB (p p' : Bool × List (Str × Json)) : Prop := p.1 = p'.1 ∧ T Unm p.2 p'.2

include hfl in
theorem sim_objAttrs {i : Inst} {lk : List (Str × Val)} {ns : List Str} {d d' : List (Str × Json)} (hn : ∀ n ∈ ns, Unm n) (h : T Unm d d') :
    Sim TB (flattenObjAttrs (world F w) fl i lk ns d) (flattenObjAttrs w fl' i lk ns d') := by
  unfold flattenObjAttrs
  refine Sim.foldM (A := TB) ns ⟨rfl, h⟩ (fun k hk p p' hp => ?_)
  refine Sim.ite (fun _ => Sim.pure hp) (fun _ => ?_)
  refine Sim.tryCatch ?_ (fun _ => Sim.pure hp)
  refine (Sim.same _).bind (fun v v' e => ?_)
  subst e
  refine Sim.bind (A := T Unm) ?_ (fun x y hxy => Sim.pure ⟨rfl, hxy⟩)
  unfold flattenKeyValuePair
  refine Sim.ite (fun _ => ?_) (fun _ => Sim.pure hp.2)
  show Sim _ ((fl v) >>= fun j => Pure.pure (JP.dset k j p.2)) ((fl' v) >>= fun j => Pure.pure (JP.dset k j p'.2))
  exact (hfl v).bind (fun j j' hj => Sim.pure (hp.2.unm (hn k hk) hj))

include hfl in
theorem sim_slots {i : Inst} {d d' : List (Str × Json)} (hi : InstOk F w i) (h : T Base d d') :
    Sim D (flattenSlots (world F w) fl i d) (flattenSlots w fl' i d') := by
  unfold flattenSlots
  refine (sim_objAttrs hfl (fun k hk => (hi.slots k hk).unm) (h.mono (fun _ h => h.unm))).bind (fun p p' hp => ?_)
  obtain ⟨f, d⟩ := p
  obtain ⟨f', d'⟩ := p'
  obtain ⟨e, hp⟩ := hp
  dsimp only at e hp
  subst e
  refine Sim.ite (fun _ => Sim.pure hp.doc) (fun _ => ?_)
  refine (sim_objAttrs hfl (fun n hn => ?_) hp).bind (fun p p' hp => Sim.pure hp.2.doc)
  obtain ⟨e, he, rfl⟩ := List.mem_map.1 hn
  exact (hi.dirAttrs e he).unm

theorem doc_arr {xs xs' : List Json} (h : DL xs xs') : D (.arr xs) (.arr xs') := by
  unfold D
  rw [h, plain, plains_eq]

include H hfl in
theorem sim_sequence {i : Inst} {d d' : List (Str × Json)} (hi : InstOk F w i) (h : T Base d d') :
    Sim D (flattenSequence (world F w) cfg fl i d) (flattenSequence w cfg fl' i d') := by
  unfold flattenSequence flattenSeqAttrs
  refine Sim.bind (A := T Fine) ?_ (fun d d' h => ?_)
  · exact Sim.ite (fun _ => sim_entries hfl H (dictItems_ok H hi) h) (fun _ => Sim.pure (h.mono (fun _ h => h.fine)))
  · refine (Sim.mapM hfl _).bind (fun js js' hj => ?_)
    refine Sim.ite (fun _ => Sim.pure ?_) (fun _ => Sim.pure (doc_arr hj))
    exact (h.fine (k := Tags.SEQ) (base_of rfl) (doc_arr hj)).doc

include H in
theorem sim_objWith {v : Val} {id : Ident} {en : Bool} {rep : Except Exc Str} {x y : P Json} (h : Sim D x y) :
    Sim D (flattenObjWith cfg v id en rep x) (flattenObjWith cfg v id en rep y) := by
  unfold flattenObjWith
  refine Sim.bind (A := fun _ _ => True) (fun s s' hs => ⟨trivial, hs.1, hs.2.1, ?_, hs.2.2.2⟩) (fun _ _ _ => ?_)
  · show s.seen ++ [v] = s'.seen ++ [v]
    rw [hs.2.2.1]
  refine Sim.bind (A := (· = ·)) (fun s s' hs => ⟨?_, hs⟩) (fun _ _ e => ?_)
  · show (some s.depth == cfg.maxDepth) = (some s'.depth == cfg.maxDepth)
    rw [hs.1]
  subst e
  refine Sim.tryCatch ?_ (fun e => ?_)
  · refine Sim.bind (A := (· = ·)) (fun s s' hs => ⟨?_, hs⟩) (fun _ _ e => ?_)
    · rw [hs.2.1]
    subst e
    refine Sim.ite (fun _ => ?_) (fun _ => h)
    exact (Sim.same rep).bind (fun _ _ e => by subst e; exact Sim.pure rfl)
  · cases hf : cfg.failSafe with
    | none => exact Sim.throw e
    | some f =>
      dsimp only
      intro s s' hs
      cases hj : f e with
      | error e' => exact ⟨rfl, hs⟩
      | ok j => exact ⟨(H.safe f e j hf hj).symm, hs⟩

theorem find_plain (id : Ident) (l : List (Ident × Json)) :
    (l.map (fun p => (p.1, plain p.2))).find? (fun p => p.1 == id) = (l.find? (fun p => p.1 == id)).map (fun p => (p.1, plain p.2)) := by
  induction l with
  | nil => rfl
  | cons p l ih =>
    simp only [List.map_cons, List.find?_cons]
    cases p.1 == id with
    | true => rfl
    | false => exact ih

theorem sim_cached {id : Ident} {x y : P Json} (h : Sim D x y) : Sim D (cached cfg id x) (cached cfg id y) := by
  unfold cached
  refine Sim.ite (fun _ => h) (fun _ => ?_)
  intro s s' hs
  rw [bind_run, bind_run, get_run, get_run]
  dsimp only
  rw [hs.2.2.2, find_plain]
  cases s.flattened.find? (fun p => p.1 == id) with
  | some p => exact ⟨rfl, hs⟩
  | none =>
    have hk : ∀ a b : Json, D a b → Sim D (do
        PyM.modify (fun s : PState => { s with flattened := (id, a) :: s.flattened })
        Pure.pure a) (do
        PyM.modify (fun s : PState => { s with flattened := (id, b) :: s.flattened })
        Pure.pure b) := by
      intro a b hab t t' ht
      refine ⟨hab, ht.1, ht.2.1, ht.2.2.1, ?_⟩
      show (id, b) :: t'.flattened = ((id, a) :: t.flattened).map (fun p => (p.1, plain p.2))
      rw [ht.2.2.2, hab]
      rfl
    exact Sim.bind h hk s s' hs

include H hfl in
theorem sim_filteredState {a : Addr} {kvs : List (Val × Val)} {ex : List Str} (hk : KeysOk F w kvs) :
    Sim D (flattenFilteredState (world F w) cfg fl a kvs ex) (flattenFilteredState w cfg fl' a kvs ex) := by
  unfold flattenFilteredState
  refine sim_cached (Sim.wrap (sim_objWith (F := F) (w := w) H ?_))
  refine (Sim.mkref _).bind (fun x y e => ?_)
  subst e
  refine Sim.ite (fun _ => ?_) (fun _ => Sim.getref _)
  exact (sim_entries hfl H (hk.excl ex) T.nil).bind (fun dd dd' hd => Sim.pure hd.doc)

include H hfl in
theorem sim_rest {a : Addr} {i : Inst} {d d' : List (Str × Json)} (hi : InstOk F w i) (h : T Base d d') :
    Sim D (flattenRest (world F w) cfg fl a i d) (flattenRest w cfg fl' a i d') := by
  unfold flattenRest
  cases i.info.base with
  | dict => exact (sim_dictSub hfl H hi h).bind (fun _ _ h => Sim.pure h.doc)
  | list => exact sim_sequence hfl H hi h
  | set => exact sim_sequence hfl H hi h
  | tuple => exact sim_sequence hfl H hi h
  | plain =>
    dsimp only
    refine Sim.ite (fun _ => ?_) (fun _ => Sim.ite (fun _ => ?_) (fun _ => Sim.ite (fun _ => ?_) (fun _ => ?_)))
    · refine (Sim.mapM hfl _).bind (fun js js' hj => (Sim.same _).bind (fun _ _ _ => Sim.pure ?_))
      exact (h.base (k := Tags.ITERATOR) (base_of rfl) (doc_arr hj)).doc
    · exact (sim_entries hfl H (dictItems_ok H hi) h).bind (fun _ _ h => Sim.pure h.doc)
    · exact sim_slots hfl hi h
    · have he : d'.isEmpty = d.isEmpty := by rw [h.1, plainKv_eq]; cases d <;> rfl
      rw [he]
      refine Sim.ite (fun _ => Sim.pure h.doc) (fun _ => Sim.ite (fun _ => Sim.pure rfl) (fun _ => ?_))
      cases (if i.info.reduces = true then i.reduce else ReduceVal.nothing) with
      | nothing => exact Sim.pure rfl
      | str _ => exact Sim.pure rfl
      | «raise» e => exact Sim.ite (fun _ => Sim.pure rfl) (fun _ => Sim.throw e)
      | tup xs =>
        exact Sim.ite (fun _ => hfl _) (fun _ => Sim.ite (fun _ => hfl _) (fun _ => Sim.pure rfl))

theorem sim_putState {d d' : List (Str × Json)} {j j' : Json} (h : T Base d d') (hj : D j j') : D (putState cfg j d) (putState cfg j' d') := by
  unfold putState
  cases cfg.unpicklable with
  | true => exact (h.base (k := Tags.STATE) (base_of rfl) hj).doc
  | false => exact hj

include H hfl in
theorem sim_getstate {a : Addr} {i : Inst} {d d' : List (Str × Json)} (hi : InstOk F w i) (h : T Base d d') :
    Sim D (flattenGetstate (world F w) cfg fl a i d) (flattenGetstate w cfg fl' a i d') := by
  have hr := sim_rest (a := a) (i := i) hfl H hi h
  unfold flattenGetstate
  refine Sim.ite (fun _ => ?_) (fun _ => hr)
  cases i.state with
  | error e => exact Sim.ite (fun _ => Sim.pure rfl) (fun _ => Sim.throw e)
  | ok st =>
    have hs : ∀ kvs, WithProps.stateDict w i st = some kvs → KeysOk F w kvs := by
      intro kvs hk
      unfold WithProps.stateDict at hk
      cases st <;> simp only [reduceCtorEq] at hk
      rename_i d
      cases hd : w.heap[d]? with
      | none => rw [hd] at hk; cases hk
      | some o =>
        rw [hd] at hk
        cases o <;> simp only [reduceCtorEq] at hk
        split at hk
        · cases hk
        · injection hk with hk
          subst hk
          exact H.heap.dict d _ hd
    show Sim D (match WithProps.stateDict w i st with
      | some kvs =>
        if (itemsExcl i.exclude kvs).isEmpty then flattenRest (world F w) cfg fl a i d
        else do
          let j ← flattenFilteredState (world F w) cfg fl a kvs i.exclude
          Pure.pure (putState cfg j d)
      | none =>
        if truthy w.heap st then do
          let j ← fl st
          Pure.pure (putState cfg j d)
        else flattenRest (world F w) cfg fl a i d) (match WithProps.stateDict w i st with
      | some kvs =>
        if (itemsExcl i.exclude kvs).isEmpty then flattenRest w cfg fl' a i d'
        else do
          let j ← flattenFilteredState w cfg fl' a kvs i.exclude
          Pure.pure (putState cfg j d')
      | none =>
        if truthy w.heap st then do
          let j ← fl' st
          Pure.pure (putState cfg j d')
        else flattenRest w cfg fl' a i d')
    generalize WithProps.stateDict w i st = o at hs ⊢
    cases o with
    | some kvs =>
      refine Sim.ite (fun _ => hr) (fun _ => ?_)
      exact (sim_filteredState hfl H (hs kvs rfl)).bind (fun j j' hj => Sim.pure (sim_putState h hj))
    | none =>
      refine Sim.ite (fun _ => ?_) (fun _ => hr)
      exact (hfl st).bind (fun j j' hj => Sim.pure (sim_putState h hj))

include hfl in
theorem sim_newargs {i : Inst} {d d' : List (Str × Json)} (h : T Base d d') : Sim (T Base) (flattenNewargs fl i d) (flattenNewargs fl' i d') := by
  unfold flattenNewargs
  refine Sim.ite (fun _ => ?_) (fun _ => Sim.ite (fun _ => ?_) (fun _ => Sim.pure h))
  · refine (Sim.same _).bind (fun x y e => ?_)
    subst e
    refine (hfl _).bind (fun j j' hj => (hfl _).bind (fun k k' hk => Sim.pure ?_))
    refine h.base (k := Tags.NEWARGSEX) (base_of rfl) (doc_arr ?_)
    unfold DL
    rw [hj, hk]
    rfl
  · refine (Sim.same _).bind (fun x y e => ?_)
    subst e
    exact (hfl _).bind (fun j j' hj => Sim.pure (h.base (k := Tags.NEWARGS) (base_of rfl) hj))

include hfl in
theorem sim_initargs {i : Inst} {d d' : List (Str × Json)} (h : T Base d d') : Sim (T Base) (flattenInitargs fl i d) (flattenInitargs fl' i d') := by
  unfold flattenInitargs
  refine Sim.ite (fun _ => ?_) (fun _ => Sim.pure h)
  refine (Sim.same _).bind (fun x y e => ?_)
  subst e
  exact (hfl _).bind (fun j j' hj => Sim.pure (h.base (k := Tags.INITARGS) (base_of rfl) hj))

theorem objTag_base (i : Inst) : T Base (objTag cfg i) (objTag cfg i) := by
  unfold objTag
  cases cfg.unpicklable with
  | true => exact ⟨rfl, fun kv hkv => by
      simp only [if_true, List.mem_cons, List.not_mem_nil, or_false] at hkv
      rw [hkv]; exact base_of rfl⟩
  | false => exact T.nil

include H hfl in
theorem sim_body {a : Addr} {i : Inst} (hi : InstOk F w i) : Sim D (flattenBody (world F w) cfg fl a i) (flattenBody w cfg fl' a i) := by
  unfold flattenBody
  exact (sim_newargs hfl (objTag_base i)).bind (fun _ _ h => (sim_initargs hfl h).bind (fun _ _ h => sim_getstate hfl H hi h))

theorem isNull_plain (j : Json) : isNullJ (plain j) = isNullJ j := by cases j <;> rfl

theorem dl_trim {js js' : List Json} (h : DL js js') : DL (trimReduce js) (trimReduce js') := by
  unfold DL at *
  subst h
  unfold trimReduce
  have : ∀ l : List Json, (l.map plain).dropWhile isNullJ = (l.dropWhile isNullJ).map plain := by
    intro l
    induction l with
    | nil => rfl
    | cons x l ih =>
      simp only [List.map_cons, List.dropWhile_cons, isNull_plain]
      split
      · exact ih
      · rfl
  rw [List.map_append, List.map_take, List.map_reverse, ← this, List.map_reverse, List.map_drop]

include H hfl in
theorem sim_reduce {a : Addr} {i : Inst} (hi : InstOk F w i) : Sim D (flattenReduce (world F w) cfg fl a i) (flattenReduce w cfg fl' a i) := by
  have hb := sim_body (a := a) hfl H hi
  unfold flattenReduce
  cases (if (cfg.unpicklable && i.info.reduces) = true then i.reduce else ReduceVal.nothing) with
  | nothing => exact hb
  | «raise» e => exact Sim.ite (fun _ => hb) (fun _ => Sim.throw e)
  | str o =>
    cases o with
    | none => exact hb
    | some v => exact Sim.tryCatch (hfl v) (fun _ => hb)
  | tup xs =>
    dsimp only
    refine Sim.ite (fun _ => hb) (fun _ => Sim.ite (fun _ => ?_) (fun _ => hb))
    refine (Sim.mapM hfl _).bind (fun js js' hj => Sim.pure ?_)
    exact (T.base (k := Tags.REDUCE) T.nil (base_of rfl) (doc_arr (dl_trim hj))).doc

theorem dl_last {js js' : List Json} (h : DL js js') : D (js.getLastD .null) (js'.getLastD .null) := by
  unfold DL at h
  subst h
  unfold D
  simp only [List.getLastD_eq_getLast?, List.getLast?_map]
  cases js.getLast? <;> rfl

include hfl in
theorem sim_date {a : Addr} {i : Inst} : Sim D (flattenDate (world F w) cfg fl a i) (flattenDate w cfg fl' a i) := by
  unfold flattenDate
  refine Sim.ite (fun _ => ?_) (fun _ => ?_)
  · refine (Sim.mapM hfl _).bind (fun js js' hj => (Sim.same _).bind (fun _ _ _ => Sim.pure ?_))
    refine ((objTag_base i).base (k := p!"__reduce__") (base_of rfl) (doc_arr ?_)).doc
    unfold DL
    rw [dl_last hj]
    have h2 : js'.dropLast = js.dropLast.map plain := by rw [hj, List.map_dropLast]
    rw [h2]
    simp [plain, plains_eq, plains]
  · exact (Sim.same _).bind (fun _ _ e => by subst e; exact (Sim.same _).bind (fun _ _ _ => Sim.pure rfl))

include H hfl in
theorem sim_inst {a : Nat} {i : Inst} (hi : InstOk F w i) : Sim D (flattenInst (world F w) cfg fl a i) (flattenInst w cfg fl' a i) := by
  unfold flattenInst
  show Sim D (match w.handler i.cls with
    | some .record => _
    | some .datetime => _
    | some .opaque => _
    | some .drop => _
    | none => _) _
  cases w.handler i.cls with
  | none => exact sim_reduce hfl H hi
  | some k =>
    cases k with
    | record =>
      dsimp only
      refine Sim.bind (A := T Unm) ?_ (fun d d' h => (Sim.same _).bind (fun _ _ _ => Sim.pure h.doc))
      refine Sim.foldM _ ((objTag_base i).mono (fun _ h => h.unm)) (fun kv hkv d d' h => ?_)
      exact (hfl _).bind (fun j j' hj => Sim.pure (h.unm (hi.hfields kv hkv).unm hj))
    | datetime => exact sim_date hfl
    | «opaque» => exact (Sim.same _).bind (fun _ _ _ => Sim.pure (objTag_base i).doc)
    | drop => exact (Sim.same _).bind (fun _ _ _ => Sim.pure rfl)

theorem sim_module (n : Str) : Sim D (flattenModule (world F w) cfg n) (flattenModule w cfg n) := by
  unfold flattenModule
  refine Sim.ite (fun _ => Sim.pure ?_) (fun _ => ?_)
  · rfl
  · exact (Sim.same _).bind (fun _ _ e => by subst e; exact Sim.pure rfl)

theorem sim_refObj {id : Ident} {en : Bool} {x y : P Json} (h : Sim D x y) : Sim D (refObjInstance cfg id en x) (refObjInstance cfg id en y) := by
  unfold refObjInstance
  refine Sim.ite (fun _ => ?_) (fun _ => ?_)
  · refine (Sim.mkref _).bind (fun a b e => ?_)
    subst e
    exact Sim.ite (fun _ => h) (fun _ => Sim.getref _)
  · refine Sim.bind (A := (· = ·)) (fun s s' hs => ⟨?_, hs⟩) (fun _ _ e => ?_)
    · show (some s.depth == cfg.maxDepth) = (some s'.depth == cfg.maxDepth)
      rw [hs.1]
    subst e
    refine Sim.bind (A := (· = ·)) (fun s s' hs => ⟨?_, hs⟩) (fun _ _ e => ?_)
    · rw [hs.2.1]
    subst e
    refine Sim.ite (fun _ => Sim.pure rfl) (fun _ => ?_)
    exact (Sim.mkref _).bind (fun _ _ _ => h)

theorem doc_list {k : Str} (hk : Base k) {xs xs' : List Json} (h : DL xs xs') : D (.obj [(k, .arr xs)]) (.obj [(k, .arr xs')]) :=
  (T.base (k := k) T.nil hk (doc_arr h)).doc

include H hfl in
theorem sim_by (v : Val) : Sim D (flattenBy (world F w) cfg fl v) (flattenBy w cfg fl' v) := by
  cases v with
  | ref a =>
    unfold flattenBy
    dsimp only
    show Sim D (match w.heap[a]? with
      | some (.list xs) => _
      | some (.dict kvs) => _
      | some (.inst i) => _
      | _ => _) _
    cases hx : w.heap[a]? with
    | none => exact Sim.throw _
    | some o =>
      cases o with
      | inst i => exact sim_refObj (sim_inst hfl H (H.heap.inst a i hx))
      | list xs =>
        refine (Sim.mkref _).bind (fun x y e => ?_)
        subst e
        refine Sim.ite (fun _ => ?_) (fun _ => Sim.getref _)
        exact (Sim.mapM hfl xs).bind (fun js js' hj => Sim.pure (doc_arr hj))
      | dict kvs =>
        refine (Sim.mkref _).bind (fun x y e => ?_)
        subst e
        refine Sim.ite (fun _ => ?_) (fun _ => Sim.getref _)
        exact (sim_entries hfl H (H.heap.dict a kvs hx) T.nil).bind (fun d d' hd => Sim.pure hd.doc)
      | _ => exact Sim.throw _
  | module n => exact sim_refObj (sim_module n)
  | tuple k xs =>
    refine (Sim.mapM hfl xs).bind (fun js js' hj => Sim.pure ?_)
    cases cfg.unpicklable with
    | true => exact doc_list (base_of rfl) hj
    | false => exact doc_arr hj
  | set k xs =>
    refine (Sim.mapM hfl xs).bind (fun js js' hj => Sim.pure ?_)
    cases cfg.unpicklable with
    | true => exact doc_list (base_of rfl) hj
    | false => exact doc_arr hj
  | func n =>
    refine Sim.pure ?_
    cases cfg.unpicklable <;> rfl
  | type n => exact Sim.pure rfl
  | lambda n => exact Sim.pure rfl
  | _ => exact Sim.throw _

theorem plain_bytes (b : Bytes) : D (flattenBytestring cfg b) (flattenBytestring cfg b) := by
  unfold flattenBytestring
  cases cfg.useBase85 <;> rfl

include H hfl in
theorem sim_step (v : Val) : Sim D (flattenStep (world F w) cfg fl v) (flattenStep w cfg fl' v) := by
  have hobj : ∀ v, (world F w).repr v = w.repr v → Sim D (push >>= fun _ => flattenObj (world F w) cfg fl v >>= fun j => pop j)
      (push >>= fun _ => flattenObj w cfg fl' v >>= fun j => pop j) := by
    intro v hv
    refine Sim.wrap ?_
    unfold flattenObj
    rw [hv]
    exact sim_objWith (F := F) (w := w) H (sim_by hfl H v)
  unfold flattenStep
  cases v with
  | none => exact Sim.pure rfl
  | bool b => exact Sim.pure rfl
  | int b => exact Sim.pure rfl
  | float b => exact Sim.pure rfl
  | str b => exact Sim.pure rfl
  | bytes k b => exact sim_cached (Sim.pure (plain_bytes b))
  | bytearray k b =>
    refine sim_cached (Sim.pure ?_)
    have := plain_bytes (cfg := cfg) b
    exact (T.base (k := Tags.BYTEARRAY) T.nil (base_of rfl) this).doc
  | _ => exact sim_cached (hobj _ rfl)

include H in
theorem sim_flatten (n : Nat) (v : Val) : Sim D (flatten (world F w) cfg n v) (flatten w cfg n v) := by
  induction n generalizing v with
  | zero => intro s s' _; trivial
  | succ n ih => exact sim_step ih H v

end JP.NumericKeys
