import Verif.Extent
import Verif.Proofs.UTrace
/-!
# Decoding finishes, and what it does is bounded by the extent of the document

`Fin H x n P`: `x` finishes from every state; under `H` it adds at most `n` events to the log; its result, if there is one, satisfies `P`.
-/
namespace JP.Unpickler.Cost
open JP PyM

def Fin {α : Type} (H : Prop) (x : U α) (n : Nat) (P : α → Prop) : Prop :=
  ∀ s, ∃ r s', x s = some (r, s') ∧ (H → s'.log.length ≤ s.log.length + n) ∧ ∀ a, r = .ok a → P a

/-- without a condition on the result -/
abbrev Fins {α : Type} (H : Prop) (x : U α) (n : Nat) : Prop := Fin H x n (fun _ => True)

variable {H : Prop}

theorem Fin.mono {α : Type} {x : U α} {n m : Nat} {P Q : α → Prop} (h : Fin H x n P) (hn : H → n ≤ m) (hp : ∀ a, P a → Q a) : Fin H x m Q := by
  intro s
  obtain ⟨r, s', h1, h2, h3⟩ := h s
  exact ⟨r, s', h1, fun hh => Nat.le_trans (h2 hh) (Nat.add_le_add_left (hn hh) _), fun a ha => hp a (h3 a ha)⟩

theorem Fin.le {α : Type} {x : U α} {n m : Nat} {P : α → Prop} (h : Fin H x n P) (hn : H → n ≤ m) : Fins H x m := h.mono hn (fun _ _ => trivial)

theorem fin_bind {α β : Type} {x : U α} {f : α → U β} {n m : Nat} {P : α → Prop} {Q : β → Prop} (hx : Fin H x n P) (hf : ∀ a, P a → Fin H (f a) m Q) :
    Fin H (x >>= f) (n + m) Q := by
  intro s
  obtain ⟨r, s1, h1, h2, h3⟩ := hx s
  rw [bind_run, h1]
  cases r with
  | error e => exact ⟨_, _, rfl, fun hh => by have := h2 hh; omega, fun a ha => by cases ha⟩
  | ok a =>
    obtain ⟨r, s2, g1, g2, g3⟩ := hf a (h3 a rfl) s1
    exact ⟨r, s2, g1, fun hh => by have := h2 hh; have := g2 hh; omega, g3⟩

/-- the same with a bound for the sum -/
theorem fin_seq {α β : Type} {x : U α} {f : α → U β} {n m k : Nat} {P : α → Prop} {Q : β → Prop} (hx : Fin H x n P) (hf : ∀ a, P a → Fin H (f a) m Q)
    (hk : H → n + m ≤ k) : Fin H (x >>= f) k Q := (fin_bind hx hf).mono hk (fun _ h => h)

theorem fin_pure {α : Type} {P : α → Prop} (a : α) (h : P a) : Fin H (pure a : U α) 0 P :=
  fun s => ⟨.ok a, s, rfl, fun _ => Nat.le_refl _, fun b hb => by cases hb; exact h⟩

theorem fins_pure {α : Type} (a : α) : Fins H (pure a : U α) 0 := fin_pure a trivial

theorem fins_throw {α : Type} (e : Exc) (n : Nat) : Fins H (PyM.throw e : U α) n :=
  fun s => ⟨.error e, s, rfl, fun _ => Nat.le_add_right _ _, fun b hb => by cases hb⟩

theorem fin_throw {α : Type} {P : α → Prop} (e : Exc) : Fin H (PyM.throw e : U α) 0 P :=
  fun s => ⟨.error e, s, rfl, fun _ => Nat.le_refl _, fun b hb => by cases hb⟩

theorem fin_ofExcept {α : Type} (e : Except Exc α) : Fin H (PyM.ofExcept e : U α) 0 (fun a => e = .ok a) :=
  fun s => ⟨e, s, rfl, fun _ => Nat.le_refl _, fun _ hb => hb⟩

theorem fin_get : Fins H (PyM.get : U UState) 0 :=
  fun s => ⟨.ok s, s, rfl, fun _ => Nat.le_refl _, fun _ _ => trivial⟩

theorem fin_emit (e : Event) : Fins H (emit e) 1 :=
  fun s => ⟨.ok (), _, rfl, fun _ => by simp, fun _ _ => trivial⟩

/-- a function that always gives a result and leaves the log alone -/
theorem fin_quiet {α : Type} {x : U α} (h : ∀ s, ∃ r s', x s = some (r, s')) (hq : ∀ s r s', x s = some (r, s') → s'.log = s.log) : Fins H x 0 := by
  intro s
  obtain ⟨r, s', h1⟩ := h s
  exact ⟨r, s', h1, fun _ => by rw [hq s r s' h1]; exact Nat.le_refl _, fun _ _ => trivial⟩

theorem fin_tryCatch {α : Type} {x : U α} {p : Exc → Bool} {f : Exc → U α} {n m : Nat} {P : α → Prop} (hx : Fin H x n P) (hf : ∀ e, Fin H (f e) m P) :
    Fin H (PyM.tryCatch x p f) (n + m) P := by
  intro s
  obtain ⟨r, s1, h1, h2, h3⟩ := hx s
  unfold PyM.tryCatch
  rw [h1]
  cases r with
  | ok a => exact ⟨.ok a, s1, rfl, fun hh => by have := h2 hh; omega, h3⟩
  | error e =>
    simp only []
    split
    · obtain ⟨r, s2, g1, g2, g3⟩ := hf e s1
      exact ⟨r, s2, g1, fun hh => by have := h2 hh; have := g2 hh; omega, g3⟩
    · exact ⟨.error e, s1, rfl, fun hh => by have := h2 hh; omega, h3⟩

/-- the sum of the bounds for the elements -/
def sumOf {α : Type} (c : α → Nat) : List α → Nat
  | [] => 0
  | x :: xs => c x + sumOf c xs

theorem fin_mapM {α β : Type} {f : α → U β} {c : α → Nat} : ∀ {xs : List α}, (∀ x ∈ xs, Fins H (f x) (c x)) → Fins H (PyM.mapM f xs) (sumOf c xs)
  | [], _ => fins_pure _
  | x :: xs, h => by
    rw [mapM_cons]
    exact fin_seq (h x (List.mem_cons_self ..)) (fun _ _ => fin_seq (fin_mapM (fun y hy => h y (List.mem_cons_of_mem _ hy))) (fun _ _ => fins_pure _) (fun _ => Nat.le_refl _)) (fun _ => Nat.le_refl _)

theorem fin_foldM {α β : Type} {f : β → α → U β} {c : α → Nat} : ∀ {xs : List α} (b : β), (∀ x ∈ xs, ∀ b, Fins H (f b x) (c x)) → Fins H (PyM.foldM f b xs) (sumOf c xs)
  | [], _, _ => fins_pure _
  | x :: xs, b, h => by
    rw [foldM_cons]
    exact fin_seq (h x (List.mem_cons_self ..) b) (fun b' _ => fin_foldM b' (fun y hy => h y (List.mem_cons_of_mem _ hy))) (fun _ => Nat.le_refl _)

theorem fin_ite {α : Type} {c : Prop} [Decidable c] {x y : U α} {n : Nat} {P : α → Prop} (hx : c → Fin H x n P) (hy : ¬c → Fin H y n P) : Fin H (if c then x else y) n P := by
  split
  · next h => exact hx h
  · next h => exact hy h

/-! ### the small functions -/

theorem fin_alloc (o : Obj) : Fins H (alloc o) 0 := fin_quiet (fun _ => ⟨_, _, rfl⟩) (fun s r s' h => by cases h; rfl)
theorem fin_setCell (a o) : Fins H (setCell a o) 0 := fin_quiet (fun _ => ⟨_, _, rfl⟩) (fun s r s' h => by cases h; rfl)
theorem fin_fresh : Fins H fresh 0 := fin_quiet (fun _ => ⟨_, _, rfl⟩) (fun s r s' h => by cases h; rfl)
theorem fin_reset : Fins H reset 0 := fin_quiet (fun _ => ⟨_, _, rfl⟩) (fun s r s' h => by cases h; rfl)
theorem fin_modInst (a f) : Fins H (modInst a f) 0 := fin_quiet (fun _ => ⟨_, _, rfl⟩) (fun s r s' h => by
  unfold Unpickler.modInst at h
  rw [modify_run] at h
  cases h
  split <;> rfl)
theorem fin_mkref (v) : Fins H (mkref v) 0 := by
  intro s
  unfold mkref
  split <;> exact ⟨_, _, rfl, fun _ => Nat.le_refl _, fun _ _ => trivial⟩
theorem fin_swapref (p v) : Fins H (swapref p v) 0 := by
  intro s
  unfold swapref
  split <;> exact ⟨_, _, rfl, fun _ => Nat.le_refl _, fun _ _ => trivial⟩
theorem fin_noteProxy (a sl v) : Fins H (noteProxy a sl v) 0 := fin_quiet (fun _ => ⟨_, _, rfl⟩) (fun s r s' h => by
  unfold Unpickler.noteProxy at h
  rw [modify_run] at h
  cases h
  split <;> rfl)
theorem fin_noteEntry (a k v) : Fins H (noteEntry a k v) 0 := by
  intro s
  unfold noteEntry
  split
  · exact ⟨_, _, rfl, fun _ => Nat.le_refl _, fun _ _ => trivial⟩
  · exact fin_noteProxy a _ v s
theorem fin_setattr (a k v) : Fins H (setattr a k v) 0 := by
  intro s
  unfold setattr
  split
  · split
    · split
      · exact ⟨_, _, rfl, fun _ => Nat.le_refl _, fun _ _ => trivial⟩
      · split <;> exact ⟨_, _, rfl, fun _ => Nat.le_refl _, fun _ _ => trivial⟩
    · exact ⟨_, _, rfl, fun _ => Nat.le_refl _, fun _ _ => trivial⟩
  · exact ⟨_, _, rfl, fun _ => Nat.le_refl _, fun _ _ => trivial⟩
theorem fin_setItem (a k v) : Fins H (setItem a k v) 0 := by
  intro s
  unfold setItem
  repeat' split
  all_goals exact ⟨_, _, rfl, fun _ => Nat.le_refl _, fun _ _ => trivial⟩
theorem fin_setAttrMangled (a k v) : Fins H (setAttrMangled a k v) 0 := by
  intro s
  unfold setAttrMangled
  split
  · split
    · split
      · exact fin_setattr a _ v s
      · exact ⟨_, _, rfl, fun _ => Nat.le_refl _, fun _ _ => trivial⟩
    · exact fin_setattr a _ v s
  all_goals exact ⟨_, _, rfl, fun _ => Nat.le_refl _, fun _ _ => trivial⟩
theorem fin_storeRaw (a k v) : Fins H (storeRaw a k v) 0 := by
  intro s
  unfold storeRaw
  split
  · exact fin_setItem a k v s
  · exact fin_setAttrMangled a k v s
theorem fin_dictSet (a k v) : Fins H (dictSet a k v) 0 := by
  intro s
  unfold dictSet
  repeat' split
  all_goals exact ⟨_, _, rfl, fun _ => Nat.le_refl _, fun _ _ => trivial⟩
theorem fin_fixFactory (v) : Fins H (fixFactory v) 0 := fin_quiet (fun _ => ⟨_, _, rfl⟩) (fun s r s' h => by
  unfold Unpickler.fixFactory at h
  rw [modify_run] at h
  cases h
  repeat' split
  all_goals rfl)
theorem fin_swapOne (e) : Fins H (swapOne e) 0 := by
  intro s
  unfold swapOne
  dsimp only
  split
  · exact ⟨_, _, rfl, fun _ => Nat.le_refl _, fun _ _ => trivial⟩
  · exact ⟨_, _, rfl, fun _ => Nat.le_refl _, fun _ _ => trivial⟩
  · exact fin_setattr _ _ _ s
  · exact ⟨_, _, rfl, fun _ => Nat.le_refl _, fun _ _ => trivial⟩
  · exact ⟨_, _, rfl, fun _ => Nat.le_refl _, fun _ _ => trivial⟩

theorem sumOf_zero {α : Type} : ∀ xs : List α, sumOf (fun _ => 0) xs = 0
  | [] => rfl
  | _ :: xs => by rw [sumOf, sumOf_zero xs]

/-- a loop that leaves the log alone -/
theorem fin_mapM0 {α β : Type} {f : α → U β} {xs : List α} (h : ∀ x ∈ xs, Fins H (f x) 0) : Fins H (PyM.mapM f xs) 0 :=
  (fin_mapM (c := fun _ => 0) h).le (fun _ => Nat.le_of_eq (sumOf_zero xs))

/-- one after the other, without events -/
theorem fin_bind0 {α β : Type} {x : U α} {f : α → U β} {m : Nat} {P : α → Prop} {Q : β → Prop} (hx : Fin H x 0 P) (hf : ∀ a, P a → Fin H (f a) m Q) :
    Fin H (x >>= f) m Q := fin_seq hx hf (fun _ => Nat.le_of_eq (Nat.zero_add m))

theorem fin_swapProxies : Fins H swapProxies 0 := by
  unfold swapProxies
  exact fin_bind0 fin_get (fun _ _ => fin_bind0 (fin_mapM0 (fun e _ => fin_swapOne e)) (fun _ _ => fin_quiet (fun _ => ⟨_, _, rfl⟩) (fun s r s' h => by cases h; rfl)))

mutual
theorem fin_raw : ∀ j, Fins H (raw j) 0
  | .null => by unfold raw; exact fins_pure _
  | .bool _ => by unfold raw; exact fins_pure _
  | .int _ => by unfold raw; exact fins_pure _
  | .float _ => by unfold raw; exact fins_pure _
  | .str _ => by unfold raw; exact fins_pure _
  | .arr xs => by
    unfold raw
    exact fin_bind0 (fin_raws xs) (fun _ _ => fin_bind0 (fin_alloc _) (fun _ _ => fins_pure _))
  | .obj kvs => by
    unfold raw
    exact fin_bind0 (fin_rawKvs kvs) (fun _ _ => fin_bind0 (fin_alloc _) (fun _ _ => fins_pure _))
theorem fin_raws : ∀ xs, Fins H (raws xs) 0
  | [] => by unfold raws; exact fins_pure _
  | x :: xs => by
    unfold raws
    exact fin_bind0 (fin_raw x) (fun _ _ => fin_bind0 (fin_raws xs) (fun _ _ => fins_pure _))
theorem fin_rawKvs : ∀ kvs, Fins H (rawKvs kvs) 0
  | [] => by unfold rawKvs; exact fins_pure _
  | (k, x) :: xs => by
    unfold rawKvs
    exact fin_bind0 (fin_raw x) (fun _ _ => fin_bind0 (fin_rawKvs xs) (fun _ _ => fins_pure _))
end

theorem fin_noteList (a) : ∀ n vs, Fins H (noteList a n vs) 0
  | _, [] => fins_pure _
  | n, v :: vs => by
    unfold noteList
    exact fin_bind0 (fin_noteProxy a _ v) (fun _ _ => fin_noteList a _ vs)

/-! ### extents -/

theorem extent_le_of_mem : ∀ {xs : List Json} {x : Json}, x ∈ xs → x.extent ≤ Json.extentL xs
  | y :: xs, x, h => by
    rcases List.mem_cons.1 h with e | h
    · subst e; exact Nat.le_add_right _ _
    · exact Nat.le_trans (extent_le_of_mem h) (Nat.le_add_left _ _)

theorem extent_le_of_memKv : ∀ {kvs : List (Str × Json)} {kv : Str × Json}, kv ∈ kvs → kv.1.length + kv.2.extent ≤ Json.extentKv kvs
  | (k, y) :: xs, x, h => by
    rcases List.mem_cons.1 h with e | h
    · subst e; exact Nat.le_add_right _ _
    · exact Nat.le_trans (extent_le_of_memKv h) (Nat.le_add_left _ _)

/-- the extent of an entry -/
def ext (t : Str) (kvs : List (Str × Json)) : Nat := match dget t kvs with
  | some j => j.extent
  | none => 0

theorem ext_of {t : Str} {kvs : List (Str × Json)} {j : Json} (h : dget t kvs = some j) : ext t kvs = j.extent := by
  unfold ext; rw [h]

theorem ddel_cons_same (k : Str) (x : Json) (r : List (Str × Json)) : ddel k ((k, x) :: r) = ddel k r := by simp [ddel]

theorem ddel_cons_ne {k t : Str} (h : k ≠ t) (x : Json) (r : List (Str × Json)) : ddel t ((k, x) :: r) = (k, x) :: ddel t r := by simp [ddel, h]

theorem ext_ddel (t : Str) : ∀ kvs : List (Str × Json), ext t kvs + Json.extentKv (ddel t kvs) ≤ Json.extentKv kvs
  | [] => Nat.le_refl _
  | (k, x) :: r => by
    have ih := ext_ddel t r
    by_cases e : k = t
    · subst e
      rw [ddel_cons_same]
      have h1 : ext k ((k, x) :: r) = x.extent := ext_of (by rw [dget_cons, if_pos rfl])
      rw [h1, Json.extentKv]
      omega
    · rw [ddel_cons_ne e]
      have h1 : ext t ((k, x) :: r) = ext t r := by unfold ext; rw [dget_cons, if_neg e]
      rw [h1, Json.extentKv, Json.extentKv]
      omega

theorem extentKv_ddel (t : Str) (kvs : List (Str × Json)) : Json.extentKv (ddel t kvs) ≤ Json.extentKv kvs := Nat.le_trans (Nat.le_add_left _ _) (ext_ddel t kvs)

theorem ext_le (t : Str) (kvs : List (Str × Json)) : ext t kvs ≤ Json.extentKv kvs := Nat.le_trans (Nat.le_add_right _ _) (ext_ddel t kvs)

theorem dget_le {t : Str} {kvs : List (Str × Json)} {j : Json} (h : dget t kvs = some j) : j.extent ≤ Json.extentKv kvs := ext_of h ▸ ext_le t kvs

theorem ext_ddel_ne {t u : Str} (h : t ≠ u) (kvs : List (Str × Json)) : ext t (ddel u kvs) = ext t kvs := by
  unfold ext
  rw [dget_ddel_ne h]

/-- the extent of the entries that are attributes or items -/
def plainExt : List (Str × Json) → Nat
  | [] => 0
  | (k, x) :: r => (if Tags.isReserved k then 0 else k.length + x.extent) + plainExt r

theorem plainExt_le : ∀ kvs, plainExt kvs ≤ Json.extentKv kvs
  | [] => Nat.le_refl _
  | (k, x) :: r => by
    have := plainExt_le r
    simp only [plainExt, Json.extentKv]
    split <;> omega

theorem plainExt_ddel {t : Str} (ht : Tags.isReserved t = true) : ∀ kvs, plainExt (ddel t kvs) = plainExt kvs
  | [] => rfl
  | (k, x) :: r => by
    have ih := plainExt_ddel ht r
    by_cases e : k = t
    · subst e
      rw [ddel_cons_same, plainExt, if_pos ht, Nat.zero_add, ih]
    · rw [ddel_cons_ne e, plainExt, plainExt, ih]

theorem sum_parts : ∀ {ts : List Str}, ts.Nodup → (∀ t ∈ ts, Tags.isReserved t = true) → ∀ kvs, sumOf (ext · kvs) ts + plainExt kvs ≤ Json.extentKv kvs
  | [], _, _, kvs => by simpa [sumOf] using plainExt_le kvs
  | t :: ts, hn, hr, kvs => by
    have h1 := ext_ddel t kvs
    have h2 := sum_parts (List.nodup_cons.1 hn).2 (fun u hu => hr u (List.mem_cons_of_mem _ hu)) (ddel t kvs)
    rw [plainExt_ddel (hr t (List.mem_cons_self ..))] at h2
    have h3 : ∀ us : List Str, t ∉ us → sumOf (ext · (ddel t kvs)) us = sumOf (ext · kvs) us := by
      intro us
      induction us with
      | nil => intro _; rfl
      | cons u us ih =>
        intro hu
        simp only [sumOf]
        rw [ih (fun h => hu (List.mem_cons_of_mem _ h)), ext_ddel_ne (fun e => hu (List.mem_cons.2 (Or.inl e.symm)))]
    rw [h3 ts (List.nodup_cons.1 hn).1] at h2
    simp only [sumOf]
    omega

theorem sumOf_extent : ∀ xs : List Json, sumOf (fun x : Json => 5 * x.extent) xs = 5 * Json.extentL xs
  | [] => rfl
  | x :: xs => by
    rw [sumOf, sumOf_extent xs, Json.extentL]
    omega

theorem jsonIter_extent {j : Json} {xs : List Json} (h : jsonIter j = .ok xs) : Json.extentL xs ≤ j.extent := by
  have hs : ∀ ss : List Str, Json.extentL (ss.map (fun s => Json.str s)) = 0 := by
    intro ss
    induction ss with
    | nil => rfl
    | cons s ss ih => simp only [List.map_cons, Json.extentL, ih, Json.extent]
  cases j with
  | arr ys =>
    cases h
    exact Nat.le_succ _
  | obj kvs =>
    cases h
    have := hs (kvs.map (·.1))
    rw [List.map_map] at this
    exact Nat.le_trans (Nat.le_of_eq this) (Nat.zero_le _)
  | str s =>
    cases h
    have := hs (s.map (fun c => [c]))
    rw [List.map_map] at this
    exact Nat.le_trans (Nat.le_of_eq this) (Nat.zero_le _)
  | _ => cases h

/-! ### the functions that restore parts of the document -/

section
variable {env : UEnv} {rs : Json → U Val} {m : Nat} (hrs : ∀ x : Json, x.extent < m → Fins H (rs x) (5 * x.extent))
include hrs

theorem fin_elems {xs : List Json} (hm : Json.extentL xs < m) : Fins H (PyM.mapM rs xs) (5 * Json.extentL xs) :=
  (fin_mapM (c := fun x : Json => 5 * x.extent) (fun x hx => hrs x (Nat.lt_of_le_of_lt (extent_le_of_mem hx) hm))).le (fun _ => Nat.le_of_eq (sumOf_extent xs))

theorem fin_restoreList {r : Except Exc (List Json)} {n : Nat} (hn : ∀ xs, r = .ok xs → Json.extentL xs ≤ n) (hm : n < m) : Fins H (restoreList rs r) (5 * n) := by
  unfold restoreList
  refine fin_bind0 (fin_alloc _) (fun a _ => fin_bind0 (fin_mkref _) (fun _ _ => fin_bind0 (fin_ofExcept r) (fun xs hx => ?_)))
  have hx := hn xs hx
  exact fin_seq (fin_elems hrs (Nat.lt_of_le_of_lt hx hm)) (fun vs _ => fin_bind0 (fin_setCell _ _) (fun _ _ => fin_bind0 (fin_noteList a 0 vs) (fun _ _ => fins_pure _))) (fun _ => by omega)

omit hrs in
theorem item_ok {t : Str} {kvs : List (Str × Json)} {j : Json} (h : item t kvs = .ok j) : dget t kvs = some j := by
  unfold item at h
  cases hd : dget t kvs with
  | none => rw [hd] at h; cases h
  | some x => rw [hd] at h; cases h; rfl

theorem fin_restoreIterator {kvs : List (Str × Json)} (hm : Json.extentKv kvs < m) : Fins H (restoreIterator rs kvs) (5 * Json.extentKv kvs) := by
  unfold restoreIterator
  refine fin_seq (n := 5 * Json.extentKv kvs) (m := 0) (P := fun _ => True) ((fin_tryCatch (n := 5 * Json.extentKv kvs) (m := 0) ?_ (fun _ => fin_alloc _)).le (fun _ => Nat.le_refl _))
    (fun a _ => fin_bind0 (fin_alloc _) (fun _ _ => fins_pure _)) (fun _ => Nat.le_refl _)
  refine fin_bind0 (fin_ofExcept _) (fun j hj => ?_)
  have hj := dget_le (item_ok hj)
  exact (fin_restoreList hrs (n := j.extent) (fun xs hx => jsonIter_extent hx) (by omega)).le (fun _ => by omega)

theorem fin_restoreTuple {kvs : List (Str × Json)} (hm : Json.extentKv kvs < m) : Fins H (restoreTuple rs kvs) (5 * Json.extentKv kvs) := by
  unfold restoreTuple
  refine fin_seq (n := 5 * Json.extentKv kvs) (m := 0) (P := fun _ => True) ((fin_tryCatch (n := 5 * Json.extentKv kvs) (m := 0) ?_ (fun _ => fins_pure _)).le (fun _ => Nat.le_refl _))
    (fun a _ => fin_bind0 fin_fresh (fun _ _ => fins_pure _)) (fun _ => Nat.le_refl _)
  refine fin_bind0 (fin_ofExcept _) (fun j hj => fin_bind0 (fin_ofExcept _) (fun xs hx => ?_))
  have hj := dget_le (item_ok hj)
  have hx := jsonIter_extent hx
  exact (fin_elems hrs (by omega)).le (fun _ => by omega)

theorem fin_restoreSet {kvs : List (Str × Json)} (hm : Json.extentKv kvs < m) : Fins H (restoreSet rs kvs) (5 * Json.extentKv kvs) := by
  unfold restoreSet
  refine fin_seq (n := 5 * Json.extentKv kvs) (m := 0) (P := fun _ => True) ((fin_tryCatch (n := 5 * Json.extentKv kvs) (m := 0) ?_ (fun _ => fins_pure _)).le (fun _ => Nat.le_refl _))
    (fun a _ => fin_bind0 fin_fresh (fun _ _ => fins_pure _)) (fun _ => Nat.le_refl _)
  refine fin_bind0 (fin_ofExcept _) (fun j hj => fin_bind0 (fin_ofExcept _) (fun xs hx => ?_))
  have hj := dget_le (item_ok hj)
  have hx := jsonIter_extent hx
  refine (fin_foldM (c := fun x : Json => 5 * x.extent) [] (fun x hx b => ?_)).le (fun _ => by rw [sumOf_extent]; omega)
  have := extent_le_of_mem hx
  exact fin_seq (hrs x (by omega)) (fun v _ => fin_bind0 fin_get (fun s _ => fin_ite (fun _ => fins_pure _) (fun _ => fin_throw _))) (fun _ => Nat.le_refl _)

omit hrs in
theorem fin_loadclassJ (j : Json) : Fin H (loadclassJ env j) 1 (fun c => ∃ n, j = .str n ∧ c = env.loadclass n) := by
  unfold loadclassJ
  cases j with
  | str s => exact fin_seq (fin_emit _) (fun _ _ => fin_pure _ ⟨s, rfl, rfl⟩) (fun _ => Nat.le_refl _)
  | _ => exact (fin_throw _).mono (fun _ => Nat.zero_le _) (fun _ h => h)

omit hrs in
theorem fin_reduceFallback (p) : Fins H (reduceFallback p) 0 := by
  unfold reduceFallback
  exact fin_bind0 (fin_alloc _) (fun _ _ => fin_bind0 (fin_setCell _ _) (fun _ _ => fin_bind0 (fin_swapref _ _) (fun _ _ => fins_pure _)))

omit hrs in
theorem fin_emitSetter (ops) : Fins H (emitSetter ops) 1 := by
  unfold emitSetter
  split
  · exact fin_emit _
  · exact fin_emit _
  · exact (fins_pure _).le (fun _ => Nat.zero_le _)

omit hrs in
theorem fin_reduceFinish (p cls vals c d e g) : Fins H (reduceFinish env p cls vals c d e g) 1 := by
  unfold reduceFinish
  refine fin_bind0 fin_get (fun s _ => fin_bind0 (fin_ofExcept _) (fun st _ => fin_seq (m := 0) (fin_emitSetter _) (fun _ _ => ?_) (fun _ => Nat.le_refl _)))
  exact fin_bind0 (fin_ofExcept _) (fun _ _ => fin_bind0 (fin_ofExcept _) (fun _ _ => fin_bind0 (fin_alloc _) (fun _ _ => fin_bind0 (fin_setCell _ _) (fun _ _ => fin_bind0 (fin_swapref _ _) (fun _ _ => fins_pure _)))))

omit hrs in
theorem fin_reduceBuild (p vals) : Fins H (reduceBuild env p vals) 2 := by
  have hc : ∀ n f c d e g, Fins H (do emit (.call n); reduceFinish env p n f c d e g) 2 := fun n f c d e g =>
    fin_seq (fin_emit _) (fun _ _ => fin_reduceFinish p n f c d e g) (fun _ => Nat.le_refl _)
  have ht : Fins H (PyM.throw .typeError : U Val) 2 := fins_throw _ _
  unfold reduceBuild
  split
  · refine fin_bind0 fin_get (fun s _ => fin_ite (fun _ => ?_) (fun _ => ?_))
    · refine fin_bind0 (fin_ofExcept _) (fun a _ => ?_)
      split
      · exact fin_ite (fun _ => hc _ _ _ _ _ _) (fun _ => ht)
      · exact ht
    · split
      · split
        · exact ht
        · exact fin_ite (fun _ => hc _ _ _ _ _ _) (fun _ => ht)
      · split
        · exact ht
        · exact fin_ite (fun _ => hc _ _ _ _ _ _) (fun _ => ht)
      · exact (fin_reduceFallback p).le (fun _ => Nat.zero_le _)
  · exact fins_throw _ _

theorem fin_restoreReduce {kvs : List (Str × Json)} (hm : Json.extentKv kvs < m) : Fins H (restoreReduce env rs kvs) (5 * Json.extentKv kvs + 2) := by
  unfold restoreReduce
  refine fin_bind0 (fin_alloc _) (fun p _ => fin_bind0 (fin_mkref _) (fun _ _ => ?_))
  refine fin_seq (n := 5 * Json.extentKv kvs) (m := 2) (P := fun _ => True) ((fin_tryCatch (n := 5 * Json.extentKv kvs) (m := 0) ?_ (fun _ => fins_pure _)).le (fun _ => Nat.le_refl _))
    (fun r _ => ?_) (fun _ => Nat.le_refl _)
  · refine fin_bind0 (fin_ofExcept _) (fun j hj => fin_bind0 (fin_ofExcept _) (fun xs hx => ?_))
    have hj := dget_le (item_ok hj)
    have hx := jsonIter_extent hx
    exact fin_seq (fin_elems hrs (by omega)) (fun _ _ => fins_pure _) (fun _ => by omega)
  · cases r with
    | none => exact (fin_reduceFallback p).le (fun _ => Nat.zero_le _)
    | some vs => exact fin_reduceBuild p _

omit hrs in
theorem fin_restoreId (kvs) : Fins H (restoreId kvs) 0 := by
  have hl : ∀ n, Fins H (idLookup n) 0 := by
    intro n
    unfold idLookup
    refine fin_bind0 fin_get (fun s _ => ?_)
    split
    · exact fins_pure _
    · exact fin_bind0 (fin_alloc _) (fun _ _ => fins_pure _)
  unfold restoreId
  refine fin_bind0 (fin_ofExcept _) (fun j _ => ?_)
  split
  · exact hl _
  · exact hl _
  · exact fins_pure _

omit hrs in
theorem fin_restoreType (kvs) : Fins H (restoreType env kvs) 1 := by
  unfold restoreType
  refine fin_bind0 (fin_ofExcept _) (fun j _ => fin_seq (m := 0) (fin_loadclassJ j) (fun c _ => ?_) (fun _ => Nat.le_refl _))
  split
  · exact fins_pure _
  · exact fin_raw _

omit hrs in
theorem fin_restoreModule (j) : Fins H (restoreModule env j) 1 := by
  unfold restoreModule
  split
  · exact fin_seq (fin_emit _) (fun _ _ => fin_bind0 (fin_ofExcept _) (fun _ _ => fin_mkref _)) (fun _ => Nat.le_refl _)
  · exact fins_throw _ _

omit hrs in
theorem fin_restoreRepr (j) : Fins H (restoreRepr env j) 1 := by
  unfold restoreRepr
  split
  · exact fin_seq (fin_emit _) (fun _ _ => fin_bind0 (fin_ofExcept _) (fun _ _ => fin_mkref _)) (fun _ => Nat.le_refl _)
  · exact fins_throw _ _

omit hrs in
theorem fin_restoreFunction (kvs) : Fins H (restoreFunction env kvs) 1 := by
  unfold restoreFunction
  exact fin_bind0 (fin_ofExcept _) (fun j _ => fin_seq (m := 0) (fin_loadclassJ j) (fun c _ => fins_pure _) (fun _ => Nat.le_refl _))

omit hrs in
theorem fin_processMissing (n) : Fins H (processMissing env n) 1 := by
  unfold processMissing
  split
  · exact (fins_pure _).le (fun _ => Nat.zero_le _)
  · exact fin_emit _
  · exact fin_emit _
  · exact fin_seq (fin_emit _) (fun _ _ => fin_throw _) (fun _ => Nat.le_refl _)

omit hrs in
theorem fin_missingRaw (n : Str) (kvs) : Fins H (do processMissing env n; let r ← raw (.obj kvs); mkref r) 1 :=
  fin_seq (fin_processMissing n) (fun _ _ => fin_bind0 (fin_raw _) (fun _ _ => fin_mkref _)) (fun _ => Nat.le_refl _)

/-- what is left of the entries when the factory is taken out -/
def facRest (kvs : List (Str × Json)) : List (Str × Json) := match factoryKey kvs with
  | none => kvs
  | some k => ddel k kvs

/-- the extent of the factory -/
def facExt (kvs : List (Str × Json)) : Nat := match factoryKey kvs with
  | none => 0
  | some k => ext k kvs

omit hrs in
theorem fac_sum (kvs) : facExt kvs + Json.extentKv (facRest kvs) ≤ Json.extentKv kvs := by
  unfold facExt facRest
  split
  · omega
  · exact ext_ddel _ _

omit hrs in
theorem facRest_get {t : Str} (kvs) (h1 : t ≠ Tags.DEFAULT_FACTORY) (h2 : t ≠ p!"default_factory") : dget t (facRest kvs) = dget t kvs := by
  unfold facRest factoryKey
  split
  · rfl
  · next k hk =>
    split at hk
    · cases hk; exact dget_ddel_ne h1 _
    · split at hk
      · cases hk; exact dget_ddel_ne h2 _
      · cases hk

theorem fin_loadFactory {kvs : List (Str × Json)} (hm : Json.extentKv kvs < m) : Fin H (loadFactory rs kvs) (5 * facExt kvs) (fun p => p.2 = facRest kvs) := by
  unfold loadFactory
  cases hf : factoryKey kvs with
  | none => exact (fin_pure _ (by unfold facRest; rw [hf])).mono (fun _ => Nat.zero_le _) (fun _ h => h)
  | some k =>
    simp only []
    have hr : ddel k kvs = facRest kvs := by unfold facRest; rw [hf]
    have he : facExt kvs = ext k kvs := by unfold facExt; rw [hf]
    have hp : Fin H (pure (Val.none, ddel k kvs) : U (Val × List (Str × Json))) (5 * facExt kvs) (fun p => p.2 = facRest kvs) :=
      (fin_pure (P := fun p : Val × List (Str × Json) => p.2 = facRest kvs) _ hr).mono (fun _ => Nat.zero_le _) (fun _ h => h)
    cases hd : dget k kvs with
    | none => exact hp
    | some j =>
      have h1 := dget_le hd
      have h2 := ext_of hd
      have hgo : Fin H (do let v ← rs j; pure (v, ddel k kvs)) (5 * facExt kvs) (fun p => p.2 = facRest kvs) :=
        fin_seq (hrs j (by omega)) (fun _ _ => fin_pure _ hr) (fun _ => by rw [he, h2]; exact Nat.le_refl _)
      cases j with
      | null => exact hp
      | _ => exact hgo

/-! ### keys and entries -/

omit hrs in
theorem sumOf_le {α : Type} {c d : α → Nat} : ∀ {xs : List α}, (∀ x ∈ xs, c x ≤ d x) → sumOf c xs ≤ sumOf d xs
  | [], _ => Nat.le_refl _
  | x :: xs, h => Nat.add_le_add (h x (List.mem_cons_self ..)) (sumOf_le (fun y hy => h y (List.mem_cons_of_mem _ hy)))

omit hrs in
theorem sumOf_entries : ∀ kvs : List (Str × Json), sumOf (fun kv : Str × Json => 5 * (kv.1.length + kv.2.extent)) kvs = 5 * Json.extentKv kvs
  | [] => rfl
  | (k, x) :: r => by
    rw [sumOf, sumOf_entries r, Json.extentKv]
    dsimp only
    omega

omit hrs in
theorem sumOf_plain : ∀ kvs : List (Str × Json), sumOf (fun kv : Str × Json => if Tags.isReserved kv.1 then 0 else 5 * (kv.1.length + kv.2.extent)) kvs = 5 * plainExt kvs
  | [] => rfl
  | (k, x) :: r => by
    rw [sumOf, sumOf_plain r, plainExt]
    dsimp only
    split <;> omega

omit hrs in
theorem fin_storeEntry (a k v) : Fins H (storeEntry a k v) 0 := by
  unfold storeEntry
  exact fin_bind0 (fin_storeRaw a k v) (fun _ _ => fin_noteEntry a k v)

omit hrs in
theorem fin_restoreFromVals (a kvs) : Fins H (restoreFromVals a kvs) 0 := by
  unfold restoreFromVals
  exact fin_bind0 (fin_mapM0 (fun kv _ => fin_storeEntry a kv.1 kv.2)) (fun _ _ => fins_pure _)

omit hrs in
theorem fin_applyOtherState (a st) : Fins H (applyOtherState a st) 0 := by
  unfold applyOtherState
  refine fin_bind0 fin_get (fun s _ => ?_)
  split
  · split
    · refine fin_bind0 (fin_restoreFromVals a _) (fun _ _ => ?_)
      split
      · exact fin_bind0 (fin_restoreFromVals a _) (fun _ _ => fins_pure _)
      · exact fins_pure _
    · exact fin_ite (fun _ => fins_pure _) (fun _ => fins_pure _)
  · exact fin_ite (fun _ => fins_pure _) (fun _ => fins_pure _)

theorem fin_restoreState (a) {j : Json} (hm : j.extent < m) : Fins H (restoreState rs a j) (5 * j.extent) := by
  unfold restoreState
  refine fin_seq (m := 0) (hrs j hm) (fun st _ => fin_bind0 fin_get (fun s _ => fin_ite (fun _ => ?_) (fun _ => ?_))) (fun _ => Nat.le_refl _)
  · exact fin_bind0 (fin_modInst _ _) (fun _ _ => fins_pure _)
  · split
    · exact fin_bind0 (fin_restoreFromVals a _) (fun _ _ => fins_pure _)
    · exact fin_applyOtherState a st

theorem fin_restoreSeq (a) {j : Json} (hm : j.extent < m) : Fins H (restoreSeq rs a j) (5 * j.extent) := by
  unfold restoreSeq
  refine fin_bind0 fin_get (fun s _ => ?_)
  split
  · refine fin_bind0 (fin_ofExcept _) (fun xs hx => ?_)
    have hx := jsonIter_extent hx
    refine fin_seq (m := 0) (fin_mapM (c := fun x : Json => 5 * x.extent) (fun x hx => ?_)) (fun _ _ => fins_pure _) (fun _ => by rw [sumOf_extent]; omega)
    have := extent_le_of_mem hx
    exact fin_seq (hrs x (by omega)) (fun v _ => fin_modInst _ _) (fun _ => Nat.le_refl _)
  · refine fin_bind0 (fin_ofExcept _) (fun xs hx => ?_)
    have hx := jsonIter_extent hx
    refine fin_seq (m := 0) (fin_mapM (c := fun x : Json => 5 * x.extent) (fun x hx => ?_)) (fun _ _ => fins_pure _) (fun _ => by rw [sumOf_extent]; omega)
    have := extent_le_of_mem hx
    exact fin_seq (m := 0) (hrs x (by omega)) (fun v _ => fin_bind0 fin_get (fun s _ => fin_ite (fun _ => fin_modInst _ _) (fun _ => fins_throw _ _))) (fun _ => Nat.le_refl _)
  · exact (fins_pure _).le (fun _ => Nat.zero_le _)

theorem fin_restoreSeqTag (a) {kvs : List (Str × Json)} (hm : Json.extentKv kvs < m) : Fins H (restoreSeqTag rs a kvs) (5 * ext Tags.SEQ kvs) := by
  unfold restoreSeqTag
  cases hd : dget Tags.SEQ kvs with
  | none => exact (fins_pure _).le (fun _ => Nat.zero_le _)
  | some j =>
    have h1 := dget_le hd
    rw [ext_of hd]
    exact fin_restoreSeq hrs a (by omega)

section
variable (hL : ∀ t j, env.loads t = some j → j.extent ≤ t.length)
include hL

theorem fin_restorePickledKey {k : Str} (hm : k.length < m) : Fins H (restorePickledKey env rs k) (5 * k.length) := by
  unfold restorePickledKey
  refine fin_ite (fun _ => ?_) (fun _ => (fins_pure _).le (fun _ => Nat.zero_le _))
  split
  · exact fins_throw _ _
  · next j hj =>
    have h1 := hL _ _ hj
    rw [List.length_drop] at h1
    exact (hrs j (by omega)).le (fun _ => by omega)

theorem fin_restoreKey {k : Str} (hm : k.length < m) : Fins H (restoreKey env rs k) (5 * k.length) := by
  unfold restoreKey
  exact fin_ite (fun _ => fin_restorePickledKey hrs hL hm) (fun _ => (fins_pure _).le (fun _ => Nat.zero_le _))

theorem fin_restoreFromJson (a) {kvs : List (Str × Json)} (hm : Json.extentKv kvs < m) : Fins H (restoreFromJson env rs a kvs) (5 * plainExt kvs) := by
  unfold restoreFromJson
  rw [← sumOf_plain]
  refine fin_seq (m := 0) (fin_mapM (c := fun kv : Str × Json => if Tags.isReserved kv.1 then 0 else 5 * (kv.1.length + kv.2.extent)) (fun kv hkv => ?_)) (fun _ _ => fins_pure _) (fun _ => Nat.le_refl _)
  have h1 := extent_le_of_memKv hkv
  split
  · exact fins_pure _
  · exact fin_seq (fin_restoreKey hrs hL (by omega)) (fun k _ => fin_seq (m := 0) (hrs kv.2 (by omega)) (fun v _ => fin_storeEntry a k v) (fun _ => Nat.le_refl _)) (fun _ => by omega)

theorem fin_restoreVariables (a) {kvs : List (Str × Json)} (hm : Json.extentKv kvs < m) :
    Fins H (restoreVariables env rs a kvs) (5 * (plainExt kvs + ext Tags.SEQ kvs + ext Tags.STATE kvs)) := by
  unfold restoreVariables
  refine fin_seq (fin_restoreFromJson hrs hL a hm) (fun _ _ => fin_seq (m := 5 * ext Tags.STATE kvs) (fin_restoreSeqTag hrs a hm) (fun _ _ => ?_) (fun _ => Nat.le_refl _)) (fun _ => by omega)
  cases hd : dget Tags.STATE kvs with
  | none => exact (fins_pure _).le (fun _ => Nat.zero_le _)
  | some j =>
    have h1 := dget_le hd
    rw [ext_of hd]
    exact fin_restoreState hrs a (by omega)

/-! ### dicts -/

theorem fin_restoreDict {kvs : List (Str × Json)} (hm : Json.extentKv kvs < m) : Fins H (restoreDict env rs kvs) (5 * Json.extentKv kvs) := by
  unfold restoreDict
  have hv : ∀ a, Fins H (mkrefUnlessV1 env a) 0 := by
    intro a
    unfold mkrefUnlessV1
    exact fin_ite (fun _ => fins_pure _) (fun _ => fin_bind0 (fin_mkref _) (fun _ _ => fins_pure _))
  refine fin_bind0 (fin_alloc _) (fun a _ => fin_bind0 (hv a) (fun _ _ => fin_ite (fun _ => ?_) (fun _ => ?_)))
  · have hsum : ∀ l : List (Str × Json), sumOf (fun kv : Str × Json => if isJsonKey kv.1 then 0 else 5 * kv.2.extent) l
        + sumOf (fun kv : Str × Json => if isJsonKey kv.1 then 5 * (kv.1.length + kv.2.extent) else 0) l ≤ 5 * Json.extentKv l := by
      intro l
      induction l with
      | nil => exact Nat.le_refl _
      | cons kv l ih =>
        obtain ⟨k, x⟩ := kv
        simp only [sumOf, Json.extentKv]
        split <;> omega
    refine fin_seq (fin_mapM (c := fun kv : Str × Json => if isJsonKey kv.1 then 0 else 5 * kv.2.extent) (fun kv hkv => ?_))
      (fun _ _ => fin_seq (m := 0) (fin_mapM (c := fun kv : Str × Json => if isJsonKey kv.1 then 5 * (kv.1.length + kv.2.extent) else 0) (fun kv hkv => ?_))
        (fun _ _ => fins_pure _) (fun _ => Nat.le_refl _)) (fun _ => hsum kvs)
    · have h1 := extent_le_of_memKv hkv
      unfold dictEntry1
      split
      · exact fins_pure _
      · exact fin_seq (m := 0) (hrs kv.2 (by omega)) (fun v _ => fin_dictSet _ _ _) (fun _ => Nat.le_refl _)
    · have h1 := extent_le_of_memKv hkv
      unfold dictEntry2
      split
      · exact fin_seq (fin_restorePickledKey hrs hL (by omega)) (fun k _ => fin_seq (m := 0) (hrs kv.2 (by omega)) (fun v _ => fin_bind0 (fin_dictSet _ _ _) (fun _ _ => fin_noteProxy _ _ _)) (fun _ => Nat.le_refl _)) (fun _ => by omega)
      · exact fins_pure _
  · refine fin_seq (m := 0) (fin_mapM (c := fun kv : Str × Json => 5 * (kv.1.length + kv.2.extent)) (fun kv hkv => ?_)) (fun _ _ => fins_pure _) (fun _ => by rw [sumOf_entries]; exact Nat.le_refl _)
    have h1 := extent_le_of_memKv hkv
    unfold dictEntry
    exact fin_seq (m := 0) (hrs kv.2 (by omega)) (fun v _ => fin_bind0 (fin_dictSet _ _ _) (fun _ _ => fin_noteProxy _ _ _)) (fun _ => by omega)

end

/-! ### instances -/

/-- the extent of constructor arguments (falsy ones are used as they are) -/
def argExt (j : Json) : Nat := if jsonTruthy j then j.extent else 0

omit hrs in
theorem argExt_le (j : Json) : argExt j ≤ j.extent := by
  unfold argExt
  split
  · exact Nat.le_refl _
  · exact Nat.zero_le _

theorem fin_restoreArg {j : Json} (hm : argExt j < m) : Fins H (restoreArg rs j) (5 * argExt j) := by
  unfold restoreArg argExt at *
  split
  · next h =>
    rw [if_pos h] at hm
    exact hrs j hm
  · split <;> exact fins_pure _

/-- what is known of the arguments -/
def ArgsOk (H : Prop) (env : UEnv) (n : Str) (kvs : List (Str × Json)) (p : Json × Json) : Prop :=
  argExt p.1 + argExt p.2 ≤ Json.extentKv kvs ∧
  ((H → (env.classInfo n).base = .tuple) ∨ ∃ t ∈ [Tags.NEWARGSEX, Tags.NEWARGS, Tags.INITARGS], argExt p.1 + argExt p.2 ≤ ext t kvs)

omit hrs in
theorem fin_getargs {n : Str} (hH : H → ∀ c, env.loadclass n = some (.type c) → (env.classInfo c).numFields.isSome = true → (env.classInfo n).base = .tuple)
    {kvs : List (Str × Json)} (ho : dget Tags.OBJECT kvs = some (.str n)) : Fin H (getargs env kvs) 1 (fun j => ArgsOk H env n kvs (j, .obj [])) := by
  have hz : argExt (.obj []) = 0 := rfl
  have hn : ∀ j : Json, argExt j = 0 → ArgsOk H env n kvs (j, .obj []) := fun j hj => ⟨by rw [hj, hz]; exact Nat.zero_le _, .inr ⟨_, List.mem_cons_self .., by rw [hj, hz]; exact Nat.zero_le _⟩⟩
  have ht : ∀ t ∈ [Tags.NEWARGSEX, Tags.NEWARGS, Tags.INITARGS], ∀ j, dget t kvs = some j → ArgsOk H env n kvs (j, .obj []) := by
    intro t hmem j hd
    have h1 := argExt_le j
    refine ⟨?_, .inr ⟨t, hmem, ?_⟩⟩
    · have := dget_le hd
      show argExt j + argExt (.obj []) ≤ _
      omega
    · show argExt j + argExt (.obj []) ≤ _
      rw [ext_of hd]
      omega
  unfold getargs
  cases h1 : dget Tags.NEWARGS kvs with
  | some j => exact (fin_pure j (ht _ (by simp) j h1)).mono (fun _ => Nat.zero_le _) (fun _ h => h)
  | none =>
    simp only []
    cases h2 : dget Tags.INITARGS kvs with
    | some j => exact (fin_pure j (ht _ (by simp) j h2)).mono (fun _ => Nat.zero_le _) (fun _ h => h)
    | none =>
      simp only []
      cases h3 : dget Tags.SEQ kvs with
      | none => exact (fin_pure (Json.arr []) (hn (.arr []) rfl)).mono (fun _ => Nat.zero_le _) (fun _ h => h)
      | some sq =>
        rw [ho]
        simp only []
        refine fin_seq (m := 0) (fin_loadclassJ _) (fun c hc => ?_) (fun _ => Nat.le_refl _)
        obtain ⟨n', he, hc⟩ := hc
        cases he
        split
        · next c' =>
          split
          · exact fin_pure _ (hn _ rfl)
          · next k hk =>
            split
            · exact fin_throw _
            · refine fin_pure _ ?_
              split
              · refine ⟨?_, .inl (fun hh => hH hh c' hc.symm (by rw [hk]; rfl))⟩
                have := dget_le h3
                have := argExt_le sq
                show argExt sq + argExt (.obj []) ≤ _
                omega
              · exact hn _ rfl
        · exact fin_pure _ (hn _ rfl)

omit hrs in
theorem kwArg_le (j : Json) : argExt (kwArg j) ≤ j.extent := by
  unfold kwArg
  split
  · exact Nat.zero_le _
  · exact argExt_le j

omit hrs in
theorem fin_ctorArgs {n : Str} (hH : H → ∀ c, env.loadclass n = some (.type c) → (env.classInfo c).numFields.isSome = true → (env.classInfo n).base = .tuple)
    {kvs : List (Str × Json)} (ho : dget Tags.OBJECT kvs = some (.str n)) : Fin H (ctorArgs env kvs) 1 (ArgsOk H env n kvs) := by
  unfold ctorArgs
  cases h1 : dget Tags.NEWARGSEX kvs with
  | none => exact fin_seq (fin_getargs hH ho) (fun a ha => fin_pure _ ha) (fun _ => Nat.le_refl _)
  | some j =>
    simp only []
    refine fin_bind0 (fin_ofExcept _) (fun xs hx => ?_)
    have hx := jsonIter_extent hx
    split
    · next a k _ =>
      simp only [Json.extentL, Nat.add_zero] at hx
      have h2 := argExt_le a
      have h3 := kwArg_le k
      have h4 := dget_le h1
      refine (fin_pure (P := ArgsOk H env n kvs) (a, kwArg k) ⟨?_, .inr ⟨Tags.NEWARGSEX, List.mem_cons_self .., ?_⟩⟩).mono (fun _ => Nat.zero_le _) (fun _ h => h)
      · show argExt a + argExt (kwArg k) ≤ _
        omega
      · rw [ext_of h1]
        show argExt a + argExt (kwArg k) ≤ _
        omega
    · exact (fin_throw _).mono (fun _ => Nat.zero_le _) (fun _ h => h)

omit hrs in
theorem construct_info {h : Heap} {n : Str} {info : ClassInfo} {fac args kw : Val} {i : Inst} (hc : construct h n info fac args kw = some i) : i.info = info := by
  unfold construct at hc
  dsimp only at hc
  repeat' split at hc
  all_goals first | (cases hc; done) | (cases hc; rfl)

theorem fin_restoreInstance (hL : ∀ t j, env.loads t = some j → j.extent ≤ t.length) {n : Str}
    (hH : H → ∀ c, env.loadclass n = some (.type c) → (env.classInfo c).numFields.isSome = true → (env.classInfo n).base = .tuple)
    {kvs : List (Str × Json)} (ho : dget Tags.OBJECT kvs = some (.str n)) (hm : Json.extentKv kvs < m) : Fins H (restoreInstance env rs n kvs) (5 * Json.extentKv kvs + 3) := by
  unfold restoreInstance
  have hsum := fac_sum kvs
  refine fin_bind0 (fin_alloc _) (fun p _ => fin_bind0 (fin_mkref _) (fun _ _ => fin_seq (m := 5 * Json.extentKv (facRest kvs) + 3) (fin_loadFactory hrs hm) (fun q hq => ?_) (fun _ => by omega)))
  obtain ⟨fac, kvs'⟩ := q
  dsimp only at hq ⊢
  subst hq
  have ho' : dget Tags.OBJECT (facRest kvs) = some (.str n) := by rw [facRest_get kvs (by decide) (by decide), ho]
  generalize facRest kvs = l at *
  refine fin_seq (m := 5 * Json.extentKv l + 2) (fin_ctorArgs hH ho') (fun q hq => ?_) (fun _ => by omega)
  obtain ⟨ja, jk⟩ := q
  obtain ⟨h1, h2⟩ := hq
  dsimp only at h1 h2 ⊢
  have hargs : argExt ja + argExt jk + (if (env.classInfo n).base == .tuple then 0 else plainExt l + ext Tags.SEQ l + ext Tags.STATE l) ≤ Json.extentKv l ∨ ¬H := by
    by_cases hh : H
    · refine .inl ?_
      by_cases hb : (env.classInfo n).base = .tuple
      · rw [hb]
        simpa using h1
      · have hb' : ((env.classInfo n).base == .tuple) = false := by simpa using hb
        rw [hb']
        rcases h2 with h2 | ⟨t, ht, h2⟩
        · exact absurd (h2 hh) hb
        · have hs := sum_parts (ts := [t, Tags.SEQ, Tags.STATE]) (by
            simp only [List.mem_cons, List.not_mem_nil, or_false] at ht
            rcases ht with rfl | rfl | rfl <;> decide) (by
            simp only [List.mem_cons, List.not_mem_nil, or_false] at ht
            intro u hu
            simp only [List.mem_cons, List.not_mem_nil, or_false] at hu
            rcases hu with rfl | rfl | rfl
            · rcases ht with rfl | rfl | rfl <;> decide
            · decide
            · decide) l
          simp only [sumOf, Bool.false_eq_true, if_false] at hs ⊢
          omega
    · exact .inr hh
  generalize hB : (if (env.classInfo n).base == .tuple then 0 else plainExt l + ext Tags.SEQ l + ext Tags.STATE l) = B at hargs
  refine fin_seq (m := 5 * argExt jk + (5 * B + 2)) (fin_restoreArg hrs (by omega)) (fun args _ => fin_seq (m := 5 * B + 2) (fin_restoreArg hrs (by omega)) (fun kw _ => ?_) (fun _ => Nat.le_refl _))
    (fun hh => by rcases hargs with h | h; · omega
                  · exact absurd hh h)
  refine fin_bind0 fin_get (fun s _ => fin_seq (m := 5 * B + 1) (fin_emit _) (fun _ _ => ?_) (fun _ => by omega))
  split
  · exact (fin_missingRaw n l).le (fun _ => by omega)
  · next inst hc =>
    rw [construct_info hc]
    refine fin_bind0 (fin_alloc _) (fun a _ => fin_bind0 (fin_setCell _ _) (fun _ _ => fin_bind0 (fin_swapref _ _) (fun _ _ => ?_)))
    split
    · exact (fins_pure _).le (fun _ => Nat.zero_le _)
    · next hb =>
      rw [if_neg hb] at hB
      exact fin_seq (fin_restoreVariables hrs hL a (by omega)) (fun v _ => fin_bind0 (fin_fixFactory v) (fun _ _ => fins_pure v)) (fun _ => by omega)

/-! ### handlers -/

omit hrs in
theorem dateArgs_extent {j : Json} {p : Json × List Json} (h : dateArgs j = .ok p) : Json.extentL p.2 ≤ j.extent := by
  unfold dateArgs at h
  split at h
  · cases h
    simp only [Json.extent, Json.extentL]
    omega
  · cases h
  · cases h
    have hs : ∀ s : Str, Json.extentL (s.map (fun c => Json.str [c])) = 0 := by
      intro s
      induction s with
      | nil => rfl
      | cons c s ih => simp only [List.map_cons, Json.extentL, ih, Json.extent]
    rw [hs]
    exact Nat.zero_le _
  · cases h
  · cases h
  · cases h

theorem fin_restoreDate {kvs : List (Str × Json)} (hm : Json.extentKv kvs < m) : Fins H (restoreDate env rs kvs) (5 * Json.extentKv kvs + 1) := by
  unfold restoreDate
  refine fin_bind0 (fin_ofExcept _) (fun j hj => fin_bind0 (fin_ofExcept _) (fun xs hx => ?_))
  have hj := dget_le (item_ok hj)
  have hx := jsonIter_extent hx
  split
  · next c a _ =>
    simp only [Json.extentL, Nat.add_zero] at hx
    refine fin_seq (m := 5 * a.extent + 1) (hrs c (by omega)) (fun cls _ => fin_bind0 (fin_ofExcept _) (fun pa hpa => fin_bind0 (fin_ofExcept _) (fun b _ => ?_))) (fun _ => by omega)
    have hp := dateArgs_extent hpa
    refine fin_seq (m := 1) (fin_elems hrs (by omega)) (fun params _ => ?_) (fun _ => by omega)
    split
    · exact fin_seq (m := 0) (fin_emit _) (fun _ _ => fin_bind0 (fin_alloc _) (fun _ _ => fins_pure _)) (fun _ => Nat.le_refl _)
    · exact fins_throw _ _
  · exact fins_throw _ _

theorem fin_restoreHandled (k n) {kvs : List (Str × Json)} (hm : Json.extentKv kvs < m) : Fins H (restoreHandled env rs k n kvs) (5 * Json.extentKv kvs + 1) := by
  unfold restoreHandled
  refine fin_bind0 (fin_alloc _) (fun p _ => fin_bind0 (fin_mkref _) (fun _ _ => fin_seq (n := 5 * Json.extentKv kvs + 1) (m := 0) (P := fun _ => True) ?_
    (fun v _ => fin_bind0 (fin_setCell _ _) (fun _ _ => fin_bind0 (fin_swapref _ _) (fun _ _ => fins_pure _))) (fun _ => Nat.le_refl _)))
  unfold handlerRestore
  split
  · have hd := extentKv_ddel Tags.OBJECT kvs
    refine fin_seq (m := 0) (fin_mapM (c := fun kv : Str × Json => 5 * (kv.1.length + kv.2.extent)) (fun kv hkv => ?_)) (fun _ _ => fin_bind0 (fin_alloc _) (fun _ _ => fins_pure _))
      (fun _ => by rw [sumOf_entries]; omega)
    have h1 := extent_le_of_memKv hkv
    exact fin_seq (m := 0) (hrs kv.2 (by omega)) (fun v _ => fins_pure _) (fun _ => by omega)
  · exact fin_restoreDate hrs hm
  · exact (fin_bind0 (m := 0) (Q := fun _ => True) (fin_alloc _) (fun _ _ => fins_pure _)).le (fun _ => Nat.zero_le _)
  · exact fins_throw _ _

end

/-! ### everything -/

/-- Only tuple subclasses have a `_fields` attribute. -/
def FieldsOk (env : UEnv) : Prop := ∀ n c, env.loadclass n = some (.type c) → (env.classInfo c).numFields.isSome = true → (env.classInfo n).base = .tuple

section
variable {env : UEnv} (hL : ∀ t j, env.loads t = some j → j.extent ≤ t.length)
include hL

theorem fin_restoreObject {rs : Json → U Val} {m : Nat} (hrs : ∀ x : Json, x.extent < m → Fins (FieldsOk env) (rs x) (5 * x.extent)) {kvs : List (Str × Json)} (hm : Json.extentKv kvs < m) :
    Fins (FieldsOk env) (restoreObject env rs kvs) (5 * Json.extentKv kvs + 5) := by
  unfold restoreObject
  refine fin_bind0 (fin_ofExcept _) (fun j hj => fin_seq (m := 5 * Json.extentKv kvs + 4) (fin_loadclassJ j) (fun c hc => ?_) (fun _ => by omega))
  obtain ⟨n, he, hc⟩ := hc
  subst he
  dsimp only
  refine fin_seq (m := 5 * Json.extentKv kvs + 3) (fin_emit _) (fun _ _ => ?_) (fun _ => by omega)
  split
  · exact (fin_restoreHandled hrs _ n hm).le (fun _ => by omega)
  · split
    · exact (fin_missingRaw n kvs).le (fun _ => by omega)
    · exact fin_restoreInstance hrs hL (fun hh => hh n) (item_ok hj) hm

theorem fin_restoreStep {rs : Json → U Val} {m : Nat} (hrs : ∀ x : Json, x.extent < m → Fins (FieldsOk env) (rs x) (5 * x.extent)) {j : Json} (hm : j.extent ≤ m) :
    Fins (FieldsOk env) (restoreStep env rs j) (5 * j.extent) := by
  cases j with
  | arr xs =>
    simp only [Json.extent] at hm ⊢
    exact fin_seq (m := 0) (fin_restoreList hrs (n := Json.extentL xs) (fun ys hy => by cases hy; exact Nat.le_refl _) (by omega)) (fun _ _ => fins_pure _) (fun _ => by omega)
  | obj kvs =>
    simp only [Json.extent] at hm ⊢
    have hm : Json.extentKv kvs < m := by omega
    have hb : ∀ (r : Except Exc Bytes) (f : Nat → Bytes → Val), Fins (FieldsOk env) (do let b ← PyM.ofExcept r; let n ← fresh; pure (f n b)) (5 * (Json.extentKv kvs + 1)) :=
      fun r f => (fin_bind0 (m := 0) (Q := fun _ => True) (fin_ofExcept r) (fun _ _ => fin_bind0 fin_fresh (fun _ _ => fins_pure _))).le (fun _ => Nat.zero_le _)
    show Fins (FieldsOk env) (restoreTags env rs kvs) _
    unfold restoreTags
    refine fin_ite (fun _ => (fin_restoreTuple hrs hm).le (fun _ => by omega)) (fun _ => ?_)
    refine fin_ite (fun _ => (fin_restoreSet hrs hm).le (fun _ => by omega)) (fun _ => ?_)
    refine fin_ite (fun _ => hb _ _) (fun _ => ?_)
    refine fin_ite (fun _ => hb _ _) (fun _ => ?_)
    refine fin_ite (fun _ => hb _ _) (fun _ => ?_)
    refine fin_ite (fun _ => (fin_restoreId kvs).le (fun _ => Nat.zero_le _)) (fun _ => ?_)
    refine fin_ite (fun _ => (fin_restoreIterator hrs hm).le (fun _ => by omega)) (fun _ => ?_)
    refine fin_ite (fun _ => (fin_restoreObject hL hrs hm).le (fun _ => by omega)) (fun _ => ?_)
    refine fin_ite (fun _ => (fin_restoreType kvs).le (fun _ => by omega)) (fun _ => ?_)
    refine fin_ite (fun _ => (fin_restoreReduce hrs hm).le (fun _ => by omega)) (fun _ => ?_)
    refine fin_ite (fun _ => (fin_restoreFunction kvs).le (fun _ => by omega)) (fun _ => ?_)
    refine fin_ite (fun _ => fin_bind0 (fin_ofExcept _) (fun j _ => (fin_restoreModule j).le (fun _ => by omega))) (fun _ => ?_)
    refine fin_ite (fun _ => fin_bind0 (fin_ofExcept _) (fun j _ => fin_ite (fun _ => (fin_restoreModule j).le (fun _ => by omega)) (fun _ => (fin_restoreRepr j).le (fun _ => by omega)))) (fun _ => ?_)
    exact (fin_restoreDict hrs hL hm).le (fun _ => by omega)
  | _ => exact (fins_pure _).le (fun _ => Nat.zero_le _)

theorem fin_restore : ∀ (n : Nat) (j : Json), j.extent < n → Fins (FieldsOk env) (restore env n j) (5 * j.extent)
  | 0, _, h => absurd h (Nat.not_lt_zero _)
  | n + 1, j, h => fin_restoreStep hL (fun x hx => fin_restore n x hx) (Nat.le_of_lt_succ h)

theorem fin_restoreTop {n : Nat} {j : Json} (h : j.extent < n) (b : Bool) : Fins (FieldsOk env) (restoreTop env n j b) (5 * j.extent) := by
  unfold restoreTop
  refine fin_ite (fun _ => ?_) (fun _ => fin_restore hL n j h)
  exact fin_bind0 fin_reset (fun _ _ => fin_seq (m := 0) (fin_restore hL n j h) (fun v _ => fin_bind0 fin_swapProxies (fun _ _ => fins_pure v)) (fun _ => Nat.le_refl _))

end

end JP.Unpickler.Cost
