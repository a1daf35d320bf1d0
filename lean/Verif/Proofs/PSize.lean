import Verif.GraphSize
/-!
# The size of documents (for C78)

What an object costs is paid when it is registered: `Φ s` is the sum of the costs of the objects that are not registered yet.
-/
namespace JP.Pickler.Size
open JP PyM Pickler

/-! ### sizes -/

theorem valuesKv_dset (k : Str) (j : Json) : ∀ d : List (Str × Json), Json.valuesKv (dset k j d) ≤ Json.valuesKv d + j.values
  | [] => by simp [dset, Json.valuesKv]
  | (l, x) :: d => by
    unfold dset
    split
    · simp only [Json.valuesKv]; omega
    · have := valuesKv_dset k j d
      simp only [Json.valuesKv]; omega

theorem size_pos (v : Val) : 1 ≤ v.size := by
  cases v <;> simp [Val.size]

theorem total_le {α : Type} {f g : α → Nat} : ∀ {xs : List α}, (∀ x, f x ≤ g x) → total f xs ≤ total g xs
  | [], _ => Nat.le_refl _
  | x :: xs, h => Nat.add_le_add (h x) (total_le h)

/-! ### the potential -/

/-- what a cell costs -/
def cost (w : World) (a : Addr) : Nat :=
  match w.heap[a]? with
  | some (.list xs) => 3 * Val.sizes xs
  | some (.dict kvs) => 3 * total (fun kv => kv.2.size) kvs
  | some (.inst i) => 3 * i.holds w + 14
  | _ => 0

def phi (c : Addr → Nat) (objs : List Ident) : Nat → Nat
  | 0 => 0
  | n + 1 => phi c objs n + (if objs.contains (.addr n) then 0 else c n)

def Φ (w : World) (s : PState) : Nat := phi (cost w) s.objs w.heap.length

theorem phi_mono {c : Addr → Nat} {l m : List Ident} (h : ∀ i, l.contains i = true → m.contains i = true) : ∀ n, phi c m n ≤ phi c l n
  | 0 => Nat.le_refl _
  | n + 1 => by
    refine Nat.add_le_add (phi_mono h n) ?_
    by_cases hl : l.contains (.addr n) = true
    · rw [if_pos hl, if_pos (h _ hl)]
      exact Nat.le_refl _
    · rw [if_neg hl]
      split
      · exact Nat.zero_le _
      · exact Nat.le_refl _

theorem contains_append (l : List Ident) (i j : Ident) : (l ++ [i]).contains j = (l.contains j || j == i) := by
  rw [Bool.eq_iff_iff]
  simp [List.contains_eq_mem, List.mem_append]

/-- registering a cell pays its cost -/
theorem phi_reg {c : Nat → Nat} {l : List Ident} {a : Nat} (h : l.contains (.addr a) = false) :
    ∀ n, phi c (l ++ [.addr a]) n + (if a < n then c a else 0) = phi c l n
  | 0 => rfl
  | n + 1 => by
    have ih := phi_reg (c := c) h n
    unfold phi
    rw [contains_append]
    by_cases ha : a = n
    · subst ha
      rw [if_neg (Nat.lt_irrefl _)] at ih
      rw [h, if_pos (Nat.lt_succ_self _)]
      simp
      omega
    · have e : (Ident.addr n == Ident.addr a) = false := by simpa using fun e => ha e.symm
      rw [e, Bool.or_false]
      by_cases hn : a < n
      · rw [if_pos hn] at ih
        rw [if_pos (show a < n + 1 by omega)]
        omega
      · rw [if_neg hn] at ih
        rw [if_neg (show ¬ a < n + 1 by omega)]
        omega

/-! ### the logic -/

/-- `x` keeps what is registered, and the size of its result plus what is left is at most `n` plus what there was -/
def Sz {α : Type} (w : World) (x : P α) (n : Nat) (μ : α → Nat) : Prop :=
  ∀ s r s', x s = some (r, s') → 0 ≤ s.depth → s.depth ≤ s'.depth ∧ Φ w s' ≤ Φ w s ∧ ∀ a, r = .ok a → μ a + Φ w s' ≤ n + Φ w s

section
variable {w : World}

theorem Sz.le {α : Type} {x : P α} {n m : Nat} {μ ν : α → Nat} (h : Sz w x n μ) (hn : n ≤ m) (hm : ∀ a, ν a ≤ μ a) : Sz w x m ν :=
  fun s r s' hx hd => by
    obtain ⟨h1, h2, h3⟩ := h s r s' hx hd
    exact ⟨h1, h2, fun a ha => by have := h3 a ha; have := hm a; omega⟩

theorem Sz.free {α : Type} {x : P α} {n : Nat} {μ : α → Nat} (h : Sz w x n μ) : Sz w x 0 (fun _ => 0) :=
  fun s r s' hx hd => by
    obtain ⟨h1, h2, -⟩ := h s r s' hx hd
    exact ⟨h1, h2, fun a _ => by dsimp only; omega⟩

theorem sz_bind {α β : Type} {x : P α} {f : α → P β} {n m : Nat} {μ : α → Nat} {ν : β → Nat} (hx : Sz w x n μ) (hf : ∀ a, Sz w (f a) (m + μ a) ν) :
    Sz w (x >>= f) (n + m) ν := by
  intro s r s' h hd
  rw [bind_run] at h
  cases hq : x s with
  | none => rw [hq] at h; cases h
  | some q =>
    obtain ⟨q, s1⟩ := q
    obtain ⟨h1, h2, h3⟩ := hx s q s1 hq hd
    rw [hq] at h
    cases q with
    | error e =>
      injection h with h
      injection h with ha hb
      subst hb
      exact ⟨h1, h2, fun a he => by rw [← ha] at he; cases he⟩
    | ok a =>
      obtain ⟨k1, k2, k3⟩ := hf a s1 r s' h (by omega)
      refine ⟨by omega, by omega, fun b hb => ?_⟩
      have := h3 a rfl
      have := k3 b hb
      omega

/-- without credit -/
theorem sz_seq {α β : Type} {x : P α} {f : α → P β} {n k : Nat} {μ : α → Nat} {ν : β → Nat} (hx : Sz w x k μ) (hf : ∀ a, Sz w (f a) n ν) : Sz w (x >>= f) n ν := by
  have := sz_bind (m := n) hx.free (fun a => hf a)
  rwa [Nat.zero_add] at this

theorem sz_pure {α : Type} {n : Nat} {μ : α → Nat} (a : α) (h : μ a ≤ n) : Sz w (pure a : P α) n μ := fun s r s' hx _ => by
  cases hx
  exact ⟨Int.le_refl _, Nat.le_refl _, fun b hb => by cases hb; omega⟩

theorem sz_throw {α : Type} (n : Nat) (μ : α → Nat) (e : Exc) : Sz w (PyM.throw e : P α) n μ := fun s r s' hx _ => by
  cases hx
  exact ⟨Int.le_refl _, Nat.le_refl _, fun b hb => by cases hb⟩

theorem sz_ofExcept {α : Type} {r : Except Exc α} {n : Nat} {μ : α → Nat} (h : ∀ a, r = .ok a → μ a ≤ n) : Sz w (PyM.ofExcept r : P α) n μ := fun s q s' hx _ => by
  cases hx
  exact ⟨Int.le_refl _, Nat.le_refl _, fun b hb => by have := h b hb; omega⟩

theorem sz_tryCatch {α : Type} {x : P α} {p : Exc → Bool} {h : Exc → P α} {n : Nat} {μ : α → Nat} (hx : Sz w x n μ) (hh : ∀ e, Sz w (h e) n μ) : Sz w (PyM.tryCatch x p h) n μ := by
  intro s r s' he hd
  unfold PyM.tryCatch at he
  cases hq : x s with
  | none => rw [hq] at he; cases he
  | some q =>
    obtain ⟨q, s1⟩ := q
    obtain ⟨h1, h2, h3⟩ := hx s q s1 hq hd
    rw [hq] at he
    cases q with
    | ok a =>
      injection he with he
      injection he with ha hb
      subst hb
      exact ⟨h1, h2, fun b hb => by rw [← ha] at hb; exact h3 b hb⟩
    | error e =>
      dsimp only at he
      by_cases hp : p e = true
      · rw [if_pos hp] at he
        obtain ⟨k1, k2, k3⟩ := hh e s1 r s' he (by omega)
        exact ⟨by omega, by omega, fun b hb => by have := k3 b hb; omega⟩
      · rw [if_neg hp] at he
        injection he with he
        injection he with ha hb
        subst hb
        exact ⟨h1, h2, fun b hb => by rw [← ha] at hb; cases hb⟩

theorem sz_mapM {α β : Type} {f : α → P β} {c : α → Nat} {ν : β → Nat} : ∀ {xs : List α}, (∀ x ∈ xs, Sz w (f x) (c x) ν) → Sz w (PyM.mapM f xs) (total c xs) (total ν)
  | [], _ => sz_pure [] (Nat.le_refl _)
  | x :: xs, h => by
    rw [mapM_cons]
    refine sz_bind (h x (List.mem_cons_self ..)) (fun y => ?_)
    have ih := sz_mapM (fun z hz => h z (List.mem_cons_of_mem _ hz))
    exact sz_bind ih (fun ys => sz_pure _ (by simp only [total]; omega))

theorem sz_foldM {α β : Type} {f : β → α → P β} {c : α → Nat} {μ : β → Nat} : ∀ {xs : List α}, (∀ x ∈ xs, ∀ b, Sz w (f b x) (c x + μ b) μ) → ∀ b, Sz w (PyM.foldM f b xs) (total c xs + μ b) μ
  | [], _, b => sz_pure b (Nat.le_add_left _ _)
  | x :: xs, h, b => by
    rw [foldM_cons]
    have h1 := sz_bind (m := total c xs) (h x (List.mem_cons_self ..) b) (fun b' => sz_foldM (fun z hz => h z (List.mem_cons_of_mem _ hz)) b')
    exact h1.le (by simp only [total]; omega) (fun _ => Nat.le_refl _)

theorem sz_ite {α : Type} {c : Prop} [Decidable c] {x y : P α} {n : Nat} {μ : α → Nat} (hx : c → Sz w x n μ) (hy : ¬c → Sz w y n μ) : Sz w (if c then x else y) n μ := by
  split
  · next h => exact hx h
  · next h => exact hy h

theorem total_values : ∀ js : List Json, total Json.values js = Json.valuesL js
  | [] => rfl
  | j :: js => by rw [total, Json.valuesL, total_values js]

theorem total_sizes : ∀ vs : List Val, total Val.size vs = Val.sizes vs
  | [] => rfl
  | v :: vs => by rw [total, Val.sizes, total_sizes vs]

theorem total_mul {α : Type} (k : Nat) (f : α → Nat) : ∀ xs : List α, total (fun x => k * f x) xs = k * total f xs
  | [] => by simp [total]
  | x :: xs => by rw [total, total_mul k f xs, total, Nat.mul_add]

end

/-! ### the functions -/

section
variable {w : World} {cfg : PCfg} {fl : Val → P Json} (hu : cfg.unpicklable = true) (hm : cfg.makeRefs = true)
  (hs : ∀ f e j, cfg.failSafe = some f → f e = .ok j → j.values ≤ 3) (hfl : ∀ v, Sz w (fl v) (3 * v.size) Json.values)

/-- the credit that registering gives -/
def credit (w : World) (id : Ident) (new : Bool) : Nat := if new then (match id with | .addr a => cost w a | _ => 0) else 0

include hu hm in
theorem sz_mkref (id : Ident) : Sz w (mkref cfg id) 0 (credit w id) := by
  intro s r s' h _
  unfold mkref at h
  rw [hu, hm, bind_run] at h
  unfold logRef at h
  by_cases hc : s.objs.contains id = true
  · rw [if_pos hc] at h
    cases h
    exact ⟨Int.le_refl _, Nat.le_refl _, fun a ha => by cases ha; exact Nat.le_refl _⟩
  · rw [if_neg hc] at h
    cases h
    have hmono : Φ w { s with objs := s.objs ++ [id] } ≤ Φ w s := phi_mono (fun i hi => by rw [contains_append, hi]; rfl) _
    refine ⟨Int.le_refl _, hmono, fun a ha => ?_⟩
    cases ha
    have hc : s.objs.contains id = false := by simpa using hc
    cases id with
    | addr a =>
      have h1 : phi (cost w) (s.objs ++ [.addr a]) w.heap.length + (if a < w.heap.length then cost w a else 0) = phi (cost w) s.objs w.heap.length := phi_reg hc _
      have h2 : cost w a = if a < w.heap.length then cost w a else 0 := by
        split
        · rfl
        · next ha => unfold cost; rw [List.getElem?_eq_none (Nat.le_of_not_lt ha)]
      show cost w a + phi (cost w) (s.objs ++ [.addr a]) w.heap.length ≤ 0 + phi (cost w) s.objs w.heap.length
      omega
    | _ => exact Nat.le_trans (Nat.le_of_eq (by simp [credit])) (Nat.le_trans hmono (Nat.le_of_eq (by simp)))

theorem sz_getref (id : Ident) : Sz w (getref id) 2 Json.values := fun s r s' h _ => by
  cases h
  refine ⟨Int.le_refl _, Nat.le_refl _, fun a ha => ?_⟩
  cases ha
  have : (Json.obj [(Tags.ID, if s.objs.contains id then .int (s.objs.idxOf id) else .null)]).values = 2 := by split <;> rfl
  omega

theorem values_bytes (b : Bytes) : (flattenBytestring cfg b).values = 2 := by
  unfold flattenBytestring
  split <;> rfl

theorem sz_push : Sz w push 0 (fun _ => 0) := fun s r s' h _ => by
  cases h
  exact ⟨by show s.depth ≤ s.depth + 1; omega, Nat.le_refl _, fun _ _ => by simp [Φ]⟩

include hfl in
theorem sz_pair (k v : Val) (d : List (Str × Json)) : Sz w (flattenKeyValuePair w fl k v d) (3 * v.size + Json.valuesKv d) Json.valuesKv := by
  unfold flattenKeyValuePair
  refine sz_ite (fun _ => ?_) (fun _ => sz_pure _ (Nat.le_add_left _ _))
  refine sz_seq (k := 0) (μ := fun _ => 0) (sz_ofExcept (fun _ _ => Nat.le_refl _)) (fun k => ?_)
  exact sz_bind (hfl v) (fun j => sz_pure _ (valuesKv_dset k j d))

include hfl in
theorem sz_escapeKey (k : Val) : Sz w (escapeKey w fl k) 0 (fun _ => 0) := sz_seq (hfl k) (fun _ => sz_pure _ (Nat.le_refl _))

include hfl in
theorem sz_nonString (k v : Val) (d : List (Str × Json)) : Sz w (flattenNonString w cfg fl k v d) ((match k with | .str _ => 0 | _ => 3 * v.size) + Json.valuesKv d) Json.valuesKv := by
  unfold flattenNonString
  refine sz_ite (fun _ => ?_) (fun _ => sz_pure _ (Nat.le_add_left _ _))
  cases k with
  | str _ => exact sz_pure _ (Nat.le_add_left _ _)
  | _ =>
    refine sz_ite (fun _ => ?_) (fun _ => sz_pure _ (Nat.le_add_left _ _))
    exact sz_seq (sz_escapeKey hfl _) (fun k' => sz_bind (hfl v) (fun j => sz_pure _ (valuesKv_dset k' j d)))

include hfl in
theorem sz_stringTail (k v : Val) (d : List (Str × Json)) (hk : cfg.keys = true) :
    Sz w (flattenStringTail w cfg fl k v d) ((match k with | .str _ => 3 * v.size | _ => 0) + Json.valuesKv d) Json.valuesKv := by
  unfold flattenStringTail
  refine sz_ite (fun _ => ?_) (fun _ => sz_pure _ (Nat.le_add_left _ _))
  rw [if_pos hk]
  cases k with
  | str s => exact sz_bind (hfl v) (fun j => sz_pure _ (valuesKv_dset s j d))
  | _ => exact sz_pure _ (Nat.le_add_left _ _)

include hfl in
theorem sz_string (k v : Val) (d : List (Str × Json)) (hk : cfg.keys = true) :
    Sz w (flattenString w cfg fl k v d) ((match k with | .str _ => 3 * v.size | _ => 0) + Json.valuesKv d) Json.valuesKv := by
  unfold flattenString
  cases k with
  | str s =>
    refine sz_ite (fun _ => ?_) (fun _ => sz_stringTail hfl _ v d hk)
    exact sz_bind (hfl v) (fun j => sz_seq (sz_escapeKey hfl _) (fun k' => sz_pure _ (valuesKv_dset k' j d)))
  | _ => exact sz_stringTail hfl _ v d hk

theorem total_filter {α : Type} (f : α → Nat) (p : α → Bool) : ∀ xs : List α, total f (xs.filter p) ≤ total f xs
  | [] => Nat.le_refl _
  | x :: xs => by
    have := total_filter f p xs
    rw [List.filter_cons]
    split <;> (simp only [total]; omega)

include hfl in
theorem sz_entries (kvs : List (Val × Val)) (ex : List Str) (d : List (Str × Json)) :
    Sz w (flattenEntries w cfg fl kvs ex d) (3 * total (fun kv => kv.2.size) kvs + Json.valuesKv d) Json.valuesKv := by
  have hle : 3 * total (fun kv : Val × Val => kv.2.size) (itemsExcl ex kvs) ≤ 3 * total (fun kv => kv.2.size) kvs := Nat.mul_le_mul_left _ (total_filter _ _ kvs)
  unfold flattenEntries
  dsimp only
  generalize itemsExcl ex kvs = l at hle
  by_cases hk : cfg.keys = true
  · rw [if_pos hk]
    have hsum : ∀ l : List (Val × Val), total (fun kv : Val × Val => match kv.1 with | .str _ => 3 * kv.2.size | _ => 0) l + total (fun kv : Val × Val => match kv.1 with | .str _ => 0 | _ => 3 * kv.2.size) l =
        3 * total (fun kv : Val × Val => kv.2.size) l := by
      intro l
      induction l with
      | nil => rfl
      | cons kv l ih =>
        obtain ⟨k, v⟩ := kv
        simp only [total]
        cases k <;> (simp only []; omega)
    have h1 := sz_bind (m := total (fun kv : Val × Val => match kv.1 with | .str _ => 0 | _ => 3 * kv.2.size) l)
      (sz_foldM (f := fun d (kv : Val × Val) => flattenString w cfg fl kv.1 kv.2 d) (c := fun kv : Val × Val => match kv.1 with | .str _ => 3 * kv.2.size | _ => 0) (xs := l) (fun kv _ b => sz_string hfl kv.1 kv.2 b hk) d)
      (fun d' => sz_foldM (f := fun d (kv : Val × Val) => flattenNonString w cfg fl kv.1 kv.2 d) (c := fun kv : Val × Val => match kv.1 with | .str _ => 0 | _ => 3 * kv.2.size) (xs := l) (fun kv _ b => sz_nonString hfl kv.1 kv.2 b) d')
    exact h1.le (by have := hsum l; omega) (fun _ => Nat.le_refl _)
  · rw [if_neg hk]
    have h1 := sz_foldM (f := fun d (kv : Val × Val) => flattenKeyValuePair w fl kv.1 kv.2 d) (c := fun kv : Val × Val => 3 * kv.2.size) (xs := l) (fun kv _ b => sz_pair hfl kv.1 kv.2 b) d
    exact h1.le (by rw [total_mul]; omega) (fun _ => Nat.le_refl _)

include hfl in
theorem sz_list (xs : List Val) : Sz w (PyM.mapM fl xs) (3 * Val.sizes xs) Json.valuesL := by
  have h := sz_mapM (f := fl) (c := fun v => 3 * v.size) (xs := xs) (fun v _ => hfl v)
  rw [total_mul, total_sizes] at h
  exact h.le (Nat.le_refl _) (fun js => Nat.le_of_eq (total_values js).symm)

/-! ### objects -/

include hfl in
theorem sz_clone (x : Val) : Sz w (flattenClone w cfg fl x) (3 * x.size + 2) Json.values := by
  unfold flattenClone
  dsimp only
  have h1 : Json.valuesKv (if cfg.unpicklable then [(Tags.OBJECT, Json.str CLONE)] else []) ≤ 1 := by split <;> simp [Json.valuesKv, Json.values]
  refine (sz_bind (m := 1) (sz_entries hfl [(.str p!"exemplar", x)] [] _) (fun d => sz_pure _ (by simp only [Json.values]; omega))).le ?_ (fun _ => Nat.le_refl _)
  simp only [total]
  omega

include hu hm hfl in
theorem sz_factory (f : Val) (x : Val) (e : Option Exc) : Sz w (flattenFactory w cfg fl f (outcome e x)) (3 * x.size + 2) Json.values := by
  have hx := size_pos x
  unfold flattenFactory
  split
  · exact sz_pure _ (by simp only [mktyperef, Json.values, Json.valuesKv]; omega)
  · refine sz_seq (sz_mkref hu hm _) (fun new => sz_ite (fun _ => ?_) (fun _ => (sz_getref _).le (by omega) (fun _ => Nat.le_refl _)))
    cases e with
    | none => exact sz_clone hfl x
    | some e => exact sz_throw _ _ e

include hu hm hfl in
theorem sz_default (f : Option Val) (x : Val) (e : Option Exc) (d : List (Str × Json)) :
    Sz w (flattenDefault w cfg fl f (outcome e x) d) ((if f.isSome then 3 * x.size + 2 else 0) + Json.valuesKv d) Json.valuesKv := by
  unfold flattenDefault
  cases f with
  | none => exact sz_pure _ (Nat.le_add_left _ _)
  | some f => exact sz_bind (sz_factory hu hm hfl f x e) (fun j => sz_pure _ (valuesKv_dset _ j d))

include hu hm hfl in
theorem sz_ownDict (a : Addr) (i : Inst) (ex : List Str) (d : List (Str × Json)) :
    Sz w (flattenOwnDict w cfg fl a i ex d) ((if i.info.hasDict then 3 * total (fun kv => kv.2.size) (dictItems w i) + 2 else 0) + Json.valuesKv d) Json.valuesKv := by
  unfold flattenOwnDict
  refine sz_ite (fun h => ?_) (fun _ => sz_pure _ (Nat.le_add_left _ _))
  have hd : i.info.hasDict = true := by
    simp only [Bool.and_eq_true] at h
    exact h.1.1
  rw [if_pos hd]
  refine sz_seq (sz_mkref hu hm _) (fun new => sz_ite (fun _ => ?_) (fun _ => ?_))
  · refine (sz_bind (m := 2 + Json.valuesKv d) (sz_entries hfl (dictItems w i) ex []) (fun dd => sz_pure _ ?_)).le (by simp only [Json.valuesKv]; omega) (fun _ => Nat.le_refl _)
    have := valuesKv_dset p!"__dict__" (.obj dd) d
    simp only [Json.values] at this
    omega
  · refine (sz_bind (m := Json.valuesKv d) (sz_getref _) (fun r => sz_pure _ (valuesKv_dset _ r d))).le (by omega) (fun _ => Nat.le_refl _)

include hfl in
theorem sz_objAttrs (i : Inst) (lookup : List (Str × Val)) (names : List Str) (d : List (Str × Json)) :
    Sz w (flattenObjAttrs w fl i lookup names d) (3 * total (i.slotSize lookup) names + Json.valuesKv d) (fun r => Json.valuesKv r.2) := by
  unfold flattenObjAttrs
  have h := sz_foldM (w := w) (μ := fun r : Bool × List (Str × Json) => Json.valuesKv r.2) (c := fun k => 3 * i.slotSize lookup k) (xs := names)
    (f := fun (acc : Bool × List (Str × Json)) k =>
    if i.exclude.contains k then pure acc
    else
      PyM.tryCatch (do
        let name := if startsWith k p!"__" then p!"_" ++ i.info.shortName ++ k else k
        let v ← PyM.ofExcept (match dget name lookup with
          | some v => .ok v
          | none => .error .attributeError)
        let d ← flattenKeyValuePair w fl (.str k) v acc.2
        pure (true, d))
        (· == .attributeError)
        (fun _ => pure acc)) (fun k _ acc => ?_) (false, d)
  · rw [total_mul] at h
    exact h
  · refine sz_ite (fun _ => sz_pure _ (Nat.le_add_left _ _)) (fun _ => sz_tryCatch ?_ (fun _ => sz_pure _ (Nat.le_add_left _ _)))
    dsimp only
    unfold Inst.slotSize
    cases dget (if startsWith k p!"__" then p!"_" ++ i.info.shortName ++ k else k) lookup with
    | none => exact sz_throw _ _ _
    | some v =>
      show Sz w (flattenKeyValuePair w fl (.str k) v acc.2 >>= fun d => (pure (true, d) : P (Bool × List (Str × Json)))) (3 * v.size + Json.valuesKv acc.2) _
      exact sz_bind (n := 3 * v.size + Json.valuesKv acc.2) (m := 0) (sz_pair hfl (.str k) v acc.2) (fun d => sz_pure _ (Nat.le_add_left _ _))

include hfl in
theorem sz_slots (i : Inst) (d : List (Str × Json)) :
    Sz w (flattenSlots w fl i d) (3 * (total (i.slotSize i.attrs) i.info.slots + total (i.slotSize i.dirAttrs) (i.dirAttrs.map (·.1))) + 1 + Json.valuesKv d) Json.values := by
  unfold flattenSlots
  refine (sz_bind (m := 3 * total (i.slotSize i.dirAttrs) (i.dirAttrs.map (·.1)) + 1) (sz_objAttrs hfl i i.attrs i.info.slots d) (fun r => sz_ite (fun _ => ?_) (fun _ => ?_))).le (by omega) (fun _ => Nat.le_refl _)
  · exact sz_pure _ (by simp only [Json.values]; omega)
  · refine (sz_bind (n := 3 * total (i.slotSize i.dirAttrs) (i.dirAttrs.map (·.1)) + Json.valuesKv r.2) (m := 1) (sz_objAttrs hfl i i.dirAttrs (i.dirAttrs.map (·.1)) r.2) (fun r => sz_pure _ ?_)).le (by omega) (fun _ => Nat.le_refl _)
    simp only [Json.values]
    omega

include hfl in
theorem sz_sequence (i : Inst) (d : List (Str × Json)) :
    Sz w (flattenSequence w cfg fl i d) ((if i.info.hasDict then 3 * total (fun kv => kv.2.size) (dictItems w i) else 0) + 3 * Val.sizes i.elems + 2 + Json.valuesKv d) Json.values := by
  unfold flattenSequence
  refine (sz_bind (n := (if i.info.hasDict then 3 * total (fun kv => kv.2.size) (dictItems w i) else 0) + Json.valuesKv d) (μ := Json.valuesKv) (m := 3 * Val.sizes i.elems + 2) ?_ (fun d' => ?_)).le (by omega) (fun _ => Nat.le_refl _)
  · unfold flattenSeqAttrs
    split
    · exact sz_entries hfl _ _ _
    · exact sz_pure _ (Nat.le_add_left _ _)
  · refine (sz_bind (m := 2 + Json.valuesKv d') (sz_list hfl i.elems) (fun js => sz_ite (fun _ => sz_pure _ ?_) (fun _ => sz_pure _ (by simp only [Json.values]; omega)))).le (by omega) (fun _ => Nat.le_refl _)
    have := valuesKv_dset Tags.SEQ (.arr js) d'
    simp only [Json.values] at this ⊢
    omega

/-- the part of an instance that `flattenRest` writes -/
def rest (w : World) (i : Inst) : Nat :=
  (if i.info.hasDict then total (fun kv => kv.2.size) (dictItems w i) else 0) +
  (if i.info.hasSlots then total (i.slotSize i.attrs) i.info.slots + total (i.slotSize i.dirAttrs) (i.dirAttrs.map (·.1)) else 0) +
  (if i.info.base = .dict then total (fun kv => kv.2.size) i.items else 0) +
  Val.sizes i.elems + (if i.factory.isSome then i.exemplar.size else 0)

theorem sizes_take : ∀ (n : Nat) (xs : List Val), Val.sizes (xs.take n) ≤ Val.sizes xs
  | 0, xs => by simp [Val.sizes]
  | _ + 1, [] => Nat.le_refl _
  | n + 1, x :: xs => by
    have := sizes_take n xs
    simp only [List.take_succ_cons, Val.sizes]
    omega

include hu hm hfl in
theorem sz_rest (a : Addr) (i : Inst) (d : List (Str × Json)) : Sz w (flattenRest w cfg fl a i d) (3 * rest w i + 5 + Json.valuesKv d) Json.values := by
  have hseq : Sz w (flattenSequence w cfg fl i d) (3 * rest w i + 5 + Json.valuesKv d) Json.values := by
    refine (sz_sequence hfl i d).le ?_ (fun _ => Nat.le_refl _)
    unfold rest
    split <;> omega
  unfold flattenRest
  split
  · next hb =>
    refine (sz_bind (m := 1) (n := 3 * rest w i + 4 + Json.valuesKv d) (μ := Json.valuesKv) ?_ (fun d' => sz_pure _ (by simp only [Json.values]; omega))).le (by omega) (fun _ => Nat.le_refl _)
    unfold flattenDictSub
    refine (sz_bind (m := (if i.factory.isSome then 3 * i.exemplar.size + 2 else 0) + (if i.info.hasDict then 3 * total (fun kv => kv.2.size) (dictItems w i) + 2 else 0)) (sz_entries hfl i.items i.exclude d) (fun d1 =>
      (sz_bind (m := if i.info.hasDict then 3 * total (fun kv => kv.2.size) (dictItems w i) + 2 else 0) (sz_default hu hm hfl i.factory i.exemplar i.errs.factory d1) (fun d2 => sz_ownDict hu hm hfl a i i.exclude d2)).le
        (by omega) (fun _ => Nat.le_refl _))).le ?_ (fun _ => Nat.le_refl _)
    unfold rest
    rw [if_pos hb]
    split <;> split <;> omega
  · exact hseq
  · exact hseq
  · exact hseq
  · refine sz_ite (fun _ => ?_) (fun _ => sz_ite (fun hd => ?_) (fun _ => sz_ite (fun hd => ?_) (fun _ => sz_ite (fun _ => ?_) (fun _ => ?_))))
    · have hle : Val.sizes (iterated cfg i) ≤ Val.sizes i.elems := by
        unfold iterated
        split
        · exact Nat.le_refl _
        · exact sizes_take _ _
      refine (sz_bind (m := 2 + Json.valuesKv d) (sz_list hfl (iterated cfg i)) (fun js => sz_seq (k := 0) (μ := fun _ => 0) (sz_ofExcept (fun _ _ => Nat.le_refl _)) (fun _ => sz_pure _ ?_))).le ?_ (fun _ => Nat.le_refl _)
      · have := valuesKv_dset Tags.ITERATOR (.arr js) d
        simp only [Json.values] at this ⊢
        omega
      · unfold rest
        omega
    · refine (sz_bind (m := 1) (sz_entries hfl (dictItems w i) i.exclude d) (fun d' => sz_pure _ (by simp only [Json.values]; omega))).le ?_ (fun _ => Nat.le_refl _)
      unfold rest
      rw [if_pos hd]
      omega
    · refine (sz_slots hfl i d).le ?_ (fun _ => Nat.le_refl _)
      unfold rest
      rw [if_pos hd]
      omega
    · exact sz_pure _ (by simp only [Json.values]; omega)
    · rw [if_pos hu]
      exact sz_pure _ (by simp only [Json.values]; omega)

include hs in
theorem sz_objWith (v : Val) (id : Ident) (en : Bool) (rep : Except Exc Str) {body : P Json} {n : Nat} (hn : 3 ≤ n) (hb : Sz w body n Json.values) :
    Sz w (flattenObjWith cfg v id en rep body) n Json.values := by
  unfold flattenObjWith
  have hseen : Sz w (PyM.modify (fun s : PState => { s with seen := s.seen ++ [v] })) 0 (fun _ => 0) := fun s r s' h _ => by
    cases h
    exact ⟨Int.le_refl _, Nat.le_refl _, fun _ _ => by simp [Φ]⟩
  have hq : ∀ {α : Type} (x : P α), (∀ s r s', x s = some (r, s') → s' = s) → Sz w x 0 (fun _ => 0) := fun x hx s r s' h _ => by
    cases hx s r s' h
    exact ⟨Int.le_refl _, Nat.le_refl _, fun _ _ => Nat.le_refl _⟩
  refine sz_seq hseen (fun _ => sz_seq (hq (maxReached cfg) (fun s r s' h => by cases h; rfl)) (fun max => sz_tryCatch ?_ (fun e => ?_)))
  · refine sz_seq (hq _ (fun s r s' h => by cases h; rfl)) (fun cyc => sz_ite (fun _ => ?_) (fun _ => hb))
    exact sz_seq (k := 0) (μ := fun _ => 0) (sz_ofExcept (fun _ _ => Nat.le_refl _)) (fun r => sz_pure _ (by simp only [Json.values]; omega))
  · split
    · next f hf => exact sz_ofExcept (fun j hj => Nat.le_trans (hs f e j hf hj) hn)
    · exact sz_throw _ _ e

theorem sz_pop {n : Nat} {x : P Json} (h : Sz w x n Json.values) : Sz w (do push; let j ← x; pop j) n Json.values := by
  intro s r s' hx hd
  rw [bind_run] at hx
  change (x >>= fun j => pop j) { s with depth := s.depth + 1 } = some (r, s') at hx
  rw [bind_run] at hx
  cases hq : x { s with depth := s.depth + 1 } with
  | none => rw [hq] at hx; cases hx
  | some q =>
    obtain ⟨q, s1⟩ := q
    obtain ⟨h1, h2, h3⟩ := h _ q s1 hq (by show 0 ≤ s.depth + 1; omega)
    have h1 : s.depth + 1 ≤ s1.depth := h1
    have h2 : Φ w s1 ≤ Φ w s := h2
    rw [hq] at hx
    cases q with
    | error e =>
      injection hx with hx
      injection hx with ha hb
      subst hb
      exact ⟨by omega, h2, fun a he => by rw [← ha] at he; cases he⟩
    | ok j =>
      have h3 : j.values + Φ w s1 ≤ n + Φ w s := h3 j rfl
      dsimp only [pop] at hx
      have hne : ((s1.depth - 1 : Int) == -1) = false := by
        rw [beq_eq_false_iff_ne]
        omega
      rw [hne] at hx
      cases hx
      exact ⟨by show s.depth ≤ s1.depth - 1; omega, h2, fun a ha => by cases ha; exact h3⟩

include hu hm in
theorem cached_eq (id : Ident) (x : P Json) : cached cfg id x = x := by
  unfold cached
  rw [hu, hm]
  rfl

include hu hm hs hfl in
theorem sz_filteredState (a : Addr) (kvs : List (Val × Val)) (ex : List Str) :
    Sz w (flattenFilteredState w cfg fl a kvs ex) (3 * total (fun kv => kv.2.size) kvs + 3) Json.values := by
  have hle : 3 * total (fun kv : Val × Val => kv.2.size) (itemsExcl ex kvs) ≤ 3 * total (fun kv => kv.2.size) kvs := Nat.mul_le_mul_left _ (total_filter _ _ kvs)
  unfold flattenFilteredState
  rw [cached_eq hu hm]
  refine sz_pop (sz_objWith hs _ _ _ _ (by omega) (sz_seq (sz_mkref hu hm _) (fun new => sz_ite (fun _ => ?_) (fun _ => (sz_getref _).le (by omega) (fun _ => Nat.le_refl _)))))
  refine (sz_bind (m := 1) (sz_entries hfl (itemsExcl ex kvs) [] []) (fun d' => sz_pure _ (by simp only [Json.values]; omega))).le ?_ (fun _ => Nat.le_refl _)
  simp only [Json.valuesKv]
  omega

include hu in
theorem values_putState (j : Json) (d : List (Str × Json)) : (putState cfg j d).values ≤ j.values + (1 + Json.valuesKv d) := by
  unfold putState
  rw [if_pos hu]
  have := valuesKv_dset Tags.STATE j d
  simp only [Json.values]
  omega

include hu hm hs hfl in
theorem sz_getstate (a : Addr) (i : Inst) (d : List (Str × Json)) :
    Sz w (flattenGetstate w cfg fl a i d) (3 * (rest w i + (if i.info.ownGetstate then i.stateSize w.heap else 0)) + 5 + Json.valuesKv d) Json.values := by
  have hrest : Sz w (flattenRest w cfg fl a i d) (3 * (rest w i + (if i.info.ownGetstate then i.stateSize w.heap else 0)) + 5 + Json.valuesKv d) Json.values :=
    (sz_rest hu hm hfl a i d).le (by omega) (fun _ => Nat.le_refl _)
  unfold flattenGetstate
  refine sz_ite (fun ho => ?_) (fun _ => hrest)
  rw [if_pos ho] at hrest ⊢
  cases hst : i.state with
  | error e => exact sz_ite (fun _ => sz_pure _ (by simp only [Json.values]; omega)) (fun _ => sz_throw _ _ e)
  | ok st =>
    dsimp only
    have hsz : st.size ≤ i.stateSize w.heap := by
      unfold Inst.stateSize
      rw [hst]
      cases st with
      | ref b =>
        dsimp only
        split
        · exact Nat.le_add_left _ _
        · exact Nat.le_refl _
      | _ => exact Nat.le_refl _
    split
    · next kvs hk =>
      have hkv : total (fun kv : Val × Val => kv.2.size) kvs + 1 = i.stateSize w.heap := by
        unfold Inst.stateSize
        rw [hst]
        cases st with
        | ref b =>
          dsimp only at hk ⊢
          cases hb : w.heap[b]? with
          | none => rw [hb] at hk; cases hk
          | some o =>
            rw [hb] at hk
            cases o with
            | dict l =>
              dsimp only at hk ⊢
              by_cases he : i.exclude.isEmpty = true
              · rw [if_pos he] at hk; cases hk
              · rw [if_neg he] at hk
                cases hk
                rfl
            | _ => cases hk
        | _ => cases hk
      refine sz_ite (fun _ => hrest) (fun _ => ?_)
      exact (sz_bind (m := 1 + Json.valuesKv d) (sz_filteredState hu hm hs hfl a kvs i.exclude) (fun j => sz_pure _ (by have := values_putState (cfg := cfg) hu j d; omega))).le (by omega) (fun _ => Nat.le_refl _)
    · refine sz_ite (fun _ => ?_) (fun _ => hrest)
      exact (sz_bind (m := 1 + Json.valuesKv d) (hfl st) (fun j => sz_pure _ (by have := values_putState (cfg := cfg) hu j d; omega))).le (by omega) (fun _ => Nat.le_refl _)

include hfl in
theorem sz_newargs (i : Inst) (d : List (Str × Json)) :
    Sz w (flattenNewargs fl i d) (3 * (if i.info.hasNewargsEx then i.newargsEx.1.size + i.newargsEx.2.size else if i.info.hasNewargs then i.newargs.size else 0) + 1 + Json.valuesKv d) Json.valuesKv := by
  unfold flattenNewargs
  by_cases h1 : i.info.hasNewargsEx = true
  · rw [if_pos h1, if_pos h1]
    cases he : i.errs.newargsEx with
    | some e => exact sz_throw _ _ e
    | none =>
      show Sz w (fl i.newargsEx.1 >>= fun x => fl i.newargsEx.2 >>= fun y => (pure (dset Tags.NEWARGSEX (.arr [x, y]) d) : P (List (Str × Json)))) _ _
      refine (sz_bind (m := 3 * i.newargsEx.2.size + (1 + Json.valuesKv d)) (hfl _) (fun x => (sz_bind (m := x.values + (1 + Json.valuesKv d)) (hfl _) (fun y => sz_pure _ ?_)).le (by omega) (fun _ => Nat.le_refl _))).le (by omega) (fun _ => Nat.le_refl _)
      have := valuesKv_dset Tags.NEWARGSEX (.arr [x, y]) d
      simp only [Json.values, Json.valuesL] at this
      omega
  · rw [if_neg h1, if_neg h1]
    by_cases h2 : i.info.hasNewargs = true
    · rw [if_pos h2, if_pos h2]
      cases he : i.errs.newargs with
      | some e => exact sz_throw _ _ e
      | none => exact (sz_bind (m := Json.valuesKv d) (hfl i.newargs) (fun x => sz_pure _ (by have := valuesKv_dset Tags.NEWARGS x d; omega))).le (by omega) (fun _ => Nat.le_refl _)
    · rw [if_neg h2, if_neg h2]
      exact sz_pure _ (by omega)

include hfl in
theorem sz_initargs (i : Inst) (d : List (Str × Json)) : Sz w (flattenInitargs fl i d) (3 * (if i.info.hasInitargs then i.initargs.size else 0) + Json.valuesKv d) Json.valuesKv := by
  unfold flattenInitargs
  by_cases h2 : i.info.hasInitargs = true
  · rw [if_pos h2, if_pos h2]
    cases he : i.errs.initargs with
    | some e => exact sz_throw _ _ e
    | none => exact (sz_bind (m := Json.valuesKv d) (hfl i.initargs) (fun x => sz_pure _ (by have := valuesKv_dset Tags.INITARGS x d; omega))).le (by omega) (fun _ => Nat.le_refl _)
  · rw [if_neg h2, if_neg h2]
    exact sz_pure _ (by omega)

include hu in
theorem values_objTag (i : Inst) : Json.valuesKv (objTag cfg i) = 1 := by
  unfold objTag
  rw [if_pos hu]
  rfl

/-- what `flattenBody` writes -/
def body (w : World) (i : Inst) : Nat :=
  (if i.info.hasNewargsEx then i.newargsEx.1.size + i.newargsEx.2.size else if i.info.hasNewargs then i.newargs.size else 0) +
  (if i.info.hasInitargs then i.initargs.size else 0) + (rest w i + (if i.info.ownGetstate then i.stateSize w.heap else 0))

include hu hm hs hfl in
theorem sz_body (a : Addr) (i : Inst) : Sz w (flattenBody w cfg fl a i) (3 * body w i + 7) Json.values := by
  unfold flattenBody
  have h1 := values_objTag (cfg := cfg) hu i
  refine (sz_bind (m := 3 * (if i.info.hasInitargs then i.initargs.size else 0) + (3 * (rest w i + (if i.info.ownGetstate then i.stateSize w.heap else 0)) + 5)) (sz_newargs hfl i _) (fun d =>
    (sz_bind (m := 3 * (rest w i + (if i.info.ownGetstate then i.stateSize w.heap else 0)) + 5) (sz_initargs hfl i d) (fun d => sz_getstate hu hm hs hfl a i d)).le (by omega) (fun _ => Nat.le_refl _))).le ?_ (fun _ => Nat.le_refl _)
  unfold body
  omega

theorem sizes_append : ∀ xs ys : List Val, Val.sizes (xs ++ ys) = Val.sizes xs + Val.sizes ys
  | [], ys => by simp [Val.sizes]
  | x :: xs, ys => by
    have := sizes_append xs ys
    simp only [List.cons_append, Val.sizes]
    omega

theorem sizes_none : ∀ n : Nat, Val.sizes (List.replicate n .none) = n
  | 0 => rfl
  | n + 1 => by
    rw [List.replicate_succ, Val.sizes, sizes_none n]
    simp only [Val.size]
    omega

theorem sizes_mark (xs : List Val) : Val.sizes (newobjMark xs) ≤ Val.sizes xs := by
  unfold newobjMark
  split
  · simp only [Val.sizes, Val.size]
    split <;> simp [Val.size]
  · simp only [Val.sizes, Val.size]
    split <;> simp [Val.size]
  · exact Nat.le_refl _

theorem valuesL_append : ∀ xs ys : List Json, Json.valuesL (xs ++ ys) = Json.valuesL xs + Json.valuesL ys
  | [], ys => by simp [Json.valuesL]
  | x :: xs, ys => by
    have := valuesL_append xs ys
    simp only [List.cons_append, Json.valuesL]
    omega

theorem valuesL_reverse : ∀ xs : List Json, Json.valuesL xs.reverse = Json.valuesL xs
  | [] => rfl
  | x :: xs => by
    rw [List.reverse_cons, valuesL_append, valuesL_reverse xs]
    simp only [Json.valuesL]
    omega

theorem valuesL_dropWhile (p : Json → Bool) : ∀ xs : List Json, Json.valuesL (xs.dropWhile p) ≤ Json.valuesL xs
  | [] => Nat.le_refl _
  | x :: xs => by
    have := valuesL_dropWhile p xs
    rw [List.dropWhile_cons]
    split
    · simp only [Json.valuesL]; omega
    · exact Nat.le_refl _

theorem values_trim (js : List Json) : Json.valuesL (trimReduce js) ≤ Json.valuesL js := by
  unfold trimReduce
  rw [valuesL_append, valuesL_reverse]
  have h1 := valuesL_dropWhile isNullJ (js.drop 2).reverse
  rw [valuesL_reverse] at h1
  have h2 : Json.valuesL js = Json.valuesL (js.take 2) + Json.valuesL (js.drop 2) := by rw [← valuesL_append, List.take_append_drop]
  omega

include hu hm hs hfl in
theorem sz_reduce (a : Addr) (i : Inst) : Sz w (flattenReduce w cfg fl a i) (3 * (body w i + (if i.info.reduces then i.reduceSize else 0)) + 17) Json.values := by
  have hbody : Sz w (flattenBody w cfg fl a i) (3 * (body w i + (if i.info.reduces then i.reduceSize else 0)) + 17) Json.values := (sz_body hu hm hs hfl a i).le (by omega) (fun _ => Nat.le_refl _)
  unfold flattenReduce
  by_cases hr : i.info.reduces = true
  · rw [if_pos hr] at hbody ⊢
    rw [hu, hr, Bool.and_self, if_pos rfl]
    cases hred : i.reduce with
    | nothing => exact hbody
    | raise e => exact sz_ite (fun _ => hbody) (fun _ => sz_throw _ _ e)
    | str t =>
      cases t with
      | none => exact hbody
      | some v =>
        refine sz_tryCatch ((hfl v).le ?_ (fun _ => Nat.le_refl _)) (fun _ => hbody)
        unfold Inst.reduceSize
        rw [hred]
        dsimp only
        omega
    | tup xs =>
      refine sz_ite (fun _ => hbody) (fun he => sz_ite (fun _ => ?_) (fun _ => hbody))
      refine (sz_bind (m := 2) (sz_list hfl (newobjMark (padReduce xs))) (fun js => sz_pure _ ?_)).le ?_ (fun _ => Nat.le_refl _)
      · have := values_trim js
        simp only [Json.values, Json.valuesKv]
        omega
      · have h1 := sizes_mark (padReduce xs)
        have h2 : Val.sizes (padReduce xs) = Val.sizes xs + (6 - xs.length) := by
          unfold padReduce
          rw [sizes_append, sizes_none]
        have h3 : 1 ≤ xs.length := by
          cases xs with
          | nil => exact absurd rfl he
          | cons x xs => exact Nat.le_add_left _ _
        have h4 : i.reduceSize = Val.sizes xs := by unfold Inst.reduceSize; rw [hred]
        omega
  · have hr : i.info.reduces = false := by simpa using hr
    rw [hr] at hbody ⊢
    rw [Bool.and_false]
    exact hbody

include hu hfl in
theorem sz_date (a : Addr) (i : Inst) : Sz w (flattenDate w cfg fl a i) (3 * total (fun kv => kv.2.size) i.hfields + 7) Json.values := by
  unfold flattenDate
  rw [if_pos hu]
  have h1 := values_objTag (cfg := cfg) hu i
  have h2 : Val.sizes (i.hfields.tail.map (·.2)) ≤ total (fun kv => kv.2.size) i.hfields := by
    have hs : ∀ l : List (Str × Val), Val.sizes (l.map (·.2)) = total (fun kv => kv.2.size) l := by
      intro l
      induction l with
      | nil => rfl
      | cons x l ih => rw [List.map_cons, Val.sizes, total, ih]
    rw [hs]
    cases i.hfields with
    | nil => exact Nat.le_refl _
    | cons x l => exact Nat.le_add_left _ _
  refine (sz_bind (m := 7) (sz_list hfl _) (fun js => sz_seq (k := 0) (μ := fun _ => 0) (sz_ofExcept (fun _ _ => Nat.le_refl _)) (fun _ => sz_pure _ ?_))).le (by omega) (fun _ => Nat.le_refl _)
  have h3 := valuesKv_dset p!"__reduce__" (.arr [js.getLastD .null, .arr (.str (dateText i.hfields) :: js.dropLast)]) (objTag cfg i)
  have h4 : (js.getLastD .null).values + Json.valuesL js.dropLast ≤ Json.valuesL js + 1 := by
    rcases List.eq_nil_or_concat js with rfl | ⟨l, x, rfl⟩
    · exact Nat.le_refl _
    · rw [List.concat_eq_append, valuesL_append]
      simp [Json.valuesL]
      omega
  simp only [Json.values, Json.valuesL] at h3 ⊢
  omega

include hu hm hs hfl in
theorem sz_inst (a : Addr) (i : Inst) : Sz w (flattenInst w cfg fl a i) (3 * i.holds w + 17) Json.values := by
  have hh : body w i + (if i.info.reduces then i.reduceSize else 0) + total (fun kv => kv.2.size) i.hfields = i.holds w := by
    unfold body rest Inst.holds
    omega
  have h1 := values_objTag (cfg := cfg) hu i
  have hq : ∀ {n : Nat} {x : P Json}, Sz w x n Json.values → Sz w (do PyM.ofExcept (outcome i.errs.handler ()); x) n Json.values :=
    fun hx => sz_seq (k := 0) (μ := fun _ => 0) (sz_ofExcept (fun _ _ => Nat.le_refl _)) (fun _ => hx)
  unfold flattenInst
  split
  · have h2 := sz_foldM (w := w) (f := fun d (kv : Str × Val) => do let j ← fl kv.2; pure (dset kv.1 j d)) (c := fun kv : Str × Val => 3 * kv.2.size) (μ := Json.valuesKv) (xs := i.hfields)
      (fun kv _ d => sz_bind (hfl kv.2) (fun j => sz_pure _ (valuesKv_dset kv.1 j d))) (objTag cfg i)
    rw [total_mul] at h2
    exact (sz_bind (m := 1) h2 (fun d => hq (sz_pure _ (by simp only [Json.values]; omega)))).le (by omega) (fun _ => Nat.le_refl _)
  · exact (sz_date hu hfl a i).le (by omega) (fun _ => Nat.le_refl _)
  · exact hq (sz_pure _ (by simp only [Json.values]; omega))
  · exact hq (sz_pure _ (by simp only [Json.values]; omega))
  · exact (sz_reduce hu hm hs hfl a i).le (by omega) (fun _ => Nat.le_refl _)

include hu hm hs hfl in
theorem sz_by (v : Val) : Sz w (flattenBy w cfg fl v) (3 * v.size) Json.values := by
  have key : ∀ (id : Ident) (body : P Json) (c : Nat), c ≤ credit w id true → Sz w body (3 + c) Json.values → Sz w (do let new ← mkref cfg id; if new then body else getref id) 3 Json.values := by
    intro id body c hc hb
    refine (sz_bind (m := 3) (sz_mkref hu hm id) (fun new => ?_)).le (by omega) (fun _ => Nat.le_refl _)
    cases new with
    | true => exact hb.le (by omega) (fun _ => Nat.le_refl _)
    | false => exact (sz_getref id).le (by omega) (fun _ => Nat.le_refl _)
  unfold flattenBy
  cases v with
  | ref a =>
    dsimp only [Val.size]
    cases hg : w.heap[a]? with
    | none => exact sz_throw _ _ _
    | some o =>
      have hc : ∀ n, cost w a = n → n ≤ credit w (.addr a) true := fun n h => Nat.le_of_eq h.symm
      cases o with
      | list xs =>
        refine key _ _ (3 * Val.sizes xs) (hc _ (by unfold cost; rw [hg])) ?_
        exact (sz_bind (m := 3) (sz_list hfl xs) (fun js => sz_pure _ (by simp only [Json.values]; omega))).le (by omega) (fun _ => Nat.le_refl _)
      | dict kvs =>
        refine key _ _ (3 * total (fun kv => kv.2.size) kvs) (hc _ (by unfold cost; rw [hg])) ?_
        exact (sz_bind (m := 3) (sz_entries hfl kvs [] []) (fun d => sz_pure _ (by simp only [Json.values]; omega))).le (by simp only [Json.valuesKv]; omega) (fun _ => Nat.le_refl _)
      | inst i =>
        dsimp only
        unfold refObjInstance
        rw [if_pos hu]
        exact key _ _ (3 * i.holds w + 14) (hc _ (by unfold cost; rw [hg])) ((sz_inst hu hm hs hfl a i).le (by omega) (fun _ => Nat.le_refl _))
      | _ => exact sz_throw _ _ _
  | tuple l xs =>
    dsimp only [Val.size]
    refine (sz_bind (m := 3) (sz_list hfl xs) (fun js => sz_pure _ ?_)).le (by omega) (fun _ => Nat.le_refl _)
    rw [if_pos hu]
    simp only [Json.values, Json.valuesKv]
    omega
  | set l xs =>
    dsimp only [Val.size]
    refine (sz_bind (m := 3) (sz_list hfl xs) (fun js => sz_pure _ ?_)).le (by omega) (fun _ => Nat.le_refl _)
    rw [if_pos hu]
    simp only [Json.values, Json.valuesKv]
    omega
  | func n => exact sz_pure _ (by rw [if_pos hu]; exact Nat.le_succ _)
  | type n => exact sz_pure _ (Nat.le_succ _)
  | module n =>
    dsimp only
    unfold refObjInstance
    rw [if_pos hu]
    refine key _ _ 0 (Nat.zero_le _) ?_
    unfold flattenModule
    rw [if_pos hu]
    exact sz_pure _ (Nat.le_succ _)
  | lambda _ => exact sz_pure _ (by simp [Json.values, Val.size])
  | _ => exact sz_throw _ _ _

include hu hm hs hfl in
theorem sz_obj (v : Val) : Sz w (flattenObj w cfg fl v) (3 * v.size) Json.values := by
  have := size_pos v
  exact sz_objWith hs _ _ _ _ (by omega) (sz_by hu hm hs hfl v)

include hu hm hs hfl in
theorem sz_step (v : Val) : Sz w (flattenStep w cfg fl v) (3 * v.size) Json.values := by
  have hp := sz_pop (sz_obj hu hm hs hfl v)
  unfold flattenStep
  cases v with
  | none | bool | int | float | str => exact sz_pure _ (by simp [Json.values, Val.size])
  | bytes l b => dsimp only; rw [cached_eq hu hm]; exact sz_pure _ (by rw [values_bytes]; simp [Val.size])
  | bytearray l b => dsimp only; rw [cached_eq hu hm]; exact sz_pure _ (by simp only [Json.values, Json.valuesKv, values_bytes, Val.size]; omega)
  | _ => dsimp only; rw [cached_eq hu hm]; exact hp

end

section
variable {w : World} {cfg : PCfg} (hu : cfg.unpicklable = true) (hm : cfg.makeRefs = true) (hs : ∀ f e j, cfg.failSafe = some f → f e = .ok j → j.values ≤ 3)
include hu hm hs

theorem sz_flatten : ∀ (n : Nat) (v : Val), Sz w (flatten w cfg n v) (3 * v.size) Json.values
  | 0, _ => fun s r s' h _ => by cases h
  | n + 1, v => sz_step hu hm hs (sz_flatten n) v

/-- a document of its own -/
theorem size_top {n : Nat} {v : Val} {s' : PState} {j : Json} (h : flatten w cfg n v {} = some (.ok j, s')) : j.values ≤ 3 * v.size + Φ w {} := by
  cases n with
  | zero => cases h
  | succ n =>
    have hv := size_pos v
    have main : ∀ {j : Json} {s' : PState}, (do push; let j ← flattenObj w cfg (flatten w cfg n) v; pop j) {} = some (.ok j, s') → j.values ≤ 3 * v.size + Φ w {} := by
      intro j s' h
      rw [bind_run] at h
      change (flattenObj w cfg (flatten w cfg n) v >>= fun j => pop j) { depth := -1 + 1 } = some (.ok j, s') at h
      rw [bind_run] at h
      cases hq : flattenObj w cfg (flatten w cfg n) v { depth := -1 + 1 } with
      | none => rw [hq] at h; cases h
      | some q =>
        obtain ⟨q, s1⟩ := q
        rw [hq] at h
        cases q with
        | error e => cases h
        | ok x =>
          obtain ⟨-, -, h3⟩ := sz_obj hu hm hs (sz_flatten hu hm hs n) v _ _ s1 hq (by decide)
          have h3 : x.values + Φ w s1 ≤ 3 * v.size + Φ w {} := h3 x rfl
          injection h with h
          injection h with h _
          cases h
          omega
    change flattenStep w cfg (flatten w cfg n) v {} = some (.ok j, s') at h
    unfold flattenStep at h
    cases v with
    | none | bool | int | float | str => cases h; simp [Json.values, Val.size]; omega
    | bytes l b => dsimp only at h; rw [cached_eq hu hm] at h; cases h; rw [values_bytes]; simp only [Val.size]; omega
    | bytearray l b => dsimp only at h; rw [cached_eq hu hm] at h; cases h; simp only [Json.values, Json.valuesKv, values_bytes, Val.size]; omega
    | _ => dsimp only at h; rw [cached_eq hu hm] at h; exact main h

end

theorem phi_congr {c c' : Nat → Nat} : ∀ n, (∀ a, a < n → c a = c' a) → phi c [] n = phi c' [] n
  | 0, _ => rfl
  | n + 1, h => by
    rw [phi, phi, phi_congr n (fun a ha => h a (Nat.lt_succ_of_lt ha)), h n (Nat.lt_succ_self n)]

theorem phi_succ (c : Nat → Nat) : ∀ n, phi c [] (n + 1) = c 0 + phi (fun a => c (a + 1)) [] n
  | 0 => by simp [phi]
  | n + 1 => by
    rw [phi, phi_succ c n, phi]
    exact Nat.add_assoc _ _ _

theorem phi_total {g : Obj → Nat} : ∀ (l : List Obj) (c : Nat → Nat), (∀ a o, l[a]? = some o → c a = g o) → phi c [] l.length = total g l
  | [], _, _ => rfl
  | o :: l, c, h => by
    rw [List.length_cons, phi_succ, total, h 0 o rfl, phi_total l _ (fun a o' ha => h (a + 1) o' (by simpa using ha))]

theorem total_add {α : Type} (f g h : α → Nat) (k m : Nat) (e : ∀ x, h x = k * f x + m * g x) : ∀ xs : List α, total h xs = k * total f xs + m * total g xs
  | [] => by simp [total]
  | x :: xs => by
    simp only [total, e x, total_add f g h k m e xs, Nat.mul_add]
    omega

/-- the costs of all cells -/
theorem phi_all (w : World) : Φ w {} = 3 * w.entries + 14 * w.instances := by
  unfold Φ World.entries World.instances
  rw [phi_total (g := fun o => match o with
      | .list xs => 3 * Val.sizes xs
      | .dict kvs => 3 * total (fun kv => kv.2.size) kvs
      | .inst i => 3 * i.holds w + 14
      | _ => 0) w.heap (cost w) (fun a o ha => by unfold cost; rw [ha]; cases o <;> rfl)]
  exact total_add _ _ _ 3 14 (fun o => by cases o <;> simp) w.heap

end JP.Pickler.Size
