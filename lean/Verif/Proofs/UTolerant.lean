import Verif.Proofs.UDispatch
/-! # Documents on which the decoder cannot fail -/
namespace JP.Unpickler
open JP PyM

/-- no pending `setattr` -/
def NoAttr (s : UState) : Prop := ∀ e ∈ s.proxies, ∀ k, e.2.1 ≠ .attr k

/-- the computation ends without exception -/
def Fine {α : Type} (x : U α) : Prop := ∀ s, NoAttr s → ∃ a s', x s = some (.ok a, s') ∧ NoAttr s'

/-- the computation ends, and raises at most `TypeError` -/
def Soft {α : Type} (x : U α) : Prop :=
  ∀ s, NoAttr s → ∃ r s', x s = some (r, s') ∧ NoAttr s' ∧ ∀ e, r = .error e → e = .typeError

namespace Fine

theorem pure {α : Type} (a : α) : Fine (Pure.pure a : U α) := fun s h => ⟨a, s, rfl, h⟩

theorem bind {α β : Type} {x : U α} {f : α → U β} (hx : Fine x) (hf : ∀ a, Fine (f a)) : Fine (x >>= f) := by
  intro s hs
  obtain ⟨a, s1, h1, h2⟩ := hx s hs
  obtain ⟨b, s2, h3, h4⟩ := hf a s1 h2
  exact ⟨b, s2, by rw [bind_ok h1, h3], h4⟩

theorem ite {α : Type} {c : Prop} [Decidable c] {x y : U α} (hx : c → Fine x) (hy : ¬ c → Fine y) : Fine (if c then x else y) := by
  by_cases h : c
  · rw [if_pos h]; exact hx h
  · rw [if_neg h]; exact hy h

theorem soft {α : Type} {x : U α} (hx : Fine x) : Soft x := by
  intro s hs
  obtain ⟨a, s1, h1, h2⟩ := hx s hs
  exact ⟨_, _, h1, h2, fun _ h => by cases h⟩

theorem mapM {α β : Type} {f : α → U β} : ∀ (xs : List α), (∀ x ∈ xs, Fine (f x)) → Fine (PyM.mapM f xs)
  | [], _ => fun s h => ⟨[], s, rfl, h⟩
  | x :: xs, h => by
    rw [mapM_cons]
    exact bind (h x (.head _)) (fun _ => bind (mapM xs (fun y hy => h y (.tail _ hy))) (fun _ => pure _))

theorem get : Fine (PyM.get : U UState) := fun s h => ⟨s, s, rfl, h⟩
theorem alloc (o : Obj) : Fine (alloc o) := fun s h => ⟨_, _, rfl, h⟩
theorem setCell (a o) : Fine (setCell a o) := fun s h => ⟨_, _, rfl, h⟩
theorem fresh : Fine fresh := fun s h => ⟨_, _, rfl, h⟩
theorem mkref (v) : Fine (mkref v) := by
  intro s h
  unfold Unpickler.mkref
  split
  · exact ⟨_, _, rfl, h⟩
  · exact ⟨_, _, rfl, h⟩

theorem noteProxy (a) (sl : Slot) (hs : ∀ k, sl ≠ .attr k) (v) : Fine (noteProxy a sl v) := by
  intro s h
  refine ⟨(), _, rfl, ?_⟩
  show NoAttr (match proxyAddr s.heap v with | some p => _ | none => s)
  split
  · intro e he k
    rcases List.mem_append.1 he with he | he
    · exact h e he k
    · rw [List.mem_singleton.1 he]; exact hs k
  · exact h

theorem dictSet (a) (k : Str) (v) : Fine (dictSet a (.str k) v) := by
  intro s h
  unfold Unpickler.dictSet
  rw [if_pos (by rfl)]
  split
  · exact ⟨_, _, rfl, h⟩
  · exact ⟨_, _, rfl, h⟩

end Fine

namespace Soft

theorem bind {α β : Type} {x : U α} {f : α → U β} (hx : Soft x) (hf : ∀ a, Soft (f a)) : Soft (x >>= f) := by
  intro s hs
  obtain ⟨r, s1, h1, h2, h3⟩ := hx s hs
  rw [bind_run, h1]
  cases r with
  | error e => exact ⟨_, _, rfl, h2, fun e' he' => by cases he'; exact h3 e rfl⟩
  | ok a => exact hf a s1 h2

theorem ofExcept {α : Type} {r : Except Exc α} (h : ∀ e, r = .error e → e = .typeError) : Soft (PyM.ofExcept r : U α) :=
  fun s hs => ⟨r, s, rfl, hs, h⟩

theorem foldM {α β : Type} {f : β → α → U β} : ∀ (xs : List α), (∀ b, ∀ x ∈ xs, Soft (f b x)) → ∀ b, Soft (PyM.foldM f b xs)
  | [], _, _ => Fine.soft (fun s h => ⟨_, s, rfl, h⟩)
  | x :: xs, h, b => by
    rw [foldM_cons]
    exact bind (h b x (.head _)) (fun b => foldM xs (fun b y hy => h b y (.tail _ hy)) b)

theorem tryCatch {α : Type} {x : U α} {f : Exc → U α} (hx : Soft x) (hf : ∀ e, Fine (f e)) :
    Fine (PyM.tryCatch x (· == .typeError) f) := by
  intro s hs
  obtain ⟨r, s1, h1, h2, h3⟩ := hx s hs
  unfold PyM.tryCatch
  rw [h1]
  cases r with
  | ok a => exact ⟨a, s1, rfl, h2⟩
  | error e =>
    rw [h3 e rfl]
    exact hf _ s1 h2

end Soft

theorem jsonIter_soft (j : Json) : ∀ e, jsonIter j = .error e → e = .typeError := by
  intro e h
  cases j <;> simp [jsonIter] at h <;> exact h.symm

theorem Json.keysL_mem {xs : List Json} {x : Json} (hx : x ∈ xs) {k : Str} (hk : k ∈ x.keys) : k ∈ Json.keysL xs := by
  induction xs with
  | nil => cases hx
  | cons y ys ih =>
    simp only [Json.keysL, List.mem_append]
    cases hx with
    | head => exact .inl hk
    | tail _ hx => exact .inr (ih hx)

theorem Json.keysKv_mem {kvs : List (Str × Json)} {k' : Str} {x : Json} (hx : (k', x) ∈ kvs) {k : Str} (hk : k ∈ x.keys) : k ∈ Json.keysKv kvs := by
  induction kvs with
  | nil => cases hx
  | cons y ys ih =>
    simp only [Json.keysKv, List.mem_cons, List.mem_append]
    cases hx with
    | head => exact .inr (.inl hk)
    | tail _ hx => exact .inr (.inr (ih hx))

theorem Json.keysKv_key {kvs : List (Str × Json)} {k : Str} (hx : k ∈ kvs.map (·.1)) : k ∈ Json.keysKv kvs := by
  induction kvs with
  | nil => cases hx
  | cons y ys ih =>
    simp only [Json.keysKv, List.mem_cons, List.mem_append]
    cases hx with
    | head => exact .inl rfl
    | tail _ hx => exact .inr (.inr (ih hx))

theorem Json.depthL_mem {xs : List Json} {x : Json} (hx : x ∈ xs) : x.depth ≤ Json.depthL xs := by
  induction xs with
  | nil => cases hx
  | cons y ys ih =>
    simp only [Json.depthL]
    cases hx with
    | head => omega
    | tail _ hx => have := ih hx; omega

theorem Json.depthKv_mem {kvs : List (Str × Json)} {k : Str} {x : Json} (hx : (k, x) ∈ kvs) : x.depth ≤ Json.depthKv kvs := by
  induction kvs with
  | nil => cases hx
  | cons y ys ih =>
    exact Json.depthKv_le.1 (Nat.le_refl _) _ hx

/-- the elements that iterating over a document gives are documents of the same kind -/
theorem jsonIter_mem {j x : Json} {xs : List Json} (h : jsonIter j = .ok xs) (hx : x ∈ xs) :
    (∀ k ∈ x.keys, k ∈ j.keys) ∧ x.depth ≤ j.depth := by
  cases j with
  | arr ys =>
    cases h
    refine ⟨fun k hk => Json.keysL_mem hx hk, ?_⟩
    have := Json.depthL_mem hx
    simp only [Json.depth]
    omega
  | obj kvs =>
    cases h
    obtain ⟨kv, _, rfl⟩ := List.mem_map.1 hx
    exact ⟨(fun k hk => by cases hk), (by simp [Json.depth])⟩
  | str s =>
    cases h
    obtain ⟨kv, _, rfl⟩ := List.mem_map.1 hx
    exact ⟨(fun k hk => by cases hk), (by simp [Json.depth])⟩
  | _ => cases h

theorem item_ok {t : Str} {kvs : List (Str × Json)} (h : dhas t kvs = true) : ∃ j, item t kvs = .ok j ∧ (t, j) ∈ kvs := by
  unfold dhas at h
  unfold item
  cases hd : dget t kvs with
  | none => rw [hd] at h; cases h
  | some j => exact ⟨j, rfl, dget_mem hd⟩

section
variable {env : UEnv} {rs : Json → U Val}

theorem fine_noteList (a) : ∀ vs n, Fine (noteList a n vs)
  | [], n => Fine.pure _
  | v :: vs, n => Fine.bind (Fine.noteProxy _ _ (fun _ h => by cases h) _) (fun _ => fine_noteList a vs _)

theorem soft_restoreList {r : Except Exc (List Json)} (hr : ∀ e, r = .error e → e = .typeError) (h : ∀ xs, r = .ok xs → ∀ x ∈ xs, Fine (rs x)) :
    Soft (restoreList rs r) := by
  unfold restoreList
  refine Soft.bind (Fine.alloc _).soft (fun a => Soft.bind (Fine.mkref _).soft (fun _ => ?_))
  cases r with
  | error e =>
    intro s hs
    exact ⟨.error e, s, rfl, hs, fun e' he' => by cases he'; exact hr e rfl⟩
  | ok xs =>
    refine Fine.soft ?_
    intro s hs
    rw [bind_ok (a := xs) (s' := s) rfl]
    refine (Fine.bind (Fine.mapM xs (h xs rfl)) (fun vs => Fine.bind (Fine.setCell _ _) (fun _ =>
      Fine.bind (fine_noteList _ _ _) (fun _ => Fine.pure _)))) s hs

theorem fine_restoreArr {xs : List Json} (h : ∀ x ∈ xs, Fine (rs x)) : Fine (restoreList rs (.ok xs)) := by
  unfold restoreList
  refine Fine.bind (Fine.alloc _) (fun a => Fine.bind (Fine.mkref _) (fun _ => ?_))
  intro s hs
  rw [bind_ok (a := xs) (s' := s) rfl]
  exact (Fine.bind (Fine.mapM xs h) (fun vs => Fine.bind (Fine.setCell _ _) (fun _ =>
    Fine.bind (fine_noteList _ _ _) (fun _ => Fine.pure _)))) s hs

/-- the documents that can be met below `j` -/
structure Below (env : UEnv) (m : Nat) (x : Json) : Prop where
  tol : x.Tolerated
  keys : env.keys = true → ∀ k ∈ x.keys, isJsonKey k = false
  depth : x.depth ≤ m

theorem Below.of_sub {env : UEnv} {m m' : Nat} {j x : Json} (h : Below env m j) (hk : ∀ k ∈ x.keys, k ∈ j.keys) (hd : x.depth ≤ m') : Below env m' x :=
  ⟨fun k hk' => h.tol k (hk k hk'), fun he k hk' => h.keys he k (hk k hk'), hd⟩

theorem fine_item {α : Type} {t : Str} {kvs : List (Str × Json)} (hd : dhas t kvs = true) {f : Json → U α}
    (hf : ∀ j, (t, j) ∈ kvs → Soft (f j)) : Soft (PyM.ofExcept (item t kvs) >>= f) := by
  obtain ⟨j, hj, hm⟩ := item_ok hd
  rw [hj]
  intro s hs
  rw [bind_ok (a := j) (s' := s) rfl]
  exact hf j hm s hs

theorem fine_restoreTags {m : Nat} {kvs : List (Str × Json)} (hb : Below env (m + 1) (.obj kvs)) (h : ∀ x, Below env m x → Fine (rs x)) :
    Fine (restoreTags env rs kvs) := by
  have hno : ∀ t ∈ wireTags, t ∉ toleratedTags → ¬ dhas t kvs = true := by
    intro t ht hnt hd
    obtain ⟨j, _, hm⟩ := item_ok hd
    have : t ∈ (Json.obj kvs).keys := Json.keysKv_key (List.mem_map.2 ⟨_, hm, rfl⟩)
    exact hnt (hb.tol t this ht)
  have hval : ∀ {k x}, (k, x) ∈ kvs → Below env m x := by
    intro k x hx
    refine hb.of_sub (fun k hk => Json.keysKv_mem hx hk) ?_
    have := Json.depthKv_mem hx
    have := hb.depth
    simp only [Json.depth] at this
    omega
  have hiter : ∀ {t j xs}, (t, j) ∈ kvs → jsonIter j = .ok xs → ∀ x ∈ xs, Fine (rs x) := by
    intro t j xs ht hj x hx
    have h1 := jsonIter_mem hj hx
    exact h x ((hval ht).of_sub h1.1 (Nat.le_trans h1.2 (hval ht).depth))
  unfold restoreTags
  refine Fine.ite (fun hd => ?_) (fun _ => ?_)
  · unfold restoreTuple
    refine Fine.bind (Soft.tryCatch (fine_item hd (fun j hj => ?_)) (fun _ => Fine.pure _)) (fun _ => Fine.bind Fine.fresh (fun _ => Fine.pure _))
    cases hx : jsonIter j with
    | error e => exact fun s hs => ⟨.error e, s, rfl, hs, fun e' he' => by cases he'; exact jsonIter_soft j e hx⟩
    | ok xs =>
      intro s hs
      rw [bind_ok (a := xs) (s' := s) rfl]
      exact (Fine.mapM xs (hiter hj hx)).soft s hs
  refine Fine.ite (fun hd => ?_) (fun _ => ?_)
  · unfold restoreSet
    refine Fine.bind (Soft.tryCatch (fine_item hd (fun j hj => ?_)) (fun _ => Fine.pure _)) (fun _ => Fine.bind Fine.fresh (fun _ => Fine.pure _))
    cases hx : jsonIter j with
    | error e => exact fun s hs => ⟨.error e, s, rfl, hs, fun e' he' => by cases he'; exact jsonIter_soft j e hx⟩
    | ok xs =>
      intro s hs
      rw [bind_ok (a := xs) (s' := s) rfl]
      refine Soft.foldM xs (fun b x hxm => ?_) _ s hs
      refine Soft.bind (hiter hj hx x hxm).soft (fun v => Soft.bind Fine.get.soft (fun s => ?_))
      split
      · exact (Fine.pure _).soft
      · exact fun s hs => ⟨.error .typeError, s, rfl, hs, fun e he => by cases he; rfl⟩
  refine Fine.ite (fun hd => ?_) (fun _ => ?_)
  · obtain ⟨j, _, hm⟩ := item_ok hd
    intro s hs
    have : ∃ b, restoreBase64 kvs = .ok b := by
      unfold restoreBase64
      unfold dhas at hd
      cases hg : dget Tags.B64 kvs with
      | none => rw [hg] at hd; cases hd
      | some j => cases j <;> exact ⟨_, rfl⟩
    obtain ⟨b, hb'⟩ := this
    rw [hb']
    exact ⟨_, _, rfl, hs⟩
  refine Fine.ite (fun hd => ?_) (fun _ => ?_)
  · intro s hs
    have : ∃ b, restoreBase85 kvs = .ok b := by
      unfold restoreBase85
      unfold dhas at hd
      cases hg : dget Tags.B85 kvs with
      | none => rw [hg] at hd; cases hd
      | some j => cases j <;> exact ⟨_, rfl⟩
    obtain ⟨b, hb'⟩ := this
    rw [hb']
    exact ⟨_, _, rfl, hs⟩
  rw [if_neg (hno Tags.BYTEARRAY (by decide) (by decide))]
  refine Fine.ite (fun hd => ?_) (fun _ => ?_)
  · unfold restoreId
    obtain ⟨j, hj, hm⟩ := item_ok hd
    rw [hj]
    have hlook : ∀ n, Fine (idLookup n) := by
      intro n
      unfold idLookup
      refine Fine.bind Fine.get (fun s => ?_)
      split
      · exact Fine.pure _
      · exact Fine.bind (Fine.alloc _) (fun _ => Fine.pure _)
    intro s hs
    rw [bind_ok (a := j) (s' := s) rfl]
    cases j with
    | int n => exact hlook n s hs
    | bool b => exact hlook _ s hs
    | _ => exact Fine.pure _ s hs
  refine Fine.ite (fun hd => ?_) (fun _ => ?_)
  · unfold restoreIterator
    refine Fine.bind (Soft.tryCatch (fine_item hd (fun j hj => ?_)) (fun _ => Fine.alloc _)) (fun _ => Fine.bind (Fine.alloc _) (fun _ => Fine.pure _))
    exact soft_restoreList (jsonIter_soft j) (fun xs hx => hiter hj hx)
  rw [if_neg (hno Tags.OBJECT (by decide) (by decide)), if_neg (hno Tags.TYPE (by decide) (by decide)), if_neg (hno Tags.REDUCE (by decide) (by decide)),
    if_neg (hno Tags.FUNCTION (by decide) (by decide)), if_neg (hno Tags.MODULE (by decide) (by decide)), if_neg (hno Tags.REPR (by decide) (by decide))]
  unfold restoreDict
  refine Fine.bind (Fine.alloc _) (fun a => Fine.bind ?_ (fun _ => ?_))
  · unfold mkrefUnlessV1
    split
    · exact Fine.pure _
    · exact Fine.bind (Fine.mkref _) (fun _ => Fine.pure _)
  · split
    · next hk =>
      have hkey : ∀ kv ∈ kvs, isJsonKey kv.1 = false := fun kv hkv => hb.keys hk kv.1 (Json.keysKv_key (List.mem_map.2 ⟨kv, hkv, rfl⟩))
      refine Fine.bind (Fine.mapM _ (fun kv hkv => ?_)) (fun _ => Fine.bind (Fine.mapM _ (fun kv hkv => ?_)) (fun _ => Fine.pure _))
      · unfold dictEntry1
        split
        · exact Fine.pure _
        · exact Fine.bind (h _ (hval hkv)) (fun v => Fine.dictSet _ _ _)
      · unfold dictEntry2
        rw [if_neg (by rw [hkey kv hkv]; simp)]
        exact Fine.pure _
    · refine Fine.bind (Fine.mapM _ (fun kv hkv => ?_)) (fun _ => Fine.pure _)
      unfold dictEntry
      exact Fine.bind (h _ (hval hkv)) (fun v => Fine.bind (Fine.dictSet _ _ _) (fun _ => Fine.noteProxy _ _ (fun _ h => by cases h) _))

theorem fine_restore : ∀ (n : Nat) (j : Json), Below env n j → Fine (restore env (n + 1) j)
  | n, j, hb => by
    show Fine (restoreStep env (restore env n) j)
    unfold restoreStep
    cases j with
    | arr xs =>
      refine Fine.bind (fine_restoreArr (fun x hx => ?_)) (fun _ => Fine.pure _)
      have h1 := Json.depthL_mem hx
      have h2 := hb.depth
      simp only [Json.depth] at h2
      cases n with
      | zero => omega
      | succ n => exact fine_restore n x (hb.of_sub (fun k hk => Json.keysL_mem hx hk) (by omega))
    | obj kvs =>
      cases n with
      | zero => have h2 := hb.depth; simp only [Json.depth] at h2; omega
      | succ n => exact fine_restoreTags hb (fun x hx => fine_restore n x hx)
    | _ => exact Fine.pure _

theorem fine_swapOne {e : Addr × Slot × Addr} (he : ∀ k, e.2.1 ≠ .attr k) : Fine (swapOne e) := by
  intro s hs
  obtain ⟨a, sl, p⟩ := e
  unfold swapOne
  simp only []
  split
  · exact ⟨_, _, rfl, hs⟩
  · exact ⟨_, _, rfl, hs⟩
  · next h => exact absurd rfl (he _)
  · next h => exact absurd rfl (he _)
  · exact ⟨_, _, rfl, hs⟩

theorem fine_restoreTop (n : Nat) (j : Json) (hb : Below env n j) (u : UState) :
    ∃ v u', restoreTop env (n + 1) j true u = some (.ok v, u') := by
  simp only [restoreTop, if_true]
  rw [bind_ok (a := ()) (s' := { u with objs := [], idx := [], proxies := [] }) rfl]
  obtain ⟨v, s1, h1, h2⟩ := fine_restore n j hb { u with objs := [], idx := [], proxies := [] } (fun e he => by cases he)
  rw [bind_ok h1]
  have : ∃ s2, swapProxies s1 = some (.ok (), s2) := by
    unfold swapProxies
    rw [bind_ok (a := s1) (s' := s1) rfl]
    obtain ⟨l, s2, h3, h4⟩ := Fine.mapM (f := swapOne) s1.proxies (fun e he => fine_swapOne (h2 e he)) s1 h2
    exact ⟨_, (bind_ok h3).trans rfl⟩
  obtain ⟨s2, h3⟩ := this
  exact ⟨v, s2, (bind_ok h3).trans rfl⟩

end
end JP.Unpickler
