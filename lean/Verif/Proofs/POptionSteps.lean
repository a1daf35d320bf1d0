import Verif.Proofs.POptions
/-!
# One step of the encoder under two sets of options
-/
namespace JP.Pickler.POptions
open JP PyM JP.Pickler JP.Options

variable {w : World} {root : Val}

/-! ## `keys` -/

theorem foldM_same {α β : Type} {f g : β → α → P β} : ∀ (xs : List α) (b : β), (∀ x ∈ xs, ∀ b, f b x = g b x) → PyM.foldM f b xs = PyM.foldM g b xs
  | [], _, _ => rfl
  | x :: xs, b, h => by
    rw [foldM_cons, foldM_cons, h x (.head _)]
    exact congrArg _ (funext fun b => foldM_same xs b (fun y hy => h y (.tail _ hy)))

theorem foldM_id {α β : Type} {f : β → α → P β} : ∀ (xs : List α) (b : β), (∀ x ∈ xs, ∀ b, f b x = pure b) → PyM.foldM f b xs = pure b
  | [], _, _ => rfl
  | x :: xs, b, h => by
    rw [foldM_cons, h x (.head _)]
    exact foldM_id xs b (fun y hy => h y (.tail _ hy))

theorem entries_keys (c : PCfg) (fl : Val → P Json) (kvs : List (Val × Val)) (ex : List Str) (data : List (Str × Json))
    (h : ∀ kv ∈ kvs, Ordinary kv.1) :
    flattenEntries w { c with keys := true } fl kvs ex data = flattenEntries w { c with keys := false } fl kvs ex data := by
  have hm : ∀ kv ∈ itemsExcl ex kvs, Ordinary kv.1 := fun kv hkv => h kv (List.mem_filter.1 hkv).1
  unfold flattenEntries
  simp only [if_true, Bool.false_eq_true, if_false]
  have h1 : PyM.foldM (fun d (kv : Val × Val) => flattenString w { c with keys := true } fl kv.1 kv.2 d) data (itemsExcl ex kvs) =
      PyM.foldM (fun d (kv : Val × Val) => flattenKeyValuePair w fl kv.1 kv.2 d) data (itemsExcl ex kvs) := by
    refine foldM_same _ _ (fun kv hkv d => ?_)
    obtain ⟨s, hs, h1, h2⟩ := hm kv hkv
    rw [hs]
    unfold flattenString flattenStringTail flattenKeyValuePair needsEscape
    simp only [h1, h2, Bool.or_self, Bool.false_and, Bool.false_eq_true, if_false, if_true]
    split <;> rfl
  rw [h1]
  have h2 : ∀ d, PyM.foldM (fun d (kv : Val × Val) => flattenNonString w { c with keys := true } fl kv.1 kv.2 d) d (itemsExcl ex kvs) =
      pure d := by
    intro d
    refine foldM_id _ _ (fun kv hkv d => ?_)
    obtain ⟨s, hs, _⟩ := hm kv hkv
    rw [hs]
    unfold flattenNonString
    split <;> rfl
  simp only [h2]
  exact Logic.bind_pure_self _

theorem ordinary_exemplar : Ordinary (.str p!"exemplar") := ⟨_, rfl, rfl, rfl⟩

/-- the keys that `flattenInst` meets directly -/
structure InstKeys (w : World) (i : Inst) : Prop where
  items : ∀ kv ∈ i.items, Ordinary kv.1
  dict : ∀ kv ∈ dictItems w i, Ordinary kv.1
  state : ∀ d kvs, i.state = .ok (.ref d) → w.heap[d]? = some (.dict kvs) → ∀ kv ∈ kvs, Ordinary kv.1

variable {c : PCfg} {fl : Val → P Json}

theorem clone_keys (x : Val) : flattenClone w { c with keys := true } fl x = flattenClone w { c with keys := false } fl x := by
  unfold flattenClone
  have h : ∀ kv ∈ [((.str p!"exemplar" : Val), x)], Ordinary kv.1 := by
    intro kv hkv
    obtain rfl := List.mem_singleton.1 hkv
    exact ordinary_exemplar
  simp only [entries_keys c fl _ _ _ h]

theorem default_keys (f : Option Val) (x : Except Exc Val) (data : List (Str × Json)) :
    flattenDefault w { c with keys := true } fl f x data = flattenDefault w { c with keys := false } fl f x data := by
  unfold flattenDefault flattenFactory
  simp only [clone_keys]
  rfl

theorem ownDict_keys {i : Inst} (h : InstKeys w i) (a : Addr) (data : List (Str × Json)) :
    flattenOwnDict w { c with keys := true } fl a i i.exclude data = flattenOwnDict w { c with keys := false } fl a i i.exclude data := by
  unfold flattenOwnDict
  simp only [entries_keys c fl _ _ _ h.dict]
  rfl

theorem dictSub_keys {i : Inst} (h : InstKeys w i) (a : Addr) (data : List (Str × Json)) :
    flattenDictSub w { c with keys := true } fl a i data = flattenDictSub w { c with keys := false } fl a i data := by
  unfold flattenDictSub
  simp only [entries_keys c fl _ _ _ h.items, default_keys, ownDict_keys h]

theorem seq_keys {i : Inst} (h : InstKeys w i) (data : List (Str × Json)) :
    flattenSequence w { c with keys := true } fl i data = flattenSequence w { c with keys := false } fl i data := by
  unfold flattenSequence flattenSeqAttrs
  simp only [entries_keys c fl _ _ _ h.dict]

theorem rest_keys {i : Inst} (h : InstKeys w i) (a : Addr) (data : List (Str × Json)) :
    flattenRest w { c with keys := true } fl a i data = flattenRest w { c with keys := false } fl a i data := by
  unfold flattenRest
  simp only [entries_keys c fl _ _ _ h.dict, seq_keys h, dictSub_keys h]
  rfl

theorem filtered_keys {kvs : List (Val × Val)} (h : ∀ kv ∈ kvs, Ordinary kv.1) (a : Addr) (ex : List Str) :
    flattenFilteredState w { c with keys := true } fl a kvs ex = flattenFilteredState w { c with keys := false } fl a kvs ex := by
  unfold flattenFilteredState
  simp only [entries_keys c fl _ _ _ (fun kv hkv => h kv (List.mem_filter.1 hkv).1 : ∀ kv ∈ itemsExcl ex kvs, Ordinary kv.1)]
  rfl

theorem getstate_keys {i : Inst} (h : InstKeys w i) (a : Addr) (data : List (Str × Json)) :
    flattenGetstate w { c with keys := true } fl a i data = flattenGetstate w { c with keys := false } fl a i data := by
  unfold flattenGetstate
  simp only [rest_keys h]
  split
  · cases hst : i.state with
    | error e => rfl
    | ok st =>
      simp only
      split
      · next kvs hk =>
        have hks : ∀ kv ∈ kvs, Ordinary kv.1 := by
          split at hk
          · next d =>
            split at hk
            · next kvs' hd =>
              split at hk
              · cases hk
              · cases hk; exact h.state d _ hst hd
            · cases hk
          · cases hk
        split
        · rfl
        · simp only [filtered_keys hks]
          rfl
      · rfl
  · rfl

theorem inst_keys {i : Inst} (h : InstKeys w i) (a : Addr) :
    flattenInst w { c with keys := true } fl a i = flattenInst w { c with keys := false } fl a i := by
  unfold flattenInst flattenReduce flattenBody
  simp only [getstate_keys h]
  rfl

theorem instKeys_of (h : ∀ x, From w root x → ∀ k, KeyOf w.heap x k → Ordinary k) {a : Addr} {i : Inst} (hv : From w root (.ref a))
    (ha : w.heap[a]? = some (.inst i)) : InstKeys w i where
  items kv hkv := h _ hv _ (.item ha hkv)
  dict kv hkv := by
    unfold dictItems at hkv
    split at hkv
    · obtain ⟨x, hx, rfl⟩ := List.mem_map.1 hkv
      exact h _ hv _ (.attr ha hx)
    · next d hd =>
      split at hkv
      · next kvs hk => exact h _ hv _ (.own ha hd hk hkv)
      · cases hkv
  state d kvs hs hd kv hkv :=
    h (.ref d) ((Scope.ofRoot w root).touch hv (.inst ha (.state hs))) _ (.entry hd hkv)

theorem step_keys (c : PCfg) (h : ∀ x, From w root x → ∀ k, KeyOf w.heap x k → Ordinary k) (fl : Val → P Json) (v : Val)
    (hv : From w root v) : flattenStep w { c with keys := true } fl v = flattenStep w { c with keys := false } fl v := by
  have hby : flattenBy w { c with keys := true } fl v = flattenBy w { c with keys := false } fl v := by
    unfold flattenBy
    cases v with
    | ref a =>
      simp only
      cases ha : w.heap[a]? with
      | none => rfl
      | some o =>
        cases o with
        | dict kvs =>
          simp only [entries_keys c fl kvs [] [] (fun kv hkv => h _ hv _ (.entry ha hkv))]
          rfl
        | inst i =>
          simp only [inst_keys (instKeys_of h hv ha)]
          rfl
        | _ => rfl
    | _ => rfl
  unfold flattenStep flattenImpl flattenObj
  cases v <;> first | rfl | (simp only [hby]; rfl)

/-! ## `use_base85` -/

theorem step_base85 (c : PCfg) (h : ∀ x, From w root x → (∀ i b, x ≠ .bytes i b) ∧ ∀ i b, x ≠ .bytearray i b) (fl : Val → P Json) (v : Val)
    (hv : From w root v) : flattenStep w { c with useBase85 := true } fl v = flattenStep w { c with useBase85 := false } fl v := by
  cases v with
  | bytes i b => exact ((h _ hv).1 _ _ rfl).elim
  | bytearray i b => exact ((h _ hv).2 _ _ rfl).elim
  | _ => rfl

/-! ## `max_iter` -/

/-- an iterator that ends before the limit, or at the limit without an error -/
def Short (n : Nat) (i : Inst) : Prop := i.elems.length < n ∨ (i.elems.length = n ∧ i.errs.iter = none)

theorem iterated_short {n : Nat} {i : Inst} (h : Short n i) (c : PCfg) :
    iterated { c with maxIter := some n } i = iterated { c with maxIter := none } i := by
  unfold iterated
  simp only
  exact List.take_of_length_le (by rcases h with h | h <;> omega)

theorem iterErr_short {n : Nat} {i : Inst} (h : Short n i) (c : PCfg) :
    iterErr { c with maxIter := some n } i = iterErr { c with maxIter := none } i := by
  unfold iterErr
  simp only
  rcases h with h | ⟨h, h'⟩
  · rw [if_neg (by omega)]
  · rw [h', ite_self]

theorem rest_iter {n : Nat} {i : Inst} (h : i.info.isIterator = true → Short n i) (a : Addr) (data : List (Str × Json)) :
    flattenRest w { c with maxIter := some n } fl a i data = flattenRest w { c with maxIter := none } fl a i data := by
  unfold flattenRest
  cases hi : i.info.isIterator with
  | false => rfl
  | true =>
    simp only [iterated_short (h hi), iterErr_short (h hi)]
    rfl

theorem inst_iter {n : Nat} {i : Inst} (h : i.info.isIterator = true → Short n i) (a : Addr) :
    flattenInst w { c with maxIter := some n } fl a i = flattenInst w { c with maxIter := none } fl a i := by
  unfold flattenInst flattenReduce flattenBody flattenGetstate
  simp only [rest_iter h]
  rfl

theorem step_iter (c : PCfg) (n : Nat)
    (h : ∀ a i, From w root (.ref a) → w.heap[a]? = some (.inst i) → i.info.isIterator = true → Short n i) (fl : Val → P Json) (v : Val)
    (hv : From w root v) : flattenStep w { c with maxIter := some n } fl v = flattenStep w { c with maxIter := none } fl v := by
  have hby : flattenBy w { c with maxIter := some n } fl v = flattenBy w { c with maxIter := none } fl v := by
    unfold flattenBy
    cases v with
    | ref a =>
      simp only
      cases ha : w.heap[a]? with
      | none => rfl
      | some o =>
        cases o with
        | inst i =>
          simp only [inst_iter (h a i hv ha)]
          rfl
        | _ => rfl
    | _ => rfl
  unfold flattenStep flattenImpl flattenObj
  cases v <;> first | rfl | (simp only [hby]; rfl)

/-! ## `fail_safe` -/

variable (f : Option (Exc → Except Exc Json))

theorem filtered_safe (a : Addr) (kvs : List (Val × Val)) (ex : List Str) :
    Ref (flattenFilteredState w { c with failSafe := none } fl a kvs ex) (flattenFilteredState w { c with failSafe := f } fl a kvs ex)
      (fun _ => True) := by
  unfold flattenFilteredState
  refine Ref.cached rfl rfl (Ref.bind (Q := fun _ => True) Ref.refl (fun _ _ => ?_))
  exact Ref.bind (Ref.obj rfl rfl rfl (Ref.ofEq rfl)) (fun j _ => Ref.refl)

theorem getstate_safe (a : Addr) (i : Inst) (data : List (Str × Json)) :
    Ref (flattenGetstate w { c with failSafe := none } fl a i data) (flattenGetstate w { c with failSafe := f } fl a i data)
      (fun _ => True) := by
  unfold flattenGetstate
  split
  · cases i.state with
    | error e => exact Ref.ofEq rfl
    | ok st =>
      simp only
      split
      · split
        · exact Ref.ofEq rfl
        · exact Ref.bind (filtered_safe f a _ _) (fun j _ => Ref.ofEq rfl)
      · exact Ref.ofEq rfl
  · exact Ref.ofEq rfl

theorem body_safe (a : Addr) (i : Inst) :
    Ref (flattenBody w { c with failSafe := none } fl a i) (flattenBody w { c with failSafe := f } fl a i) (fun _ => True) := by
  unfold flattenBody
  refine Ref.bind (Q := fun _ => True) (Ref.ofEq rfl) (fun d _ => ?_)
  refine Ref.bind (Q := fun _ => True) (Ref.ofEq rfl) (fun d _ => ?_)
  exact getstate_safe f a i d

theorem reduce_safe (a : Addr) (i : Inst) (hs : ∀ v, i.info.reduces = true → i.reduce ≠ .str (some v)) :
    Ref (flattenReduce w { c with failSafe := none } fl a i) (flattenReduce w { c with failSafe := f } fl a i) (fun _ => True) := by
  unfold flattenReduce
  simp only
  cases hr : (if (c.unpicklable && i.info.reduces) = true then i.reduce else ReduceVal.nothing) with
  | nothing => exact body_safe f a i
  | raise e =>
    simp only
    split
    · exact body_safe f a i
    · exact Ref.refl
  | str o =>
    cases o with
    | none => exact body_safe f a i
    | some v =>
      exfalso
      split at hr
      · next h => exact hs v (by simp at h; exact h.2) hr
      · cases hr
  | tup xs =>
    simp only
    split
    · exact body_safe f a i
    · split
      · exact Ref.refl
      · exact body_safe f a i

theorem inst_safe (a : Addr) (i : Inst) (hs : ∀ v, i.info.reduces = true → i.reduce ≠ .str (some v)) :
    Ref (flattenInst w { c with failSafe := none } fl a i) (flattenInst w { c with failSafe := f } fl a i) (fun _ => True) := by
  unfold flattenInst
  cases w.handler i.cls with
  | none => exact reduce_safe f a i hs
  | some k => cases k <;> exact Ref.ofEq rfl

theorem refObj_safe {id : Ident} {e : Bool} {x x' : P Json} (hx : Ref x x' (fun _ => True)) :
    Ref (refObjInstance { c with failSafe := none } id e x) (refObjInstance { c with failSafe := f } id e x') (fun _ => True) := by
  unfold refObjInstance
  split
  · refine Ref.bind (Q := fun _ => True) (Ref.ofEq rfl) (fun b _ => ?_)
    split
    · exact hx
    · exact Ref.refl
  · refine Ref.bind (Q := fun _ => True) (Ref.ofEq rfl) (fun b _ => ?_)
    refine Ref.bind (Q := fun _ => True) Ref.refl (fun b _ => ?_)
    split
    · exact Ref.refl
    · exact Ref.bind (Q := fun _ => True) (Ref.ofEq rfl) (fun _ _ => hx)

theorem by_safe (hc : ¬ Catches w (From w root)) {v : Val} (hv : From w root v) :
    Ref (flattenBy w { c with failSafe := none } fl v) (flattenBy w { c with failSafe := f } fl v) (fun _ => True) := by
  unfold flattenBy
  cases v with
  | ref a =>
    simp only
    cases ha : w.heap[a]? with
    | none => exact Ref.ofEq rfl
    | some o =>
      cases o with
      | inst i => exact refObj_safe f (inst_safe f a i (fun v hr hv' => hc ⟨a, i, hv, ha, .inr ⟨hr, v, hv'⟩⟩))
      | _ => exact Ref.ofEq rfl
  | _ => exact Ref.ofEq rfl

theorem flatten_safe (hc : ¬ Catches w (From w root)) :
    ∀ (n : Nat) (v : Val), From w root v → Ref (flatten w { c with failSafe := none } n v) (flatten w { c with failSafe := f } n v) (fun _ => True)
  | 0, _, _ => fun _ _ _ h => by cases h
  | n + 1, v, hv => by
    intro s a s' h
    have h1 := ((refines w { c with failSafe := none } rfl (From w root) hc (.inr (.inl rfl)) (.inr (.inr rfl))).step (d := ⟨0, []⟩)
      (fl' := flatten w { c with failSafe := f } n)
      (fun _ x hx => flatten_safe hc n x hx) hv (fun _ hx => (Scope.ofRoot w root).touch hv hx)) s a s' h
    have h2 : Ref (flattenStep w { c with failSafe := none } (flatten w { c with failSafe := f } n) v)
        (flattenStep w { c with failSafe := f } (flatten w { c with failSafe := f } n) v) (fun _ => True) := by
      cases v with
      | none => exact Ref.ofEq rfl
      | bool _ => exact Ref.ofEq rfl
      | int _ => exact Ref.ofEq rfl
      | float _ => exact Ref.ofEq rfl
      | str _ => exact Ref.ofEq rfl
      | bytes _ _ => exact Ref.ofEq rfl
      | bytearray _ _ => exact Ref.ofEq rfl
      | _ => exact Ref.level rfl rfl rfl rfl (by_safe f hc hv)
    exact h2 s a s' h1.1

end JP.Pickler.POptions
