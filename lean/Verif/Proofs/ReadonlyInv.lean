import Verif.Readonly
/-!
# Invariants of the heap while encoding

`Keeps I m`: the computation `m` preserves the property `I` of the heap.  `keeps_flatten` reduces this to the three
places that write to the heap.
-/
namespace JP.Readonly
open JP PyM

/-- the computation preserves the property `I` of the heap -/
def Keeps {α : Type} (I : Heap → Prop) (m : R α) : Prop :=
  ∀ s r s', I s.heap → m s = some (r, s') → I s'.heap

/-- `k: v` is something that `encode` writes for the object in cell `b`: an entry of a dict, an attribute (for slots: under the name in `__slots__`), an item of a dict
subclass, what `dir` shows, or what a default factory makes -/
inductive Pair (h : Heap) (b : Addr) (k : Str) (v : Val) : Prop
  | entry (kvs : List (Val × Val)) : h[b]? = some (.dict kvs) → (Val.str k, v) ∈ kvs → Pair h b k v
  | attr (i : Inst) : h[b]? = some (.inst i) → (k, v) ∈ i.attrs → Pair h b k v
  | slot (i : Inst) : h[b]? = some (.inst i) → (mangle i k, v) ∈ i.attrs → Pair h b k v
  | item (i : Inst) : h[b]? = some (.inst i) → (Val.str k, v) ∈ i.items → Pair h b k v
  | dir (i : Inst) : h[b]? = some (.inst i) → (mangle i k, v) ∈ i.dirAttrs → Pair h b k v
  | exemplar (i : Inst) : h[b]? = some (.inst i) → k = p!"exemplar" → v = i.exemplar → i.factory.isSome = true → Pair h b k v

/-- Assignments to the root keep `I`. -/
def SetOk (cfg : RCfg) (I : Heap → Prop) : Prop :=
  cfg.handleReadonly = true → ∀ h h1 a i b k v, I h → I h1 → cfg.root = .ref a → h[a]? = some (.inst i) → cfg.stores i.cls k = true →
    k ∈ memberNames cfg h cfg.root → Pair h1 b k v → I (h.set a (.inst { i with attrs := dset k v i.attrs }))

/-- Advancing an iterator keeps `I`. -/
def IterOk (I : Heap → Prop) : Prop :=
  ∀ h h1 a i j x xs, I h → I h1 → h1[a]? = some (.inst j) → j.info.isIterator = true → h[a]? = some (.inst i) → i.elems = x :: xs →
    I (h.set a (.inst { i with elems := xs }))

/-- In all heaps with `I` an object has the same class. -/
def ClassOk (I : Heap → Prop) : Prop := ∀ h h1 (a : Nat) i i1, I h → I h1 → h[a]? = some (.inst i) → h1[a]? = some (.inst i1) → i1.info = i.info

/-- the object in cell `a` is a key of a dict -/
inductive Key (h : Heap) (a : Addr) : Prop
  | entry (b : Nat) (kvs : List (Val × Val)) (v : Val) : h[b]? = some (.dict kvs) → (Val.ref a, v) ∈ kvs → Key h a
  | item (b : Nat) (i : Inst) (v : Val) : h[b]? = some (.inst i) → (Val.ref a, v) ∈ i.items → Key h a

/-- Sorting the attributes of a key keeps `I`. -/
def SortOk (cfg : RCfg) (I : Heap → Prop) : Prop :=
  cfg.sortKeys = true → cfg.opts.keys = true → ∀ h h1 a i, I h → I h1 → Key h1 a → h[a]? = some (.inst i) → I (h.set a (.inst { i with attrs := sorted i.attrs }))

/-- what is written for an entry of a dict, and its key, are in the heap -/
def EntryOk (I : Heap → Prop) (k v : Val) : Prop := (∀ n, k = .str n → ∃ h1 b, I h1 ∧ Pair h1 b n v) ∧ (∀ a, k = .ref a → ∃ h1, I h1 ∧ Key h1 a)

/-- … which for a name is the first condition -/
theorem EntryOk.name {I : Heap → Prop} {k : Str} {v : Val} (h : ∃ h1 b, I h1 ∧ Pair h1 b k v) : EntryOk I (.str k) v :=
  ⟨fun n hn => by injection hn with hn; subst hn; exact h, fun a ha => by cases ha⟩

theorem EntryOk.entry {I : Heap → Prop} {h : Heap} {b : Nat} {kvs : List (Val × Val)} {kv : Val × Val} (hI : I h) (hb : h[b]? = some (.dict kvs)) (hkv : kv ∈ kvs) :
    EntryOk I kv.1 kv.2 :=
  ⟨fun n hn => ⟨h, b, hI, .entry kvs hb (by rw [← hn]; exact hkv)⟩, fun a ha => ⟨h, hI, .entry b kvs kv.2 hb (by rw [← ha]; exact hkv)⟩⟩

theorem EntryOk.item {I : Heap → Prop} {h : Heap} {b : Nat} {i : Inst} {kv : Val × Val} (hI : I h) (hb : h[b]? = some (.inst i)) (hkv : kv ∈ i.items) :
    EntryOk I kv.1 kv.2 :=
  ⟨fun n hn => ⟨h, b, hI, .item i hb (by rw [← hn]; exact hkv)⟩, fun a ha => ⟨h, hI, .item b i kv.2 hb (by rw [← ha]; exact hkv)⟩⟩

variable {cfg : RCfg} {fl : Val → R Json} {I : Heap → Prop} {α β : Type}

theorem Keeps.pure {a : α} : Keeps I (Pure.pure a : R α) := by
  intro s r s' hI h; cases h; exact hI

theorem Keeps.throw {e : Exc} : Keeps I (PyM.throw e : R α) := by
  intro s r s' hI h; cases h; exact hI

theorem Keeps.ofExcept {e : Except Exc α} : Keeps I (PyM.ofExcept e : R α) := by
  intro s r s' hI h; cases h; exact hI

theorem Keeps.bind {m : R α} {f : α → R β} (hm : Keeps I m) (hf : ∀ a, Keeps I (f a)) : Keeps I (m >>= f) := by
  intro s r s' hI h
  rw [bind_run] at h
  cases h1 : m s with
  | none => rw [h1] at h; cases h
  | some p =>
    obtain ⟨r1, s1⟩ := p
    have hI1 := hm s r1 s1 hI h1
    rw [h1] at h
    cases r1 with
    | error e => cases h; exact hI1
    | ok a => exact hf a s1 r s' hI1 h

theorem Keeps.mapM (hfl : ∀ v, Keeps I (fl v)) : ∀ xs, Keeps I (PyM.mapM fl xs)
  | [] => Keeps.pure
  | x :: xs => (hfl x).bind (fun _ => (Keeps.mapM hfl xs).bind (fun _ => Keeps.pure))

theorem Keeps.foldM {γ δ : Type} {f : γ → δ → R γ} : ∀ (xs : List δ) (d : γ), (∀ d, ∀ x ∈ xs, Keeps I (f d x)) → Keeps I (PyM.foldM f d xs)
  | [], _, _ => Keeps.pure
  | x :: xs, d, h => (h d x List.mem_cons_self).bind (fun d' => Keeps.foldM xs d' (fun d y hy => h d y (List.mem_cons_of_mem _ hy)))

theorem Keeps.lift {m : P α} : Keeps I (lift m) := by
  intro s r s' hI h
  unfold Readonly.lift at h
  cases hm : m s.base with
  | none => rw [hm] at h; cases h
  | some q => rw [hm] at h; cases h; exact hI

theorem keeps_mkref {i : Ident} : Keeps I (mkref cfg i) := Keeps.lift

theorem keeps_getref {i : Ident} : Keeps I (getref i) := Keeps.lift

theorem keeps_skips (hset : SetOk cfg I) {k v : Val} (hp : ∀ n, k = .str n → ∃ h1 b, I h1 ∧ Pair h1 b n v) : Keeps I (skips cfg k v) := by
  intro s r s' hI h
  unfold skips at h
  cases k with
  | str n =>
    simp only [] at h
    split at h
    · next hc =>
      rw [Bool.and_eq_true, List.contains_eq_mem, decide_eq_true_eq] at hc
      obtain ⟨h1, b, hI1, hpair⟩ := hp n rfl
      unfold isReadonly at h
      cases hr : cfg.root with
      | ref a =>
        rw [hr] at h
        simp only [] at h
        cases hg : s.heap[a]? with
        | none => rw [hg] at h; cases h; exact hI
        | some o =>
          rw [hg] at h
          cases o with
          | inst i =>
            simp only [] at h
            split at h
            · next hs =>
              cases h
              exact hset hc.1 _ h1 a i b n v hI hI1 hr hg hs hc.2 hpair
            · cases h; exact hI
          | _ => cases h; exact hI
      | _ => rw [hr] at h; cases h; exact hI
    · cases h; exact hI
  | _ => cases h; exact hI

theorem keeps_pair (hset : SetOk cfg I) (hfl : ∀ v, Keeps I (fl v)) {k v : Val} {d : List (Str × Json)}
    (hp : ∀ n, k = .str n → ∃ h1 b, I h1 ∧ Pair h1 b n v) : Keeps I (keyValuePair cfg fl k v d) := by
  unfold keyValuePair
  split
  · refine (keeps_skips hset hp).bind (fun b => ?_)
    cases b
    · exact Keeps.ofExcept.bind (fun _ => (hfl v).bind (fun _ => Keeps.pure))
    · exact Keeps.pure
  · exact Keeps.pure

theorem attrsNow_run {a : Addr} {s : RState} {r s'} (h : attrsNow a s = some (r, s')) :
    s' = s ∧ ∃ now, r = .ok now ∧ ((∃ i, s.heap[a]? = some (.inst i) ∧ now = i.attrs) ∨ now = []) := by
  unfold attrsNow at h
  split at h
  · next i hi => cases h; exact ⟨rfl, _, rfl, Or.inl ⟨i, hi, rfl⟩⟩
  · cases h; exact ⟨rfl, _, rfl, Or.inr rfl⟩

theorem Keeps.withHeap {f : Heap → R α} (hf : ∀ h, I h → Keeps I (f h)) : Keeps I (withHeap f) :=
  fun s r s' hI h => hf s.heap hI s r s' hI h

theorem Keeps.tryCatch {m : R α} {p : Exc → Bool} {f : Exc → R α} (hm : Keeps I m) (hf : ∀ e, Keeps I (f e)) : Keeps I (PyM.tryCatch m p f) := by
  intro s r s' hI h
  unfold PyM.tryCatch at h
  cases h1 : m s with
  | none => rw [h1] at h; cases h
  | some q =>
    obtain ⟨r1, s1⟩ := q
    have hI1 := hm s r1 s1 hI h1
    rw [h1] at h
    cases r1 with
    | ok a => cases h; exact hI1
    | error e =>
      simp only [] at h
      split at h
      · exact hf e s1 r s' hI1 h
      · cases h; exact hI1

theorem keeps_once {id : Ident} {body : R Json} (hb : Keeps I body) : Keeps I (once cfg id body) := by
  refine keeps_mkref.bind (fun new => ?_)
  cases new
  · exact keeps_getref
  · exact hb

theorem keeps_cached {id : Ident} {x : R Json} (hx : Keeps I x) : Keeps I (cached cfg id x) := by
  unfold cached
  split
  · exact hx
  · refine Keeps.lift.bind (fun s => ?_)
    split
    · exact Keeps.pure
    · exact hx.bind (fun _ => Keeps.lift.bind (fun _ => Keeps.pure))

theorem keeps_nested {x : R Json} (hx : Keeps I x) : Keeps I (nested x) :=
  Keeps.lift.bind (fun _ => hx.bind (fun _ => Keeps.lift))

theorem keeps_objWith {v : Val} {id : Ident} {en : Bool} {rep : Except Exc Str} {x : R Json} (hx : Keeps I x) : Keeps I (flattenObjWith cfg v id en rep x) := by
  refine Keeps.lift.bind (fun _ => Keeps.lift.bind (fun _ => Keeps.tryCatch (Keeps.lift.bind (fun b => ?_)) (fun e => ?_)))
  · cases b
    · exact hx
    · exact Keeps.ofExcept.bind (fun _ => Keeps.pure)
  · cases cfg.opts.failSafe with
    | none => exact Keeps.throw
    | some f => exact Keeps.ofExcept

theorem keeps_refObj {id : Ident} {en : Bool} {x : R Json} (hx : Keeps I x) : Keeps I (refObjInstance cfg id en x) := by
  unfold refObjInstance
  split
  · exact keeps_once hx
  · refine Keeps.lift.bind (fun _ => Keeps.lift.bind (fun b => ?_))
    cases b
    · exact keeps_mkref.bind (fun _ => hx)
    · exact Keeps.pure

theorem keeps_sortFirst (hso : SortOk cfg I) (hk : cfg.opts.keys = true) {k : Val} (hp : ∀ a, k = .ref a → ∃ h1, I h1 ∧ Key h1 a) : Keeps I (sortFirst cfg k) := by
  unfold sortFirst
  split
  · next hs =>
    intro s r s' hI h
    unfold sortAttrs at h
    cases k with
    | ref a =>
      simp only [] at h
      cases hg : s.heap[a]? with
      | none => rw [hg] at h; cases h; exact hI
      | some o =>
        rw [hg] at h
        cases o with
        | inst i =>
          simp only [] at h
          split at h
          · cases h; exact hI
          · split at h
            · cases h
              obtain ⟨h1, hI1, hk1⟩ := hp a rfl
              exact hso hs hk _ h1 a i hI hI1 hk1 hg
            · cases h; exact hI
        | _ => cases h; exact hI
    | _ => cases h; exact hI
  · exact Keeps.pure

theorem keeps_escape (hso : SortOk cfg I) (hk : cfg.opts.keys = true) (hfl : ∀ v, Keeps I (fl v)) {k : Val} (hp : ∀ a, k = .ref a → ∃ h1, I h1 ∧ Key h1 a) :
    Keeps I (escapeKey cfg fl k) :=
  (keeps_sortFirst hso hk hp).bind (fun _ => (hfl k).bind (fun _ => Keeps.pure))

theorem keeps_nonString (hso : SortOk cfg I) (hk : cfg.opts.keys = true) (hfl : ∀ v, Keeps I (fl v)) {k v : Val} {d : List (Str × Json)}
    (hp : ∀ a, k = .ref a → ∃ h1, I h1 ∧ Key h1 a) : Keeps I (nonStringPair cfg fl k v d) := by
  unfold nonStringPair
  split
  · split
    · exact Keeps.pure
    · exact (keeps_escape hso hk hfl hp).bind (fun _ => (hfl v).bind (fun _ => Keeps.pure))
  · exact Keeps.pure

theorem keeps_string (hso : SortOk cfg I) (hk : cfg.opts.keys = true) (hfl : ∀ v, Keeps I (fl v)) {k v : Val} {d : List (Str × Json)} :
    Keeps I (stringPair cfg fl k v d) := by
  unfold stringPair
  split
  · split
    · exact (hfl v).bind (fun _ => (keeps_escape hso hk hfl (fun a ha => by cases ha)).bind (fun _ => Keeps.pure))
    · split
      · exact (hfl v).bind (fun _ => Keeps.pure)
      · exact Keeps.pure
  · exact Keeps.pure

theorem keeps_first (hset : SetOk cfg I) (hso : SortOk cfg I) (hfl : ∀ v, Keeps I (fl v)) {k v : Val} {d : List (Str × Json)}
    (hp : ∀ n, k = .str n → ∃ h1 b, I h1 ∧ Pair h1 b n v) : Keeps I (firstPair cfg fl k v d) := by
  unfold firstPair
  split
  · next hk => exact keeps_string hso hk hfl
  · exact keeps_pair hset hfl hp

theorem keeps_attrsNow {a : Addr} : Keeps I (attrsNow a) := by
  intro s r s' hI h
  obtain ⟨rfl, _⟩ := attrsNow_run h
  exact hI

theorem keeps_attrLoop (hset : SetOk cfg I) (hso : SortOk cfg I) (hfl : ∀ v, Keeps I (fl v)) {a : Addr} {excl : List Str} {size : Nat} : ∀ (ks : List Str) (d : List (Str × Json)),
    Keeps I (attrLoop cfg fl a excl size ks d)
  | [], d => by
    unfold attrLoop
    refine keeps_attrsNow.bind (fun now => ?_)
    split
    · exact Keeps.pure
    · exact Keeps.throw
  | k :: ks, d => by
    intro s r s' hI h
    unfold attrLoop at h
    rw [bind_run] at h
    cases h1 : attrsNow a s with
    | none => rw [h1] at h; cases h
    | some p =>
      obtain ⟨r1, s1⟩ := p
      obtain ⟨rfl, now, rfl, hnow⟩ := attrsNow_run h1
      rw [h1] at h
      simp only [] at h
      split at h
      · split at h
        · exact keeps_attrLoop hset hso hfl ks d _ _ _ hI h
        · cases hd : dget k now with
          | none => rw [hd] at h; cases h; exact hI
          | some v =>
            rw [hd] at h
            simp only [] at h
            have hp : ∀ n, Val.str k = .str n → ∃ h1 b, I h1 ∧ Pair h1 b n v := by
              intro n hn
              injection hn with hn
              subst hn
              rcases hnow with ⟨i, hi, rfl⟩ | rfl
              · exact ⟨_, a, hI, .attr i hi (dget_mem hd)⟩
              · cases hd
            exact ((keeps_first hset hso hfl hp).bind (fun d' => keeps_attrLoop hset hso hfl ks d')) _ _ _ hI h
      · cases h; exact hI

theorem keeps_ownAttrs (hset : SetOk cfg I) (hso : SortOk cfg I) (hfl : ∀ v, Keeps I (fl v)) {a : Addr} {excl : List Str} {d : List (Str × Json)} :
    Keeps I (ownAttrs cfg fl a excl d) :=
  keeps_attrsNow.bind (fun _ => keeps_attrLoop hset hso hfl _ _)

theorem itemsExcl_mem {excl : List Str} {kvs : List (Val × Val)} {kv : Val × Val} (h : kv ∈ Pickler.itemsExcl excl kvs) : kv ∈ kvs :=
  (List.mem_filter.1 h).1

theorem keeps_entries (hset : SetOk cfg I) (hso : SortOk cfg I) (hfl : ∀ v, Keeps I (fl v)) {kvs : List (Val × Val)} {excl : List Str} {d : List (Str × Json)}
    (hp : ∀ kv ∈ kvs, EntryOk I kv.1 kv.2) : Keeps I (entries cfg fl kvs excl d) := by
  unfold entries
  split
  · next hk =>
    exact (Keeps.foldM _ _ (fun _ _ _ => keeps_string hso hk hfl)).bind (fun _ => Keeps.foldM _ _ (fun _ kv hkv => keeps_nonString hso hk hfl (hp kv (itemsExcl_mem hkv)).2))
  · exact Keeps.foldM _ _ (fun _ kv hkv => keeps_pair hset hfl (hp kv (itemsExcl_mem hkv)).1)

theorem keeps_iterLoop (hit : IterOk I) (hfl : ∀ v, Keeps I (fl v)) {a : Addr}
    (ha : ∃ h1 j, I h1 ∧ h1[a]? = some (.inst j) ∧ j.info.isIterator = true) : ∀ n, Keeps I (iterLoop fl a n)
  | 0 => Keeps.pure
  | n + 1 => by
    unfold iterLoop
    refine Keeps.bind ?_ (fun x => ?_)
    · intro s r s' hI h
      unfold advance at h
      split at h
      · next i hi =>
        split at h
        · next x xs hx =>
          cases h
          obtain ⟨h1, j, hI1, hj, hji⟩ := ha
          exact hit _ h1 a i j x xs hI hI1 hj hji hi hx
        · cases h; exact hI
      · cases h; exact hI
    · cases x with
      | none => exact Keeps.pure
      | some x => exact (hfl x).bind (fun _ => (keeps_iterLoop hit hfl ha n).bind (fun _ => Keeps.pure))

section
variable (hset : SetOk cfg I) (hso : SortOk cfg I) (hfl : ∀ v, Keeps I (fl v)) {a : Addr} {i : Inst} (hi : ∃ h1, I h1 ∧ h1[a]? = some (.inst i))
include hset hso hfl hi

theorem keeps_default {d : List (Str × Json)} : Keeps I (flattenDefault cfg fl i d) := by
  unfold flattenDefault
  split
  · exact Keeps.pure
  · next f hf =>
    refine Keeps.bind ?_ (fun _ => Keeps.pure)
    unfold flattenFactory
    split
    · exact Keeps.pure
    · refine keeps_mkref.bind (fun new => ?_)
      cases new
      · exact keeps_getref
      · intro s r s' hI h
        simp only [if_true] at h
        unfold outcome at h
        cases he : i.errs.factory with
        | some e => rw [he] at h; cases h; exact hI
        | none =>
          rw [he] at h
          refine (Keeps.bind (keeps_entries (kvs := [(.str p!"exemplar", i.exemplar)]) hset hso hfl ?_) (fun _ => Keeps.pure)) s r s' hI h
          intro kv hkv
          rw [List.mem_singleton] at hkv
          subst hkv
          obtain ⟨h1, hI1, hi⟩ := hi
          exact .name ⟨h1, a, hI1, .exemplar i hi rfl rfl (by rw [hf]; rfl)⟩

theorem keeps_rest {d : List (Str × Json)} (hit : IterOk I) (hc : ClassOk I) : Keeps I (flattenRest cfg fl a i d) := by
  obtain ⟨h1, hI1, hi1⟩ := hi
  have hseq : Keeps I (flattenSequence cfg fl a i d) := by
    unfold flattenSequence
    dsimp only
    have hend : ∀ (d : List (Str × Json)) (js : List Json), Keeps I (if cfg.opts.unpicklable then pure (.obj (dset Tags.SEQ (.arr js) d)) else pure (.arr js) : R Json) := by
      intro d js
      split <;> exact Keeps.pure
    split
    · exact (keeps_ownAttrs hset hso hfl).bind (fun _ => (Keeps.mapM hfl _).bind (fun _ => hend _ _))
    · exact Keeps.pure.bind (fun _ => (Keeps.mapM hfl _).bind (fun _ => hend _ _))
  unfold flattenRest
  split
  · refine (keeps_entries hset hso hfl ?_).bind (fun _ => (keeps_default hset hso hfl ⟨h1, hI1, hi1⟩).bind (fun _ => Keeps.bind ?_ (fun _ => Keeps.pure)))
    · exact fun kv hkv => .item hI1 hi1 hkv
    · unfold flattenOwnDict
      split
      · refine keeps_mkref.bind (fun new => ?_)
        cases new
        · exact keeps_getref.bind (fun _ => Keeps.pure)
        · exact (keeps_ownAttrs hset hso hfl).bind (fun _ => Keeps.pure)
      · exact Keeps.pure
  · exact hseq
  · exact hseq
  · exact hseq
  · split
    · next hiter => exact (keeps_iterLoop hit hfl ⟨h1, i, hI1, hi1, hiter⟩ _).bind (fun _ => Keeps.ofExcept.bind (fun _ => Keeps.pure))
    · split
      · exact (keeps_ownAttrs hset hso hfl).bind (fun _ => Keeps.pure)
      · split
        · have hobj : ∀ (lookup : R (List (Str × Val))) names d,
              (∀ s r s', I s.heap → lookup s = some (r, s') → s' = s ∧ ∀ now, r = .ok now → ∀ k v, dget (mangle i k) now = some v → ∃ h1 b, I h1 ∧ Pair h1 b k v) →
              Keeps I (objAttrs cfg fl i lookup names d) := by
            intro lookup names d hl
            refine Keeps.foldM _ _ (fun acc k _ => ?_)
            unfold objAttr
            split
            · exact Keeps.pure
            · refine Keeps.tryCatch ?_ (fun _ => Keeps.pure)
              intro s r s' hI h
              rw [bind_run] at h
              cases hn : lookup s with
              | none => rw [hn] at h; cases h
              | some q =>
                obtain ⟨r1, s1⟩ := q
                obtain ⟨rfl, hq⟩ := hl s r1 s1 hI hn
                rw [hn] at h
                cases r1 with
                | error e => cases h; exact hI
                | ok now =>
                  simp only [] at h
                  cases hd : dget (mangle i k) now with
                  | none => rw [hd] at h; cases h; exact hI
                  | some v =>
                    rw [hd] at h
                    refine ((keeps_pair (d := acc.2) hset hfl (k := .str k) (v := v) ?_).bind (f := fun d => (pure (true, d) : R (Bool × List (Str × Json)))) (fun _ => Keeps.pure)) s1 r s' hI h
                    intro n hn
                    injection hn with hn
                    subst hn
                    exact hq now rfl k v hd
          unfold flattenSlots
          refine (hobj _ _ _ ?_).bind (fun r => ?_)
          · intro s r s' hI h
            obtain ⟨rfl, now, rfl, hnow⟩ := attrsNow_run h
            refine ⟨rfl, fun now' e k v hd => ?_⟩
            cases e
            rcases hnow with ⟨i', hi', rfl⟩ | rfl
            · refine ⟨s'.heap, a, hI, .slot i' hi' ?_⟩
              have : mangle i' k = mangle i k := by unfold mangle; rw [hc _ _ a i i' hI1 hI hi1 hi']
              rw [this]
              exact dget_mem hd
            · cases hd
          · split
            · exact Keeps.pure
            · refine (hobj _ _ _ ?_).bind (fun _ => Keeps.pure)
              intro s r s' hI h
              cases h
              refine ⟨rfl, fun now' e k v hd => ?_⟩
              cases e
              exact ⟨h1, a, hI1, .dir i hi1 (dget_mem hd)⟩
        · split
          · exact Keeps.pure
          · split
            · exact Keeps.pure
            · split
              · refine Keeps.withHeap (fun h _ => ?_)
                split
                · exact hfl _
                · split
                  · exact hfl _
                  · exact Keeps.pure
              · split
                · exact Keeps.pure
                · exact Keeps.throw
              · exact Keeps.pure

theorem keeps_inst (hit : IterOk I) (hc : ClassOk I) : Keeps I (flattenInst cfg fl a i) := by
  have hrest := fun d => keeps_rest (d := d) hset hso hfl hi hit hc
  have hget : ∀ d, Keeps I (flattenGetstate cfg fl a i d) := by
    intro d
    unfold flattenGetstate
    split
    · split
      · split
        · exact Keeps.pure
        · exact Keeps.throw
      · next st _ =>
        refine Keeps.withHeap (fun h hI => ?_)
        split
        · next kvs hkvs =>
          split
          · exact hrest d
          · refine (keeps_cached (keeps_nested (keeps_objWith (keeps_once (Keeps.bind (keeps_entries hset hso hfl ?_) (fun _ => Keeps.pure)))))).bind (fun _ => Keeps.pure)
            · intro kv hkv
              unfold stateEntries at hkvs
              split at hkvs
              · next b _ =>
                split at hkvs
                · next kvs' hb =>
                  split at hkvs
                  · cases hkvs
                  · cases hkvs
                    exact .entry hI hb (itemsExcl_mem hkv)
                · cases hkvs
              · cases hkvs
        · split
          · exact (hfl _).bind (fun _ => Keeps.pure)
          · exact hrest d
    · exact hrest d
  have hbody : Keeps I (flattenBody cfg fl a i) := by
    unfold flattenBody
    refine Keeps.bind ?_ (fun d => Keeps.bind ?_ hget)
    · unfold flattenNewargs
      split
      · exact Keeps.ofExcept.bind (fun _ => (hfl _).bind (fun _ => (hfl _).bind (fun _ => Keeps.pure)))
      · split
        · exact Keeps.ofExcept.bind (fun _ => (hfl _).bind (fun _ => Keeps.pure))
        · exact Keeps.pure
    · unfold flattenInitargs
      split
      · exact Keeps.ofExcept.bind (fun _ => (hfl _).bind (fun _ => Keeps.pure))
      · exact Keeps.pure
  unfold flattenInst
  split
  · exact (Keeps.foldM _ _ (fun _ _ _ => (hfl _).bind (fun _ => Keeps.pure))).bind (fun _ => Keeps.ofExcept.bind (fun _ => Keeps.pure))
  · unfold flattenDate
    split
    · exact (Keeps.mapM hfl _).bind (fun _ => Keeps.ofExcept.bind (fun _ => Keeps.pure))
    · exact Keeps.ofExcept.bind (fun _ => Keeps.ofExcept.bind (fun _ => Keeps.pure))
  · exact Keeps.ofExcept.bind (fun _ => Keeps.pure)
  · exact Keeps.ofExcept.bind (fun _ => Keeps.pure)
  · unfold flattenReduce
    split
    · exact hbody
    · split
      · exact hbody
      · exact Keeps.throw
    · exact hbody
    · exact (hfl _).tryCatch (fun _ => hbody)
    · split
      · exact hbody
      · refine Keeps.withHeap (fun h hI => ?_)
        split
        · exact (Keeps.mapM hfl _).bind (fun _ => Keeps.pure)
        · exact hbody

end

theorem keeps_by (hset : SetOk cfg I) (hso : SortOk cfg I) (hit : IterOk I) (hc : ClassOk I) (hfl : ∀ v, Keeps I (fl v)) (v : Val) : Keeps I (flattenBy cfg fl v) := by
  cases v with
  | tuple l xs => exact (Keeps.mapM hfl xs).bind (fun _ => Keeps.pure)
  | set l xs => exact (Keeps.mapM hfl xs).bind (fun _ => Keeps.pure)
  | module n => exact keeps_refObj Keeps.lift
  | ref a =>
    unfold flattenBy flattenCell
    refine Keeps.withHeap (fun h hI => ?_)
    cases hg : h[a]? with
    | none => exact Keeps.throw
    | some o =>
      cases o with
      | list xs => exact keeps_once ((Keeps.mapM hfl xs).bind (fun _ => Keeps.pure))
      | dict kvs => exact keeps_once (Keeps.bind (keeps_entries hset hso hfl (fun kv hkv => .entry hI hg hkv)) (fun _ => Keeps.pure))
      | inst i => exact keeps_refObj (keeps_inst hset hso hfl ⟨h, hI, hg⟩ hit hc)
      | _ => exact Keeps.throw
  | _ => exact Keeps.lift

theorem keeps_step (hset : SetOk cfg I) (hso : SortOk cfg I) (hit : IterOk I) (hc : ClassOk I) (hfl : ∀ v, Keeps I (fl v)) (v : Val) : Keeps I (flattenStep cfg fl v) := by
  have hby := fun v => keeps_by hset hso hit hc hfl v
  have hobj : ∀ v, Keeps I (nested (flattenObj cfg fl v)) := fun v => keeps_nested (Keeps.withHeap (fun _ _ => keeps_objWith (hby v)))
  cases v <;> first | exact Keeps.pure | exact keeps_cached Keeps.pure | exact keeps_cached (hobj _)

theorem keeps_flatten (hset : SetOk cfg I) (hso : SortOk cfg I) (hit : IterOk I) (hc : ClassOk I) : ∀ n v, Keeps I (flatten cfg n v)
  | 0, _ => by intro s r s' _ h; cases h
  | n + 1, v => keeps_step hset hso hit hc (keeps_flatten hset hso hit hc n) v

end JP.Readonly
