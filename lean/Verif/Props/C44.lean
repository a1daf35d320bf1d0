import Verif.Props.C26
import Verif.Proofs.ReadonlyAgree
/-!
# C44 — `handle_readonly=True` leaves out read-only attributes only

The document is the same as with `handle_readonly=False` when the names of the members of the root object occur in the graph
only as attributes of the root that can be assigned.  False otherwise: dict entries and attributes of other
objects disappear because of their names (`dict_entry_dropped`, `child_attribute_dropped`).
-/
namespace JP.C44
open JP Readonly C26 PyM

/-- What is written under the name of a member of the root is an attribute of the root which can be assigned. -/
def Harmless (cfg : RCfg) (h : Heap) : Prop :=
  ∀ b k v, Pair h b k v → k ∈ memberNames cfg h cfg.root → ∃ i, cfg.root = .ref b ∧ h[b]? = some (.inst i) ∧ (k, v) ∈ i.attrs ∧ cfg.stores i.cls k = true

/-- the same computation in states whose heap satisfies `I` -/
def EqOn {α : Type} (I : Heap → Prop) (m m' : R α) : Prop := ∀ s, I s.heap → m s = m' s

variable {I : Heap → Prop} {cfg : RCfg} {fl fl' : Val → R Json} {α β : Type}

theorem EqOn.same {m : R α} : EqOn I m m := fun _ _ => Eq.refl _

theorem EqOn.bind {m m' : R α} {f f' : α → R β} (h1 : EqOn I m m') (hk : Keeps I m) (h2 : ∀ a, EqOn I (f a) (f' a)) :
    EqOn I (m >>= f) (m' >>= f') := by
  intro s hI
  rw [bind_run, bind_run, ← h1 s hI]
  cases hm : m s with
  | none => exact Eq.refl _
  | some p =>
    obtain ⟨r, s1⟩ := p
    cases r with
    | error e => exact Eq.refl _
    | ok a => exact h2 a s1 (hk s _ s1 hI hm)

theorem EqOn.ite {c : Prop} [Decidable c] {x x' y y' : R α} (h1 : EqOn I x x') (h2 : EqOn I y y') : EqOn I (if c then x else y) (if c then x' else y') := by
  split
  · exact h1
  · exact h2

theorem EqOn.mapM (he : ∀ v, EqOn I (fl v) (fl' v)) (hk : ∀ v, Keeps I (fl v)) : ∀ xs, EqOn I (PyM.mapM fl xs) (PyM.mapM fl' xs)
  | [] => EqOn.same
  | x :: xs => (he x).bind (hk x) (fun _ => (EqOn.mapM he hk xs).bind (Keeps.mapM hk xs) (fun _ => EqOn.same))

theorem EqOn.foldM {γ δ : Type} {f f' : γ → δ → R γ} : ∀ (xs : List δ) (d : γ), (∀ d, ∀ x ∈ xs, EqOn I (f d x) (f' d x)) →
    (∀ d, ∀ x ∈ xs, Keeps I (f d x)) → EqOn I (PyM.foldM f d xs) (PyM.foldM f' d xs)
  | [], _, _, _ => EqOn.same
  | x :: xs, d, h, hk => (h d x List.mem_cons_self).bind (hk d x List.mem_cons_self)
      (fun d' => EqOn.foldM xs d' (fun d y hy => h d y (List.mem_cons_of_mem _ hy)) (fun d y hy => hk d y (List.mem_cons_of_mem _ hy)))

/-- the same options with `handle_readonly=False` -/
def off (cfg : RCfg) : RCfg := { cfg with handleReadonly := false }

/-- the test for read-only attributes passes and changes nothing -/
def Passes (cfg : RCfg) (I : Heap → Prop) : Prop :=
  ∀ s n v b, I s.heap → (∃ h1, I h1 ∧ Pair h1 b n v) → skips cfg (.str n) v s = some (.ok false, s)

theorem eq_pair (hp : Passes cfg I) (hset : SetOk cfg I) (he : ∀ v, EqOn I (fl v) (fl' v)) {k v : Val} {d : List (Str × Json)}
    (hpair : ∀ n, k = .str n → ∃ h1 b, I h1 ∧ Pair h1 b n v) :
    EqOn I (keyValuePair cfg fl k v d) (keyValuePair (off cfg) fl' k v d) := by
  unfold keyValuePair
  split
  · have hs : EqOn I (skips cfg k v) (skips (off cfg) k v) := by
      intro s hI
      cases k with
      | str n =>
        obtain ⟨h1, b, hI1, hpr⟩ := hpair n rfl
        rw [hp s n v b hI ⟨h1, hI1, hpr⟩]
        simp [skips, off]
      | _ => exact Eq.refl _
    refine hs.bind (keeps_skips hset hpair) (fun b => ?_)
    cases b
    · exact EqOn.same.bind Keeps.ofExcept (fun _ => by
        intro s hI
        rw [bind_run, bind_run, he v s hI])
    · exact EqOn.same
  · exact EqOn.same

theorem EqOn.withHeap {f f' : Heap → R α} (h : ∀ h0, I h0 → EqOn I (f h0) (f' h0)) : EqOn I (Readonly.withHeap f) (Readonly.withHeap f') :=
  fun s hI => h s.heap hI s hI

theorem EqOn.tryCatch {m m' : R α} {p : Exc → Bool} {f f' : Exc → R α} (h1 : EqOn I m m') (hk : Keeps I m) (h2 : ∀ e, EqOn I (f e) (f' e)) :
    EqOn I (PyM.tryCatch m p f) (PyM.tryCatch m' p f') := by
  intro s hI
  unfold PyM.tryCatch
  rw [← h1 s hI]
  cases hm : m s with
  | none => exact Eq.refl _
  | some q =>
    obtain ⟨r, s1⟩ := q
    cases r with
    | ok a => exact Eq.refl _
    | error e =>
      simp only []
      rw [h2 e s1 (hk s _ s1 hI hm)]

theorem EqOn.once {id : Ident} {m m' : R Json} (h : EqOn I m m') : EqOn I (Readonly.once cfg id m) (Readonly.once (off cfg) id m') := by
  refine EqOn.same.bind keeps_mkref (fun new => ?_)
  cases new
  · exact EqOn.same
  · exact h

theorem EqOn.cached {id : Ident} {m m' : R Json} (h : EqOn I m m') (hk : Keeps I m) : EqOn I (Readonly.cached cfg id m) (Readonly.cached (off cfg) id m') := by
  unfold Readonly.cached
  show EqOn I (if cfg.opts.unpicklable && cfg.opts.makeRefs then m else _) (if cfg.opts.unpicklable && cfg.opts.makeRefs then m' else _)
  split
  · exact h
  · refine EqOn.same.bind Keeps.lift (fun s => ?_)
    split
    · exact EqOn.same
    · exact h.bind hk (fun _ => EqOn.same)

theorem EqOn.nested {m m' : R Json} (h : EqOn I m m') (hk : Keeps I m) : EqOn I (Readonly.nested m) (Readonly.nested m') :=
  EqOn.same.bind Keeps.lift (fun _ => h.bind hk (fun _ => EqOn.same))

theorem EqOn.objWith {v : Val} {id : Ident} {en : Bool} {rep : Except Exc Str} {m m' : R Json} (h : EqOn I m m') (hk : Keeps I m) :
    EqOn I (flattenObjWith cfg v id en rep m) (flattenObjWith (off cfg) v id en rep m') := by
  refine EqOn.same.bind Keeps.lift (fun _ => EqOn.same.bind Keeps.lift (fun _ => EqOn.tryCatch (EqOn.same.bind Keeps.lift (fun b => ?_)) (Keeps.lift.bind (fun b => ?_)) (fun _ => EqOn.same)))
  · cases b
    · exact h
    · exact EqOn.same
  · cases b
    · exact hk
    · exact Keeps.ofExcept.bind (fun _ => Keeps.pure)

theorem EqOn.refObj {id : Ident} {en : Bool} {m m' : R Json} (h : EqOn I m m') : EqOn I (refObjInstance cfg id en m) (refObjInstance (off cfg) id en m') := by
  unfold refObjInstance
  show EqOn I (if cfg.opts.unpicklable then _ else _) (if cfg.opts.unpicklable then _ else _)
  split
  · exact EqOn.once h
  · refine EqOn.same.bind Keeps.lift (fun _ => EqOn.same.bind Keeps.lift (fun b => ?_))
    cases b
    · exact EqOn.same.bind (keeps_mkref (cfg := cfg)) (fun _ => h)
    · exact EqOn.same

section
variable (hso : SortOk cfg I) (hk1 : cfg.opts.keys = true) (he : ∀ v, EqOn I (fl v) (fl' v)) (hk : ∀ v, Keeps I (fl v))
include hso hk1 he hk

theorem eq_escape {k : Val} (hp : ∀ a, k = .ref a → ∃ h1, I h1 ∧ Key h1 a) : EqOn I (escapeKey cfg fl k) (escapeKey (off cfg) fl' k) :=
  EqOn.bind (m := sortFirst cfg k) EqOn.same (keeps_sortFirst hso hk1 hp) (fun _ => (he k).bind (hk k) (fun _ => EqOn.same))

theorem eq_nonString {k v : Val} {d : List (Str × Json)} (hp : ∀ a, k = .ref a → ∃ h1, I h1 ∧ Key h1 a) :
    EqOn I (nonStringPair cfg fl k v d) (nonStringPair (off cfg) fl' k v d) := by
  unfold nonStringPair
  split
  · split
    · exact EqOn.same
    · exact (eq_escape hso hk1 he hk hp).bind (keeps_escape hso hk1 hk hp) (fun _ => (he v).bind (hk v) (fun _ => EqOn.same))
  · exact EqOn.same

theorem eq_string {k v : Val} {d : List (Str × Json)} : EqOn I (stringPair cfg fl k v d) (stringPair (off cfg) fl' k v d) := by
  unfold stringPair
  split
  · split
    · exact (he v).bind (hk v) (fun _ => (eq_escape hso hk1 he hk (fun a ha => by cases ha)).bind (keeps_escape hso hk1 hk (fun a ha => by cases ha)) (fun _ => EqOn.same))
    · split
      · exact (he v).bind (hk v) (fun _ => EqOn.same)
      · exact EqOn.same
  · exact EqOn.same

end

theorem eq_first (hp : Passes cfg I) (hset : SetOk cfg I) (hso : SortOk cfg I) (he : ∀ v, EqOn I (fl v) (fl' v)) (hk : ∀ v, Keeps I (fl v)) {k v : Val} {d : List (Str × Json)}
    (hpr : ∀ n, k = .str n → ∃ h1 b, I h1 ∧ Pair h1 b n v) : EqOn I (firstPair cfg fl k v d) (firstPair (off cfg) fl' k v d) := by
  unfold firstPair
  show EqOn I (if cfg.opts.keys then _ else _) (if cfg.opts.keys then _ else _)
  split
  · next hk1 => exact eq_string hso hk1 he hk
  · exact eq_pair hp hset he hpr

theorem eq_attrLoop (hp : Passes cfg I) (hset : SetOk cfg I) (hso : SortOk cfg I) (he : ∀ v, EqOn I (fl v) (fl' v)) (hk : ∀ v, Keeps I (fl v)) {a : Addr} {excl : List Str} {size : Nat} :
    ∀ (ks : List Str) (d : List (Str × Json)), EqOn I (attrLoop cfg fl a excl size ks d) (attrLoop (off cfg) fl' a excl size ks d)
  | [], d => EqOn.same
  | k :: ks, d => by
    intro s hI
    unfold attrLoop
    rw [bind_run, bind_run]
    cases h1 : attrsNow a s with
    | none => exact Eq.refl _
    | some p =>
      obtain ⟨r1, s1⟩ := p
      obtain ⟨rfl, now, rfl, hnow⟩ := attrsNow_run h1
      simp only []
      split
      · split
        · exact eq_attrLoop hp hset hso he hk ks d _ hI
        · cases hd : dget k now with
          | none => exact Eq.refl _
          | some v =>
            simp only []
            have hpr : ∀ n, Val.str k = .str n → ∃ h1 b, I h1 ∧ Pair h1 b n v := by
              intro n hn
              injection hn with hn
              subst hn
              rcases hnow with ⟨i, hi, rfl⟩ | rfl
              · exact ⟨_, a, hI, .attr i hi (dget_mem hd)⟩
              · cases hd
            exact ((eq_first hp hset hso he hk hpr).bind (keeps_first hset hso hk hpr) (fun d' => eq_attrLoop hp hset hso he hk ks d')) _ hI
      · exact Eq.refl _

theorem eq_ownAttrs (hp : Passes cfg I) (hset : SetOk cfg I) (hso : SortOk cfg I) (he : ∀ v, EqOn I (fl v) (fl' v)) (hk : ∀ v, Keeps I (fl v)) {a : Addr} {excl : List Str}
    {d : List (Str × Json)} : EqOn I (ownAttrs cfg fl a excl d) (ownAttrs (off cfg) fl' a excl d) :=
  EqOn.same.bind keeps_attrsNow (fun _ => eq_attrLoop hp hset hso he hk _ _)

theorem eq_entries (hp : Passes cfg I) (hset : SetOk cfg I) (hso : SortOk cfg I) (he : ∀ v, EqOn I (fl v) (fl' v)) (hk : ∀ v, Keeps I (fl v)) {kvs : List (Val × Val)}
    {excl : List Str} {d : List (Str × Json)} (hpr : ∀ kv ∈ kvs, EntryOk I kv.1 kv.2) :
    EqOn I (entries cfg fl kvs excl d) (entries (off cfg) fl' kvs excl d) := by
  unfold entries
  show EqOn I (if cfg.opts.keys then _ else _) (if cfg.opts.keys then _ else _)
  split
  · next hk1 =>
    exact (EqOn.foldM _ _ (fun _ _ _ => eq_string hso hk1 he hk) (fun _ _ _ => keeps_string hso hk1 hk)).bind
      (Keeps.foldM _ _ (fun _ _ _ => keeps_string hso hk1 hk))
      (fun _ => EqOn.foldM _ _ (fun _ kv hkv => eq_nonString hso hk1 he hk (hpr kv (itemsExcl_mem hkv)).2)
        (fun _ kv hkv => keeps_nonString hso hk1 hk (hpr kv (itemsExcl_mem hkv)).2))
  · exact EqOn.foldM _ _ (fun _ kv hkv => eq_pair hp hset he (hpr kv (itemsExcl_mem hkv)).1) (fun _ kv hkv => keeps_pair hset hk (hpr kv (itemsExcl_mem hkv)).1)

theorem eq_iterLoop (hit : IterOk I) (he : ∀ v, EqOn I (fl v) (fl' v)) (hk : ∀ v, Keeps I (fl v)) {a : Addr}
    (ha : ∃ h1 j, I h1 ∧ h1[a]? = some (.inst j) ∧ j.info.isIterator = true) : ∀ n, EqOn I (iterLoop fl a n) (iterLoop fl' a n)
  | 0 => EqOn.same
  | n + 1 => by
    unfold iterLoop
    refine EqOn.same.bind ?_ (fun x => ?_)
    · intro s r s' hI h
      unfold advance at h
      split at h
      · next i hi =>
        split at h
        · next x xs hx =>
          cases h
          obtain ⟨h1, j, hI1, hj, hji⟩ := ha
          exact hit _ h1 a i j x xs hI hI1 hj hji hi hx
        · cases h; exact hI
      · cases h; exact hI
    · cases x with
      | none => exact EqOn.same
      | some x => exact (he x).bind (hk x) (fun _ => (eq_iterLoop hit he hk ha n).bind (keeps_iterLoop hit hk ha n) (fun _ => EqOn.same))

section
variable (hp : Passes cfg I) (hset : SetOk cfg I) (hso : SortOk cfg I) (he : ∀ v, EqOn I (fl v) (fl' v)) (hk : ∀ v, Keeps I (fl v)) {a : Addr} {i : Inst}
  (hi : ∃ h1, I h1 ∧ h1[a]? = some (.inst i))
include hp hset hso he hk hi

theorem eq_default {d : List (Str × Json)} : EqOn I (flattenDefault cfg fl i d) (flattenDefault (off cfg) fl' i d) := by
  unfold flattenDefault
  split
  · exact EqOn.same
  · next f hf =>
    have hpr : ∀ kv ∈ [(Val.str p!"exemplar", i.exemplar)], EntryOk I kv.1 kv.2 := by
      intro kv hkv
      rw [List.mem_singleton] at hkv
      subst hkv
      obtain ⟨h1, hI1, hi⟩ := hi
      exact .name ⟨h1, a, hI1, .exemplar i hi rfl rfl (by rw [hf]; rfl)⟩
    have hkeep : Keeps I (flattenFactory cfg fl f (outcome i.errs.factory i.exemplar)) := by
      unfold flattenFactory
      split
      · exact Keeps.pure
      · refine keeps_mkref.bind (fun new => ?_)
        cases new
        · exact keeps_getref
        · simp only [if_true]
          unfold outcome
          cases i.errs.factory with
          | some e => intro s r s' hI h; cases h; exact hI
          | none =>
            intro s r s' hI h
            exact (Keeps.bind (keeps_entries (kvs := [(.str p!"exemplar", i.exemplar)]) hset hso hk hpr) (fun _ => Keeps.pure)) s r s' hI h
    refine EqOn.bind ?_ hkeep (fun _ => EqOn.same)
    unfold flattenFactory
    split
    · exact EqOn.same
    · refine EqOn.same.bind keeps_mkref (fun new => ?_)
      cases new
      · exact EqOn.same
      · simp only [if_true]
        unfold outcome
        cases i.errs.factory with
        | some e => exact EqOn.same
        | none =>
          intro s hI
          exact ((eq_entries hp hset hso he hk hpr).bind (keeps_entries hset hso hk hpr) (fun _ => EqOn.same)) s hI

theorem eq_rest {d : List (Str × Json)} (hit : IterOk I) (hc : ClassOk I) : EqOn I (flattenRest cfg fl a i d) (flattenRest (off cfg) fl' a i d) := by
  obtain ⟨h1, hI1, hi1⟩ := hi
  have hseq : EqOn I (flattenSequence cfg fl a i d) (flattenSequence (off cfg) fl' a i d) := by
    unfold flattenSequence
    dsimp only
    split
    · exact (eq_ownAttrs hp hset hso he hk).bind (keeps_ownAttrs hset hso hk) (fun _ => (EqOn.mapM he hk _).bind (Keeps.mapM hk _) (fun _ => EqOn.same))
    · exact EqOn.same.bind Keeps.pure (fun _ => (EqOn.mapM he hk _).bind (Keeps.mapM hk _) (fun _ => EqOn.same))
  unfold flattenRest
  split
  · have hpr : ∀ kv ∈ i.items, EntryOk I kv.1 kv.2 := fun kv hkv => .item hI1 hi1 hkv
    refine (eq_entries hp hset hso he hk hpr).bind (keeps_entries hset hso hk hpr) (fun _ =>
      (eq_default hp hset hso he hk ⟨h1, hI1, hi1⟩).bind (keeps_default hset hso hk ⟨h1, hI1, hi1⟩) (fun _ => EqOn.bind ?_ ?_ (fun _ => EqOn.same)))
    · unfold flattenOwnDict
      refine EqOn.ite ?_ EqOn.same
      refine EqOn.bind (m := mkref cfg _) EqOn.same keeps_mkref (fun new => ?_)
      cases new
      · exact EqOn.same
      · exact (eq_ownAttrs hp hset hso he hk).bind (keeps_ownAttrs hset hso hk) (fun _ => EqOn.same)
    · unfold flattenOwnDict
      split
      · refine keeps_mkref.bind (fun new => ?_)
        cases new
        · exact keeps_getref.bind (fun _ => Keeps.pure)
        · exact (keeps_ownAttrs hset hso hk).bind (fun _ => Keeps.pure)
      · exact Keeps.pure
  · exact hseq
  · exact hseq
  · exact hseq
  · split
    · next hiter =>
      exact (eq_iterLoop hit he hk ⟨h1, i, hI1, hi1, hiter⟩ _).bind (keeps_iterLoop hit hk ⟨h1, i, hI1, hi1, hiter⟩ _) (fun _ => EqOn.same)
    · split
      · exact (eq_ownAttrs hp hset hso he hk).bind (keeps_ownAttrs hset hso hk) (fun _ => EqOn.same)
      · split
        · have hstep : ∀ (lookup : R (List (Str × Val))) (k : Str) (acc : Bool × List (Str × Json)),
              (∀ s r s', I s.heap → lookup s = some (r, s') → s' = s ∧ ∀ now, r = .ok now → ∀ k v, dget (mangle i k) now = some v → ∃ h1 b, I h1 ∧ Pair h1 b k v) →
              EqOn I (objAttr cfg fl i lookup acc k) (objAttr (off cfg) fl' i lookup acc k) ∧ Keeps I (objAttr cfg fl i lookup acc k) := by
            intro lookup k acc hl
            unfold objAttr
            split
            · exact ⟨EqOn.same, Keeps.pure⟩
            · have hkeep : Keeps I (do
                  let now ← lookup
                  let v ← PyM.ofExcept (match dget (mangle i k) now with
                    | some v => .ok v
                    | none => .error .attributeError)
                  let d ← keyValuePair cfg fl (.str k) v acc.2
                  pure (true, d) : R (Bool × List (Str × Json))) := by
                intro s r s' hI h
                rw [bind_run] at h
                cases hn : lookup s with
                | none => rw [hn] at h; cases h
                | some q =>
                  obtain ⟨r1, s1⟩ := q
                  obtain ⟨rfl, hq⟩ := hl s r1 s1 hI hn
                  rw [hn] at h
                  cases r1 with
                  | error e => cases h; exact hI
                  | ok now =>
                    simp only [] at h
                    cases hd : dget (mangle i k) now with
                    | none => rw [hd] at h; cases h; exact hI
                    | some v =>
                      rw [hd] at h
                      refine ((keeps_pair (d := acc.2) hset hk (k := .str k) (v := v) ?_).bind (f := fun d => (pure (true, d) : R (Bool × List (Str × Json)))) (fun _ => Keeps.pure)) s1 r s' hI h
                      intro n hn
                      injection hn with hn
                      subst hn
                      exact hq now rfl k v hd
              refine ⟨EqOn.tryCatch ?_ hkeep (fun _ => EqOn.same), hkeep.tryCatch (fun _ => Keeps.pure)⟩
              intro s hI
              rw [bind_run, bind_run]
              cases hn : lookup s with
              | none => exact Eq.refl _
              | some q =>
                obtain ⟨r1, s1⟩ := q
                obtain ⟨rfl, hq⟩ := hl s r1 s1 hI hn
                cases r1 with
                | error e => exact Eq.refl _
                | ok now =>
                  simp only []
                  cases hd : dget (mangle i k) now with
                  | none => exact Eq.refl _
                  | some v =>
                    have hpr : ∀ n, Val.str k = .str n → ∃ h1 b, I h1 ∧ Pair h1 b n v := by
                      intro n hn
                      injection hn with hn
                      subst hn
                      exact hq now rfl k v hd
                    exact ((eq_pair (d := acc.2) hp hset he hpr).bind (f := fun d => (pure (true, d) : R (Bool × List (Str × Json)))) (keeps_pair hset hk hpr) (fun _ => EqOn.same)) s1 hI
          have hobj : ∀ (lookup : R (List (Str × Val))) names d,
              (∀ s r s', I s.heap → lookup s = some (r, s') → s' = s ∧ ∀ now, r = .ok now → ∀ k v, dget (mangle i k) now = some v → ∃ h1 b, I h1 ∧ Pair h1 b k v) →
              EqOn I (objAttrs cfg fl i lookup names d) (objAttrs (off cfg) fl' i lookup names d) ∧ Keeps I (objAttrs cfg fl i lookup names d) :=
            fun lookup names d hl => ⟨EqOn.foldM _ _ (fun acc k _ => (hstep lookup k acc hl).1) (fun acc k _ => (hstep lookup k acc hl).2),
              Keeps.foldM _ _ (fun acc k _ => (hstep lookup k acc hl).2)⟩
          have hA : ∀ s r s', I s.heap → attrsNow a s = some (r, s') → s' = s ∧ ∀ now, r = .ok now → ∀ k v, dget (mangle i k) now = some v → ∃ h1 b, I h1 ∧ Pair h1 b k v := by
            intro s r s' hI h
            obtain ⟨rfl, now, rfl, hnow⟩ := attrsNow_run h
            refine ⟨rfl, fun now' e k v hd => ?_⟩
            cases e
            rcases hnow with ⟨i', hi', rfl⟩ | rfl
            · refine ⟨s'.heap, a, hI, .slot i' hi' ?_⟩
              have : mangle i' k = mangle i k := by unfold mangle; rw [hc _ _ a i i' hI1 hI hi1 hi']
              rw [this]
              exact dget_mem hd
            · cases hd
          have hD : ∀ s r s', I s.heap → (pure i.dirAttrs : R (List (Str × Val))) s = some (r, s') →
              s' = s ∧ ∀ now, r = .ok now → ∀ k v, dget (mangle i k) now = some v → ∃ h1 b, I h1 ∧ Pair h1 b k v := by
            intro s r s' hI h
            cases h
            refine ⟨rfl, fun now' e k v hd => ?_⟩
            cases e
            exact ⟨h1, a, hI1, .dir i hi1 (dget_mem hd)⟩
          unfold flattenSlots
          refine (hobj _ _ _ hA).1.bind (hobj _ _ _ hA).2 (fun r => ?_)
          split
          · exact EqOn.same
          · exact (hobj _ _ _ hD).1.bind (hobj _ _ _ hD).2 (fun _ => EqOn.same)
        · refine EqOn.ite EqOn.same (EqOn.ite EqOn.same ?_)
          cases (if i.info.reduces then i.reduce else ReduceVal.nothing) with
          | tup xs => exact EqOn.withHeap (fun h hI => EqOn.ite (he _) (EqOn.ite (he _) EqOn.same))
          | _ => exact EqOn.same

theorem eq_inst (hit : IterOk I) (hc : ClassOk I) : EqOn I (flattenInst cfg fl a i) (flattenInst (off cfg) fl' a i) := by
  have hrest := fun d => eq_rest (d := d) hp hset hso he hk hi hit hc
  have hget : ∀ d, EqOn I (flattenGetstate cfg fl a i d) (flattenGetstate (off cfg) fl' a i d) := by
    intro d
    unfold flattenGetstate
    split
    · split
      · exact EqOn.same
      · next st _ =>
        refine EqOn.withHeap (fun h hI => ?_)
        split
        · next kvs hkvs =>
          split
          · exact hrest d
          · have hpr : ∀ kv ∈ Pickler.itemsExcl i.exclude kvs, EntryOk I kv.1 kv.2 := by
              intro kv hkv
              unfold stateEntries at hkvs
              split at hkvs
              · next b _ =>
                split at hkvs
                · next kvs' hb =>
                  split at hkvs
                  · cases hkvs
                  · cases hkvs
                    exact .entry hI hb (itemsExcl_mem hkv)
                · cases hkvs
              · cases hkvs
            have hkp := keeps_objWith (cfg := cfg) (v := .ref a) (id := .stateOf a) (en := false) (rep := cfg.world.repr (.ref a)) (keeps_once (cfg := cfg) (id := .stateOf a)
              (Keeps.bind (keeps_entries (excl := []) (d := []) hset hso hk hpr) (f := fun d => (pure (.obj d) : R Json)) (fun _ => Keeps.pure)))
            exact (EqOn.cached (EqOn.nested (EqOn.objWith (EqOn.once ((eq_entries hp hset hso he hk hpr).bind (keeps_entries hset hso hk hpr) (fun _ => EqOn.same)))
              (keeps_once (Keeps.bind (keeps_entries hset hso hk hpr) (fun _ => Keeps.pure)))) hkp) (keeps_nested hkp)).bind
              (keeps_cached (keeps_nested hkp)) (fun _ => EqOn.same)
        · split
          · exact (he _).bind (hk _) (fun _ => EqOn.same)
          · exact hrest d
    · exact hrest d
  have hbody : EqOn I (flattenBody cfg fl a i) (flattenBody (off cfg) fl' a i) := by
    unfold flattenBody
    refine EqOn.bind ?_ ?_ (fun d => EqOn.bind ?_ ?_ hget)
    · unfold flattenNewargs
      split
      · exact EqOn.same.bind Keeps.ofExcept (fun _ => (he _).bind (hk _) (fun _ => (he _).bind (hk _) (fun _ => EqOn.same)))
      · split
        · exact EqOn.same.bind Keeps.ofExcept (fun _ => (he _).bind (hk _) (fun _ => EqOn.same))
        · exact EqOn.same
    · unfold flattenNewargs
      split
      · exact Keeps.ofExcept.bind (fun _ => (hk _).bind (fun _ => (hk _).bind (fun _ => Keeps.pure)))
      · split
        · exact Keeps.ofExcept.bind (fun _ => (hk _).bind (fun _ => Keeps.pure))
        · exact Keeps.pure
    · unfold flattenInitargs
      split
      · exact EqOn.same.bind Keeps.ofExcept (fun _ => (he _).bind (hk _) (fun _ => EqOn.same))
      · exact EqOn.same
    · unfold flattenInitargs
      split
      · exact Keeps.ofExcept.bind (fun _ => (hk _).bind (fun _ => Keeps.pure))
      · exact Keeps.pure
  unfold flattenInst
  rw [show (off cfg).world.handler i.cls = cfg.world.handler i.cls from rfl]
  have hred : EqOn I (flattenReduce cfg fl a i) (flattenReduce (off cfg) fl' a i) := by
    unfold flattenReduce
    rw [show (off cfg).opts = cfg.opts from rfl]
    generalize (if cfg.opts.unpicklable && i.info.reduces then i.reduce else ReduceVal.nothing) = rv
    cases rv with
    | nothing => exact hbody
    | raise e => exact EqOn.ite hbody EqOn.same
    | str o =>
      cases o with
      | none => exact hbody
      | some v => exact (he _).tryCatch (hk _) (fun _ => hbody)
    | tup xs =>
      refine EqOn.ite hbody (EqOn.withHeap (fun h hI => ?_))
      show EqOn I (if Pickler.reduceSane { cfg.world with heap := h } i _ then _ else _) (if Pickler.reduceSane { cfg.world with heap := h } i _ then _ else _)
      exact EqOn.ite ((EqOn.mapM he hk _).bind (Keeps.mapM hk _) (fun _ => EqOn.same)) hbody
  cases cfg.world.handler i.cls with
  | none => exact hred
  | some k =>
    cases k with
    | record =>
      exact (EqOn.foldM _ _ (fun _ _ _ => (he _).bind (hk _) (fun _ => EqOn.same)) (fun _ _ _ => (hk _).bind (fun _ => Keeps.pure))).bind
        (Keeps.foldM _ _ (fun _ _ _ => (hk _).bind (fun _ => Keeps.pure))) (fun _ => EqOn.same)
    | datetime =>
      show EqOn I (flattenDate cfg fl a i) (flattenDate (off cfg) fl' a i)
      unfold flattenDate
      show EqOn I (if cfg.opts.unpicklable then _ else _) (if cfg.opts.unpicklable then _ else _)
      split
      · exact (EqOn.mapM he hk _).bind (Keeps.mapM hk _) (fun _ => EqOn.same)
      · exact EqOn.same
    | _ => exact EqOn.same

end

theorem eq_by (hp : Passes cfg I) (hset : SetOk cfg I) (hso : SortOk cfg I) (hit : IterOk I) (hc : ClassOk I) (he : ∀ v, EqOn I (fl v) (fl' v)) (hk : ∀ v, Keeps I (fl v)) (v : Val) :
    EqOn I (flattenBy cfg fl v) (flattenBy (off cfg) fl' v) := by
  cases v with
  | tuple l xs => exact (EqOn.mapM he hk xs).bind (Keeps.mapM hk xs) (fun _ => EqOn.same)
  | set l xs => exact (EqOn.mapM he hk xs).bind (Keeps.mapM hk xs) (fun _ => EqOn.same)
  | ref a =>
    unfold flattenBy flattenCell
    refine EqOn.withHeap (fun h hI => ?_)
    cases hg : h[a]? with
    | none => exact EqOn.same
    | some o =>
      cases o with
      | list xs => exact EqOn.once ((EqOn.mapM he hk xs).bind (Keeps.mapM hk xs) (fun _ => EqOn.same))
      | dict kvs =>
        have hpr : ∀ kv ∈ kvs, EntryOk I kv.1 kv.2 := fun kv hkv => .entry hI hg hkv
        exact EqOn.once ((eq_entries hp hset hso he hk hpr).bind (keeps_entries hset hso hk hpr) (fun _ => EqOn.same))
      | inst i => exact EqOn.refObj (eq_inst hp hset hso he hk ⟨h, hI, hg⟩ hit hc)
      | _ => exact EqOn.same
  | _ => exact EqOn.same

/-- one step -/
theorem eq_step (hp : Passes cfg I) (hset : SetOk cfg I) (hso : SortOk cfg I) (hit : IterOk I) (hc : ClassOk I) (he : ∀ v, EqOn I (fl v) (fl' v)) (hk : ∀ v, Keeps I (fl v)) (v : Val) :
    EqOn I (flattenStep cfg fl v) (flattenStep (off cfg) fl' v) := by
  have hkp : ∀ v, Keeps I (flattenObj cfg fl v) := fun v => Keeps.withHeap (fun _ _ => keeps_objWith (keeps_by hset hso hit hc hk v))
  have hobj : ∀ v, EqOn I (nested (flattenObj cfg fl v)) (nested (flattenObj (off cfg) fl' v)) := fun v =>
    EqOn.nested (EqOn.withHeap (fun _ _ => EqOn.objWith (eq_by hp hset hso hit hc he hk v) (keeps_by hset hso hit hc hk v))) (hkp v)
  cases v <;> first | exact EqOn.same | exact EqOn.cached (hobj _) (keeps_nested (hkp _))

theorem eq_flatten (hp : Passes cfg I) (hset : SetOk cfg I) (hso : SortOk cfg I) (hit : IterOk I) (hc : ClassOk I) : ∀ n v, EqOn I (flatten cfg n v) (flatten (off cfg) n v)
  | 0, _ => EqOn.same
  | n + 1, v => eq_step hp hset hso hit hc (eq_flatten hp hset hso hit hc n) (keeps_flatten hset hso hit hc n) v

theorem set_self {h : Heap} {a : Nat} {o : Obj} (ho : h[a]? = some o) : h.set a o = h := by
  refine List.ext_getElem? fun b => ?_
  by_cases e : a = b
  · subst e
    rw [List.getElem?_set_self (List.getElem?_eq_some_iff.1 ho).1, ho]
  · rw [List.getElem?_set_ne e]

/-- If the names of the members of the root occur only as names of attributes of the root that can be assigned, then
`handle_readonly=True` makes no difference: same document or exception, same effect on the graph.  The
condition cannot be dropped, see below.  Missing from the full property: as for `C26.unchanged_partial`. -/
theorem same_document_partial (cfg : RCfg) (n : Nat) (s : RState)
    (hnames : ∀ a i, cfg.root = .ref a → s.heap[a]? = some (.inst i) → (i.attrs.map (·.1)).Nodup)
    (hh : Harmless cfg s.heap) : flattenTop cfg n s = flattenTop (off cfg) n s := by
  let p : Addr → Prop := Sorts cfg s.heap
  have hclash : ¬ Clash cfg s.heap := by
    rintro ⟨a, i, b, k, v, hr, hi, hpr, hne, hk, _⟩
    obtain ⟨i2, hr2, hi2, hm, _⟩ := hh b k v hpr hk
    rw [hr] at hr2
    injection hr2 with hr2
    subst hr2
    rw [hi] at hi2
    cases hi2
    exact hne ⟨rfl, hm⟩
  have hset : SetOk cfg (SameHeap p s.heap) := setOk_same hnames (fun _ => hclash)
  have hit : IterOk (SameHeap p s.heap) := iterOk_same
  have hp : Passes cfg (SameHeap p s.heap) := by
    intro s1 k v b hI hpair
    obtain ⟨h1, hI1, hpair⟩ := hpair
    unfold skips
    simp only []
    split
    · next hc =>
      rw [Bool.and_eq_true, List.contains_eq_mem, decide_eq_true_eq] at hc
      have hpair0 := pair_back hI1 hpair
      obtain ⟨i0, hr, h2, hm, hst⟩ := hh b k v hpair0 (members_back hI hc.2)
      obtain ⟨o, h3, h4⟩ := hI.2 b _ h2
      obtain ⟨attrs, elems, rfl, h5, _⟩ := h4.inst
      have hperm : attrs.Perm i0.attrs := by
        rcases h5 with rfl | h5
        · exact .refl _
        · exact h5.2
      have hmem : (k, v) ∈ attrs := hperm.mem_iff.2 hm
      have hd : dset k v attrs = attrs := dset_mem hmem ((hperm.map _).nodup_iff.2 (hnames b i0 hr h2))
      unfold isReadonly
      rw [hr]
      simp only [h3, hst, if_true, hd]
      rw [set_self h3]
    · rfl
  unfold flattenTop
  exact (EqOn.same.bind Keeps.lift (fun _ => EqOn.bind (m := sortFirst cfg cfg.root) EqOn.same keeps_sort (fun _ => eq_flatten hp hset sortOk_same hit classOk_same n cfg.root))) s SameHeap.refl

/-! ### an instance of the theorem -/

/-- `Task(name="a", sub=Part(size=1, more={b"x"}))` -/
def plainParts : Heap := [
  .inst { cls := p!"m.Task", attrs := [(p!"name", .str p!"a"), (p!"sub", .ref 1)] },
  .inst { cls := p!"m.Part", attrs := [(p!"size", .int 1), (p!"more", .set 1 [.bytes 2 [120]])] }]

theorem plainParts_harmless : Harmless options plainParts := by
  intro b k v hp hk
  have hlt : b < 2 := pair_lt hp
  have hb : b = (0 : Nat) ∨ b = (1 : Nat) := (by omega : ∀ b : Nat, b < 2 → b = 0 ∨ b = 1) b hlt
  rcases hb with rfl | rfl
  · have hm : (k, v) ∈ [(p!"name", Val.str p!"a"), (p!"sub", Val.ref 1)] := by
      cases hp with
      | entry _ h1 _ => cases h1
      | attr _ h1 h2 => cases h1; exact h2
      | slot _ h1 h2 =>
        cases h1
        have h3 : ∀ e ∈ [(p!"name", Val.str p!"a"), (p!"sub", Val.ref 1)], e.1.head? ≠ some 95 := by decide
        have h4 := mangle_eq rfl (h3 _ h2)
        rw [← h4] at h2
        exact h2
      | item _ h1 h2 => cases h1; cases h2
      | dir _ h1 h2 => cases h1; cases h2
      | exemplar _ h1 _ _ h2 => cases h1; cases h2
    refine ⟨_, rfl, rfl, hm, ?_⟩
    simp only [List.mem_cons, List.not_mem_nil, or_false, Prod.mk.injEq] at hm
    rcases hm with ⟨rfl, _⟩ | ⟨rfl, _⟩ <;> decide
  · have key : k = p!"size" ∨ k = p!"more" := by
      rcases pair_names hp (by intro i hi; cases hi; exact ⟨by decide, rfl, rfl⟩) with ⟨kvs, h1, h2⟩ | ⟨i, h1, h2⟩
      · cases h1
      · cases h1
        simpa using h2
    rcases key with rfl | rfl <;> exact absurd hk (by decide)

example : flattenTop options 10 { heap := plainParts } = flattenTop { options with handleReadonly := false } 10 { heap := plainParts } ∧
    document options plainParts = some (.obj [(Tags.OBJECT, .str p!"m.Task"), (p!"name", .str p!"a"),
      (p!"sub", .obj [(Tags.OBJECT, .str p!"m.Part"), (p!"size", .int 1), (p!"more", .obj [(Tags.SET, .arr [.obj [(Tags.B64, .str p!"eA==")]])])])]) :=
  ⟨same_document_partial options 10 { heap := plainParts } (fun a i hr ha => by cases hr; cases ha; decide) plainParts_harmless, by decide +kernel⟩

/-! ### where the property is false -/

/-- `encode({"keys": 1, "a": 2}, handle_readonly=True)` leaves out the first entry: a dict has a method `keys`, and it cannot
be assigned. -/
theorem dict_entry_dropped :
    let h : Heap := [.dict [(.str p!"keys", .int 1), (.str p!"a", .int 2)]]
    document options h = some (.obj [(p!"a", .int 2)]) ∧
    document (off options) h = some (.obj [(p!"keys", .int 1), (p!"a", .int 2)]) := by
  decide +kernel

/-- … and that run is the one of the encoder of `Verif/Pickler.lean`, to which the other properties refer: same document or
exception, same final state, and the objects are as before. -/
theorem agrees_partial (cfg : RCfg) (n : Nat) (h : Heap) (hsort : cfg.sortKeys = false) (hS : Still h) (hh : Harmless cfg h) :
    flattenTop cfg n { heap := h } = (Pickler.flattenTop { cfg.world with heap := h } cfg.opts n cfg.root true {}).map (fun q => (q.1, { heap := h, base := q.2 })) := by
  rw [same_document_partial cfg n { heap := h } (fun a i _ hi => (hS a i hi).2.2) hh]
  exact flattenTop_agree (cfg := off cfg) rfl hsort hS n

theorem plainParts_still : Still plainParts := by
  intro a i hi
  have hlt : a < 2 := (List.getElem?_eq_some_iff.1 hi).1
  have ha : a = 0 ∨ a = 1 := by omega
  rcases ha with rfl | rfl <;> · cases hi; decide

example : flattenTop options 10 { heap := plainParts } =
    (Pickler.flattenTop { options.world with heap := plainParts } options.opts 10 options.root true {}).map (fun q => (q.1, { heap := plainParts, base := q.2 })) :=
  agrees_partial options 10 plainParts rfl plainParts_still plainParts_harmless

/-- `Task(name="a", sub=Part(size=1, total=2))` -/
def totals : Heap := [
  .inst { cls := p!"m.Task", attrs := [(p!"name", .str p!"a"), (p!"sub", .ref 1)] },
  .inst { cls := p!"m.Part", attrs := [(p!"size", .int 1), (p!"total", .int 2)] }]

/-- `Task(sub=Part(total=2))`: the attribute `total` of the part is left out because the *task* has a read-only property
of this name. -/
theorem child_attribute_dropped :
    document options totals = some (.obj [(Tags.OBJECT, .str p!"m.Task"), (p!"name", .str p!"a"),
      (p!"sub", .obj [(Tags.OBJECT, .str p!"m.Part"), (p!"size", .int 1)])]) ∧
    document (off options) totals = some (.obj [(Tags.OBJECT, .str p!"m.Task"), (p!"name", .str p!"a"),
      (p!"sub", .obj [(Tags.OBJECT, .str p!"m.Part"), (p!"size", .int 1), (p!"total", .int 2)])]) := by
  decide +kernel

end JP.C44
