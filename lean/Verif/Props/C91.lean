import Verif.RestoreAttrs
/-!
# C91 — attributes of frozen and read-only objects, entries of immutable mappings

`frozen_twin`: frozen dataclasses get their attributes like other objects.  `mapping_result`: an immutable mapping is made anew from its entries; a mapping that refuses
some entries only is made anew *from those* and the others are lost (`accepted_lost`).  `readonly_result`: with `handle_readonly=True`, and only then, read-only
attributes of int and str subclasses without slots are passed over.  `underscore`: attributes that need an underscore.
-/
namespace JP.C91
open JP RestoreAttrs

variable {σ J V : Type}

/-- the entries of the document that are read, with their values; keys as they are -/
inductive Reads (o : Opts J V) : List (Key × J) → List (Key × V) → Prop
  | nil : Reads o [] []
  | reserved {s : Str} {j : J} {es kvs} : o.ignoreReserved = true → s ∈ Tags.RESERVED → Reads o es kvs → Reads o ((.str s, j) :: es) kvs
  | entry {k : Key} {j : J} {v : V} {es kvs} : (o.ignoreReserved = true → ∀ s ∈ Tags.RESERVED, k ≠ .str s) → o.key k = .ok k → o.value j = .ok v → Reads o es kvs →
      Reads o ((k, j) :: es) ((k, v) :: kvs)

/-- the key is a str not starting with two underscores -/
def Plain (k : Key) : Prop := ∃ s, k = .str s ∧ ¬ p!"__" <+: s

/-- the placeholders among the values -/
def placeholders (o : Opts J V) (kvs : List (Key × V)) : List (Key × V) := kvs.filter (fun kv => o.isProxy kv.2)

theorem not_empty : ([] : Str) ∉ Tags.RESERVED := by decide +kernel

theorem prefix_take {a s : Str} : a <+: s ↔ s.take a.length = a := by
  constructor
  · rintro ⟨t, rfl⟩; simp
  · intro h; rw [← h]; exact List.take_prefix _ _

theorem dunder_plain {k : Key} (h : Plain k) : dunder k = .ok false := by
  obtain ⟨s, rfl, h⟩ := h
  show Except.ok _ = Except.ok _
  congr 1
  refine Bool.eq_false_iff.2 (fun h2 => h (prefix_take.2 ?_))
  exact beq_iff_eq.1 h2

theorem dunder_private {s : Str} (h : p!"__" <+: s) : dunder (.str s) = .ok true := by
  show Except.ok _ = Except.ok _
  congr 1
  exact beq_iff_eq.2 (prefix_take.1 h)

/-- the turn for an entry that is read -/
theorem turn_entry {o : Opts J V} {t : Target σ V} {k : Key} {j : J} {v : V} (hr : o.ignoreReserved = true → ∀ s ∈ Tags.RESERVED, k ≠ .str s)
    (hk : o.key k = .ok k) (hv : o.value j = .ok v) (l : Loop σ V) :
    turn o t l (k, j) = (do
      let d ← if t.mapping then setEntry t k v l.obj else setAttr t o.handleReadonly k v l.obj
      match d with
      | .stored obj => .ok { l with obj := obj, proxies := if o.isProxy v then l.proxies ++ [(k, v)] else l.proxies }
      | .deferred => .ok { l with deferred := dset k v l.deferred }
      | .ignored => .ok l
      | .skipped => .ok { l with names := k :: l.names }) := by
  unfold turn
  have h : (o.ignoreReserved && Tags.RESERVED.contains k.text) = false := by
    cases hi : o.ignoreReserved with
    | false => rfl
    | true =>
      refine Bool.eq_false_iff.2 (fun h => ?_)
      have h := List.contains_iff_mem.1 (show Tags.RESERVED.contains k.text = true from h)
      cases k with
      | str s => exact hr hi s h rfl
      | other n => exact not_empty h
  simp only [h, Bool.false_eq_true, if_false, hk, hv]
  rfl

theorem turn_reserved {o : Opts J V} {t : Target σ V} {s : Str} {j : J} (hi : o.ignoreReserved = true) (hs : s ∈ Tags.RESERVED) (l : Loop σ V) :
    turn o t l (.str s, j) = .ok l := by
  unfold turn
  rw [if_pos]
  rw [hi, Bool.true_and]
  exact List.contains_iff_mem.2 hs

/-- if every entry that is read turns the loop as `f` says, the loop is a fold -/
theorem turns_fold {o : Opts J V} {t : Target σ V} (f : Loop σ V → Key × V → Loop σ V) {es : List (Key × J)} {kvs : List (Key × V)} (h : Reads o es kvs)
    (hf : ∀ kv ∈ kvs, ∀ j, (o.ignoreReserved = true → ∀ s ∈ Tags.RESERVED, kv.1 ≠ .str s) → o.key kv.1 = .ok kv.1 → o.value j = .ok kv.2 →
      ∀ l, turn o t l (kv.1, j) = .ok (f l kv)) : ∀ l, turns o t l es = .ok (kvs.foldl f l) := by
  induction h with
  | nil => intro l; rfl
  | reserved hi hs _ ih =>
    intro l
    unfold turns
    rw [turn_reserved hi hs]
    exact ih hf l
  | @entry k j v es kvs hr hk hv _ ih =>
    intro l
    unfold turns
    rw [hf _ (List.mem_cons_self ..) j hr hk hv]
    exact ih (fun kv hm => hf kv (List.mem_cons_of_mem _ hm)) _

theorem turns_append {o : Opts J V} {t : Target σ V} : ∀ (a b : List (Key × J)) (l l' : Loop σ V), turns o t l a = .ok l' → turns o t l (a ++ b) = turns o t l' b
  | [], b, l, l', h => by injection h with h; rw [← h]; rfl
  | e :: a, b, l, l', h => by
    rw [List.cons_append]
    show (turn o t l e >>= fun l => turns o t l (a ++ b)) = _
    replace h : (turn o t l e >>= fun l => turns o t l a) = .ok l' := h
    cases ht : turn o t l e with
    | error e => rw [ht] at h; cases h
    | ok l1 =>
      rw [ht] at h
      exact turns_append a b l1 l' h

/-! ### stored entries -/

/-- storing by `put`, noting placeholders -/
def storing (o : Opts J V) (put : Key → V → σ → σ) (l : Loop σ V) (kv : Key × V) : Loop σ V :=
  { l with obj := put kv.1 kv.2 l.obj, proxies := if o.isProxy kv.2 then l.proxies ++ [kv] else l.proxies }

theorem storing_fold (o : Opts J V) (put : Key → V → σ → σ) : ∀ (kvs : List (Key × V)) (l : Loop σ V),
    kvs.foldl (storing o put) l = { l with obj := kvs.foldl (fun s kv => put kv.1 kv.2 s) l.obj, proxies := l.proxies ++ placeholders o kvs }
  | [], l => by simp [placeholders]
  | kv :: kvs, l => by
    rw [List.foldl_cons, storing_fold o put kvs]
    unfold storing placeholders
    cases hp : o.isProxy kv.2 <;> simp [hp]

/-- objects that take every attribute one way or another -/
theorem stored_result {o : Opts J V} {t : Target σ V} (hm : t.mapping = false) (put : Key → V → σ → σ) {es : List (Key × J)} {kvs : List (Key × V)} (h : Reads o es kvs)
    (hs : ∀ kv ∈ kvs, ∀ s, setAttr t o.handleReadonly kv.1 kv.2 s = .ok (.stored (put kv.1 kv.2 s))) (obj : σ) :
    restoreFromDict o t obj es = .ok (.same (kvs.foldl (fun s kv => put kv.1 kv.2 s) obj), [], placeholders o kvs) := by
  unfold restoreFromDict
  rw [turns_fold (storing o put) h (fun kv hm2 j hr hk hv l => by
    rw [turn_entry hr hk hv, hm]
    simp only [Bool.false_eq_true, if_false, hs kv hm2]
    rfl), storing_fold]
  rfl

/-- **Ordinary objects**: every attribute is set under its name, in the order of the document. -/
theorem plain_result (o : Opts J V) (t : Target σ V) (hm : t.mapping = false) (put : Str → V → σ → σ) (ht : ∀ k v s, t.setattr k v s = .ok (put k v s))
    {es : List (Key × J)} {kvs : List (Key × V)} (h : Reads o es kvs) (hp : ∀ kv ∈ kvs, Plain kv.1) (obj : σ) :
    restoreFromDict o t obj es = .ok (.same (kvs.foldl (fun s kv => put kv.1.text kv.2 s) obj), [], placeholders o kvs) :=
  stored_result hm (fun k => put k.text) h (fun kv hkv s => by
    unfold setAttr
    rw [dunder_plain (hp kv hkv)]
    simp only [ht]) obj

/-- **Frozen dataclasses** get their attributes in the same way, by `object.__setattr__`. -/
theorem frozen_result (o : Opts J V) (t : Target σ V) (hm : t.mapping = false) (put : Str → V → σ → σ) (hf : ∀ k v s, t.setattr k v s = .error .frozen)
    (ht : ∀ k v s, t.objSetattr k v s = .ok (put k v s)) {es : List (Key × J)} {kvs : List (Key × V)} (h : Reads o es kvs) (hp : ∀ kv ∈ kvs, Plain kv.1) (obj : σ) :
    restoreFromDict o t obj es = .ok (.same (kvs.foldl (fun s kv => put kv.1.text kv.2 s) obj), [], placeholders o kvs) :=
  stored_result hm (fun k => put k.text) h (fun kv hkv s => by
    unfold setAttr
    rw [dunder_plain (hp kv hkv)]
    simp only [hf, ht]
    rfl) obj

/-- A frozen dataclass is restored like its twin that is not frozen. -/
theorem frozen_twin (o : Opts J V) (t u : Target σ V) (ht : t.mapping = false) (hu : u.mapping = false) (hf : ∀ k v s, t.setattr k v s = .error .frozen)
    (hs : ∀ k v s, ∃ s', u.setattr k v s = .ok s' ∧ t.objSetattr k v s = .ok s')
    {es : List (Key × J)} {kvs : List (Key × V)} (h : Reads o es kvs) (hp : ∀ kv ∈ kvs, Plain kv.1) (obj : σ) :
    restoreFromDict o t obj es = restoreFromDict o u obj es := by
  have h1 : ∀ k v s, u.setattr k v s = .ok (Classical.choose (hs k v s)) := fun k v s => (Classical.choose_spec (hs k v s)).1
  have h2 : ∀ k v s, t.objSetattr k v s = .ok (Classical.choose (hs k v s)) := fun k v s => (Classical.choose_spec (hs k v s)).2
  rw [frozen_result o t ht _ hf h2 h hp obj, plain_result o u hu _ h1 h hp obj]

/-- But an attribute whose name starts with two underscores raises `FrozenInstanceError`. -/
theorem frozen_private (o : Opts J V) (t : Target σ V) (hm : t.mapping = false) (put : Str → V → σ → σ) (hf : ∀ k v s, t.setattr k v s = .error .frozen)
    (ht : ∀ k v s, t.objSetattr k v s = .ok (put k v s)) {es es' : List (Key × J)} {kvs : List (Key × V)} (h : Reads o es kvs) (hp : ∀ kv ∈ kvs, Plain kv.1)
    {s : Str} (hs : p!"__" <+: s) (hr : o.ignoreReserved = true → s ∉ Tags.RESERVED) {j : J} {v : V} (hk : o.key (.str s) = .ok (.str s)) (hv : o.value j = .ok v) (obj : σ) :
    restoreFromDict o t obj (es ++ (.str s, j) :: es') = .error .frozen := by
  unfold restoreFromDict
  have h1 := turns_fold (t := t) (storing o (fun k => put k.text)) h (fun kv hm2 j hr hk hv l => by
    rw [turn_entry hr hk hv, hm]
    simp only [Bool.false_eq_true, if_false]
    unfold setAttr
    rw [dunder_plain (hp kv hm2)]
    simp only [hf, ht]
    rfl) { obj := obj }
  rw [turns_append _ _ _ _ h1]
  unfold turns
  rw [turn_entry (fun hi s' hs' e => by injection e with e; exact hr hi (e ▸ hs')) hk hv, hm]
  simp only [Bool.false_eq_true, if_false]
  unfold setAttr
  rw [dunder_private hs]
  simp only [hf]
  rfl

/-- **Attributes that need an underscore**: if setting `k` raises `KeyError`, `_k` is set. -/
theorem underscore (o : Opts J V) (t : Target σ V) (hm : t.mapping = false) (put : Str → V → σ → σ) {es : List (Key × J)} {kvs : List (Key × V)} (h : Reads o es kvs)
    (hp : ∀ kv ∈ kvs, Plain kv.1) (hf : ∀ kv ∈ kvs, ∀ s, t.setattr kv.1.text kv.2 s = .error .keyError)
    (ht : ∀ kv ∈ kvs, ∀ s, t.setattr (p!"_" ++ kv.1.text) kv.2 s = .ok (put (p!"_" ++ kv.1.text) kv.2 s)) (obj : σ) :
    restoreFromDict o t obj es = .ok (.same (kvs.foldl (fun s kv => put (p!"_" ++ kv.1.text) kv.2 s) obj), [], placeholders o kvs) :=
  stored_result hm (fun k => put (p!"_" ++ k.text)) h (fun kv hkv s => by
    unfold setAttr
    rw [dunder_plain (hp kv hkv)]
    simp only [hf kv hkv s, ht kv hkv s]
    rfl) obj

/-! ### read-only attributes -/

/-- **Read-only attributes**: with `handle_readonly` they are passed over, for int and str subclasses without slots; their names are left on the stack of names. -/
theorem readonly_result (o : Opts J V) (t : Target σ V) (hm : t.mapping = false) (hf : ∀ k v s, t.setattr k v s = .error .attributeError)
    {es : List (Key × J)} {kvs : List (Key × V)} (h : Reads o es kvs) (hp : ∀ kv ∈ kvs, Plain kv.1) (ho : o.handleReadonly = true) (hb : t.bare = true) (obj : σ) :
    restoreFromDict o t obj es = .ok (.same obj, (kvs.map (·.1)).reverse, []) := by
  have hfold : ∀ (kvs : List (Key × V)) (l : Loop σ V), kvs.foldl (fun l kv => { l with names := kv.1 :: l.names }) l = { l with names := (kvs.map (·.1)).reverse ++ l.names } := by
    intro kvs
    induction kvs with
    | nil => intro l; rfl
    | cons kv kvs ih => intro l; rw [List.foldl_cons, ih]; simp
  unfold restoreFromDict
  rw [turns_fold (fun l kv => { l with names := kv.1 :: l.names }) h (fun kv hm2 j hr hk hv l => by
    rw [turn_entry hr hk hv, hm]
    simp only [Bool.false_eq_true, if_false]
    unfold setAttr
    rw [dunder_plain (hp kv hm2)]
    simp only [hf, hb, ho]
    rfl), hfold]
  simp only [List.append_nil]
  rfl

/-- Otherwise the exception is raised. -/
theorem readonly_raises (o : Opts J V) (t : Target σ V) (hm : t.mapping = false) (hf : ∀ k v s, t.setattr k v s = .error .attributeError)
    {es : List (Key × J)} {kvs : List (Key × V)} (h : Reads o es kvs) (hp : ∀ kv ∈ kvs, Plain kv.1) (hn : kvs ≠ []) (ho : o.handleReadonly = false ∨ t.bare = false) (obj : σ) :
    restoreFromDict o t obj es = .error .attributeError := by
  have hl : ∀ l : Loop σ V, turns o t l es = .error .attributeError := by
    induction h with
    | nil => exact absurd rfl hn
    | reserved hi hs _ ih =>
      intro l
      unfold turns
      rw [turn_reserved hi hs]
      exact ih hp hn l
    | entry hr hk hv _ _ =>
      intro l
      unfold turns
      rw [turn_entry hr hk hv, hm]
      simp only [Bool.false_eq_true, if_false]
      unfold setAttr
      rw [dunder_plain (hp _ (List.mem_cons_self ..))]
      have hc : (t.bare && o.handleReadonly) = false := by
        rcases ho with ho | ho <;> rw [ho] <;> simp
      simp only [hf, hc]
      rfl
  unfold restoreFromDict
  rw [hl]
  rfl

/-! ### mappings -/

theorem dset_new (k : Key) (v : V) : ∀ d : List (Key × V), k ∉ d.map (·.1) → dset k v d = d ++ [(k, v)]
  | [], _ => rfl
  | (k', v') :: d, h => by
    unfold dset
    have h1 : k' ≠ k := fun e => h (by simp [e])
    simp only [beq_iff_eq, h1, if_false]
    rw [dset_new k v d (fun hm => h (List.mem_cons_of_mem _ hm))]
    rfl

/-- one entry of a mapping that refuses the entries not in `ok` -/
def entering (o : Opts J V) (ok : Key → V → Bool) (put : Key → V → σ → σ) (l : Loop σ V) (kv : Key × V) : Loop σ V :=
  if ok kv.1 kv.2 then storing o put l kv else { l with deferred := dset kv.1 kv.2 l.deferred }

theorem entering_fold (o : Opts J V) (ok : Key → V → Bool) (put : Key → V → σ → σ) : ∀ (kvs : List (Key × V)) (l : Loop σ V), ((l.deferred ++ kvs).map (·.1)).Nodup →
    kvs.foldl (entering o ok put) l = { l with obj := (kvs.filter (fun kv => ok kv.1 kv.2)).foldl (fun s kv => put kv.1 kv.2 s) l.obj, deferred := l.deferred ++ kvs.filter (fun kv => !ok kv.1 kv.2), proxies := l.proxies ++ placeholders o (kvs.filter (fun kv => ok kv.1 kv.2)) }
  | [], l, _ => by simp [placeholders]
  | kv :: kvs, l, hn => by
    rw [List.foldl_cons]
    cases hk : ok kv.1 kv.2 with
    | true =>
      have he : entering o ok put l kv = storing o put l kv := by unfold entering; rw [hk]; rfl
      rw [he, entering_fold o ok put kvs _ (by
        refine List.Nodup.sublist ?_ hn
        exact List.Sublist.map _ (List.Sublist.append_left (List.sublist_cons_self ..) _))]
      unfold storing placeholders
      cases hp : o.isProxy kv.2 <;> simp [hk, hp]
    | false =>
      have hd : dset kv.1 kv.2 l.deferred = l.deferred ++ [kv] := by
        rw [dset_new]
        rw [List.map_append, List.nodup_append] at hn
        intro hm
        exact hn.2.2 _ hm _ (by simp) rfl
      have he : entering o ok put l kv = { l with deferred := l.deferred ++ [kv] } := by unfold entering; rw [hk, hd]; rfl
      rw [he, entering_fold o ok put kvs _ (by simpa using hn)]
      simp [hk]

/-- **Mappings**: let `ok` say which entries `instance[k] = value` accepts; it raises `TypeError` for the others.  If it accepts all, they are stored in order.  Otherwise the
result is another object, made from the refused entries *alone*, and placeholders among these are not noted. -/
theorem mapping_result (o : Opts J V) (t : Target σ V) (hm : t.mapping = true) (ok : Key → V → Bool) (put : Key → V → σ → σ)
    (hs : ∀ k v s, t.setitem k v s = if ok k v then .ok (put k v s) else .error .typeError) (hh : ∀ k, t.hashable k = true)
    {es : List (Key × J)} {kvs : List (Key × V)} (h : Reads o es kvs) (hd : .str p!"__dict__" ∉ kvs.map (·.1)) (hn : (kvs.map (·.1)).Nodup) (obj : σ) :
    restoreFromDict o t obj es =
      if ∀ kv ∈ kvs, ok kv.1 kv.2 = true then .ok (.same (kvs.foldl (fun s kv => put kv.1 kv.2 s) obj), [], placeholders o kvs)
      else (t.build (kvs.filter (fun kv => !ok kv.1 kv.2))).map (fun x => (.another x, [], placeholders o (kvs.filter (fun kv => ok kv.1 kv.2)))) := by
  unfold restoreFromDict
  rw [turns_fold (entering o ok put) h (fun kv hm2 j hr hk hv l => by
    rw [turn_entry hr hk hv, hm]
    have hne : kv.1 ≠ .str p!"__dict__" := fun e => hd (e ▸ List.mem_map_of_mem hm2)
    simp only [if_true]
    unfold setEntry entering
    simp only [hne, if_false, hs, hh]
    cases ok kv.1 kv.2 <;> rfl), entering_fold o ok put kvs _ (by simpa using hn)]
  simp only [List.nil_append]
  by_cases ha : ∀ kv ∈ kvs, ok kv.1 kv.2 = true
  · rw [if_pos ha]
    have h1 : kvs.filter (fun kv => !ok kv.1 kv.2) = [] := List.filter_eq_nil_iff.2 (fun kv hkv => by simp [ha kv hkv])
    have h2 : kvs.filter (fun kv => ok kv.1 kv.2) = kvs := List.filter_eq_self.2 ha
    simp only [h1, h2]
    rfl
  · rw [if_neg ha]
    cases hf : kvs.filter (fun kv => !ok kv.1 kv.2) with
    | nil =>
      refine absurd (fun kv hkv => ?_) ha
      have := List.filter_eq_nil_iff.1 hf kv hkv
      simpa using this
    | cons a l => rfl

/-- **Immutable mappings** are made in one go from all their entries. -/
theorem immutable_result (o : Opts J V) (t : Target σ V) (hm : t.mapping = true) (hs : ∀ k v s, t.setitem k v s = .error .typeError) (hh : ∀ k, t.hashable k = true)
    {es : List (Key × J)} {kvs : List (Key × V)} (h : Reads o es kvs) (hd : .str p!"__dict__" ∉ kvs.map (·.1)) (hn : (kvs.map (·.1)).Nodup) (hne : kvs ≠ []) (obj : σ) :
    restoreFromDict o t obj es = (t.build kvs).map (fun x => (.another x, [], [])) := by
  rw [mapping_result o t hm (fun _ _ => false) (fun _ _ s => s) (by simpa using hs) hh h hd hn obj, if_neg]
  · have h1 : kvs.filter (fun _ => false) = [] := List.filter_eq_nil_iff.2 (by simp)
    have h2 : kvs.filter (fun _ => true) = kvs := List.filter_eq_self.2 (by simp)
    simp only [placeholders, Bool.not_false, h1, h2, List.filter_nil]
  · intro ha
    cases kvs with
    | nil => exact hne rfl
    | cons kv kvs => cases ha kv (List.mem_cons_self ..)

/-- Only mappings are ever replaced by another object. -/
theorem same_object (o : Opts J V) (t : Target σ V) (hm : t.mapping = false) (obj : σ) (es : List (Key × J)) {r : Object σ} {ns : List Key} {ps : List (Key × V)}
    (h : restoreFromDict o t obj es = .ok (r, ns, ps)) : ∃ s, r = .same s := by
  have hk : ∀ (es : List (Key × J)) (l l' : Loop σ V), turns o t l es = .ok l' → l'.deferred = l.deferred := by
    intro es
    induction es with
    | nil => intro l l' h; injection h with h; rw [h]
    | cons e es ih =>
      intro l l' h
      unfold turns at h
      cases ht : turn o t l e with
      | error x => rw [ht] at h; cases h
      | ok l1 =>
        rw [ht] at h
        rw [ih l1 l' h]
        unfold turn at ht
        split at ht
        · injection ht with ht; rw [ht]
        · rw [hm] at ht
          cases h1 : o.key e.1 with
          | error x => rw [h1] at ht; cases ht
          | ok k =>
            cases h2 : o.value e.2 with
            | error x => rw [h1, h2] at ht; cases ht
            | ok v =>
              rw [h1, h2] at ht
              replace ht : (setAttr t o.handleReadonly k v l.obj >>= fun d => _) = _ := ht
              cases h3 : setAttr t o.handleReadonly k v l.obj with
              | error x => rw [h3] at ht; cases ht
              | ok d =>
                rw [h3] at ht
                cases d with
                | stored s => injection ht with ht; rw [← ht]
                | deferred =>
                  exfalso
                  unfold setAttr at h3
                  split at h3
                  · cases h3
                  · cases hx : t.setattr (p!"_" ++ t.name ++ k.text) v l.obj <;> rw [hx] at h3 <;> cases h3
                  · split at h3
                    · cases h3
                    · cases hx : t.setattr (p!"_" ++ k.text) v l.obj <;> rw [hx] at h3 <;> cases h3
                    · cases hx : t.objSetattr k.text v l.obj <;> rw [hx] at h3 <;> cases h3
                    · split at h3 <;> cases h3
                    · cases h3
                | ignored => injection ht with ht; rw [ht]
                | skipped => injection ht with ht; rw [← ht]
  unfold restoreFromDict at h
  cases ht : turns o t { obj := obj } es with
  | error x => rw [ht] at h; cases h
  | ok l =>
    have := hk es _ _ ht
    rw [ht] at h
    simp only [bind, Except.bind, this] at h
    injection h with h
    exact ⟨l.obj, (congrArg Prod.fst h).symm⟩

/-! ### examples -/

/-- values are numbers, 0 is a placeholder; the document is already restored -/
def opts (readonly : Bool) : Opts Nat Nat := { handleReadonly := readonly, ignoreReserved := true, key := .ok, value := .ok, isProxy := fun v => v == 0 }

/-- a frozen dataclass -/
def frozen : Target (List (Str × Nat)) Nat where
  mapping := false
  setattr := fun _ _ _ => .error .frozen
  objSetattr := fun k v s => .ok (dset k v s)
  setitem := fun _ _ _ => .error .typeError
  build := fun _ => .error .typeError
  hashable := fun _ => true
  bare := false
  name := p!"Point"

/-- its twin -/
def thawed : Target (List (Str × Nat)) Nat := { frozen with setattr := fun k v s => .ok (dset k v s) }

/-- `{"py/object": "m.Point", "x": 0, "y": 3}` -/
def point : List (Key × Nat) := [(.str p!"py/object", 1), (.str p!"x", 0), (.str p!"y", 3)]

theorem point_reads (r : Bool) : Reads (opts r) point [(.str p!"x", 0), (.str p!"y", 3)] :=
  .reserved rfl (by decide +kernel) (.entry (fun _ s hs e => by injection e with e; subst e; revert hs; decide +kernel) rfl rfl
    (.entry (fun _ s hs e => by injection e with e; subst e; revert hs; decide +kernel) rfl rfl .nil))

theorem point_plain : ∀ kv ∈ ([(.str p!"x", 0), (.str p!"y", 3)] : List (Key × Nat)), Plain kv.1 := by
  intro kv h
  simp only [List.mem_cons, List.not_mem_nil, or_false] at h
  rcases h with rfl | rfl
  · exact ⟨_, rfl, by decide +kernel⟩
  · exact ⟨_, rfl, by decide +kernel⟩

/-- the frozen dataclass and its twin get `x` and `y`; the placeholder is noted -/
example : restoreFromDict (opts false) frozen [] point = restoreFromDict (opts false) thawed [] point ∧
    restoreFromDict (opts false) frozen [] point = .ok (.same [(p!"x", 0), (p!"y", 3)], [], [(.str p!"x", 0)]) :=
  ⟨frozen_twin _ _ _ rfl rfl (fun _ _ _ => rfl) (fun _ _ _ => ⟨_, rfl, rfl⟩) (point_reads _) point_plain _,
    frozen_result _ _ rfl (fun k v s => dset k v s) (fun _ _ _ => rfl) (fun _ _ _ => rfl) (point_reads _) point_plain _⟩

/-- with `__z` after `x` and `y` the frozen dataclass refuses -/
example : restoreFromDict (opts false) frozen [] (point ++ (.str p!"__z", 5) :: [(.str p!"w", 1)]) = .error .frozen :=
  frozen_private _ _ rfl (fun k v s => dset k v s) (fun _ _ _ => rfl) (fun _ _ _ => rfl) (point_reads _) point_plain ⟨p!"z", rfl⟩ (fun _ => by decide +kernel) rfl rfl _

/-- an int subclass without slots whose attributes are read-only -/
def readonly : Target Unit Nat where
  mapping := false
  setattr := fun _ _ _ => .error .attributeError
  objSetattr := fun _ _ _ => .error .attributeError
  setitem := fun _ _ _ => .error .typeError
  build := fun _ => .error .typeError
  hashable := fun _ => true
  bare := true
  name := p!"Year"

example : restoreFromDict (opts true) readonly () point = .ok (.same (), [.str p!"y", .str p!"x"], []) ∧ restoreFromDict (opts false) readonly () point = .error .attributeError :=
  ⟨readonly_result _ _ rfl (fun _ _ _ => rfl) (point_reads _) point_plain rfl rfl _,
    readonly_raises _ _ rfl (fun _ _ _ => rfl) (point_reads _) point_plain (fun h => by cases h) (.inl rfl) _⟩

/-- a dict subclass that accepts positive numbers only -/
def positive : Target (List (Key × Nat)) Nat where
  mapping := true
  setattr := fun _ _ _ => .error .attributeError
  objSetattr := fun _ _ _ => .error .attributeError
  setitem := fun k v s => if v > 0 then .ok (dset k v s) else .error .typeError
  build := fun d => .ok d
  hashable := fun _ => true
  bare := false
  name := p!"Positive"

/-- **a mapping that refuses one entry (here the placeholder) loses the others** -/
theorem accepted_lost : restoreFromDict (opts false) positive [] point = .ok (.another [(.str p!"x", 0)], [], []) ∧
    restoreFromDict (opts false) positive [] [(.str p!"x", 2), (.str p!"y", 3)] = .ok (.same [(.str p!"x", 2), (.str p!"y", 3)], [], []) :=
  ⟨rfl, rfl⟩

/-- an immutable mapping -/
def immutable : Target (List (Key × Nat)) Nat := { positive with setitem := fun _ _ _ => .error .typeError }

/-- it has all entries, but its placeholders stay -/
example : restoreFromDict (opts false) immutable [] point = .ok (.another [(.str p!"x", 0), (.str p!"y", 3)], [], []) :=
  immutable_result _ _ rfl (fun _ _ _ => rfl) (fun _ => rfl) (point_reads _) (by decide +kernel) (by decide +kernel) (fun h => by cases h) _

end JP.C91
