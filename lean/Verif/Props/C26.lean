import Verif.Proofs.ReadonlyInv
import Verif.DecEq
/-!
# C26 — `encode` does not modify the object it is given

Proved: without `handle_readonly`, and with it when nothing that is written has the name of a member of the root that can be
assigned, except these attributes of the root themselves, every attribute of every object keeps its value; a backend that sorts keys makes the root's
attributes (with `keys=True` also those of dictionary keys) change their order, and iterators are advanced, nothing else.  False otherwise: `handle_readonly=True` assigns
the attributes of *every* object of the graph to the root object (`attribute_overwritten`, `method_shadowed`, `own_item_overwrites`).
-/
namespace JP.C26
open JP Readonly

/-- What may become of an object: an iterator advances, and the attributes of an instance may change their order if
`sort` holds. -/
def SameObj (sort : Prop) (o o' : Obj) : Prop :=
  o' = o ∨ ∃ i attrs elems, o = .inst i ∧ o' = .inst { i with attrs := attrs, elems := elems } ∧
    (attrs = i.attrs ∨ sort ∧ attrs.Perm i.attrs) ∧ (elems = i.elems ∨ i.info.isIterator = true ∧ ∃ n, elems = i.elems.drop n)

/-- All objects are still there and as they were; only in `root` the attributes may be in another order. -/
def SameHeap (sort : Addr → Prop) (h h' : Heap) : Prop :=
  h'.length = h.length ∧ ∀ (a : Nat) o, h[a]? = some o → ∃ o', h'[a]? = some o' ∧ SameObj (sort a) o o'

/-- What `encode` writes for some object has the name of a member of the root that can be assigned, and it is not that attribute of the root. -/
def Clash (cfg : RCfg) (h : Heap) : Prop :=
  ∃ a i b k v, cfg.root = .ref a ∧ h[a]? = some (.inst i) ∧ Pair h b k v ∧ ¬ (b = a ∧ (k, v) ∈ i.attrs) ∧ k ∈ memberNames cfg h cfg.root ∧ cfg.stores i.cls k = true

theorem SameObj.refl {p : Prop} {o : Obj} : SameObj p o o := Or.inl rfl

theorem SameHeap.refl {p : Addr → Prop} {h : Heap} : SameHeap p h h := ⟨rfl, fun _ o ho => ⟨o, ho, .refl⟩⟩

theorem SameObj.inst {p : Prop} {i : Inst} {o' : Obj} (h : SameObj p (.inst i) o') :
    ∃ attrs elems, o' = .inst { i with attrs := attrs, elems := elems } ∧ (attrs = i.attrs ∨ p ∧ attrs.Perm i.attrs) ∧
      (elems = i.elems ∨ i.info.isIterator = true ∧ ∃ n, elems = i.elems.drop n) := by
  rcases h with rfl | ⟨i2, attrs, elems, e, rfl, h1, h2⟩
  · exact ⟨i.attrs, i.elems, rfl, Or.inl rfl, Or.inl rfl⟩
  · cases e
    exact ⟨attrs, elems, rfl, h1, h2⟩

theorem SameHeap.mono {p q : Addr → Prop} {h h' : Heap} (hs : SameHeap p h h') (hpq : ∀ a, p a → q a) : SameHeap q h h' := by
  refine ⟨hs.1, fun a o ho => ?_⟩
  obtain ⟨o', h1, h2⟩ := hs.2 a o ho
  refine ⟨o', h1, ?_⟩
  rcases h2 with e | ⟨i, attrs, elems, e1, e2, h3, h4⟩
  · exact Or.inl e
  · exact Or.inr ⟨i, attrs, elems, e1, e2, h3.imp id (fun h => ⟨hpq a h.1, h.2⟩), h4⟩

/-- looking backwards -/
theorem SameHeap.back {p : Addr → Prop} {h h' : Heap} (hs : SameHeap p h h') {a : Nat} {o' : Obj} (ho : h'[a]? = some o') :
    ∃ o, h[a]? = some o ∧ SameObj (p a) o o' := by
  have hlt : a < h.length := by
    rw [← hs.1]
    exact (List.getElem?_eq_some_iff.1 ho).1
  obtain ⟨o2, h2, h3⟩ := hs.2 a _ (List.getElem?_eq_getElem hlt)
  rw [ho] at h2
  cases h2
  exact ⟨_, List.getElem?_eq_getElem hlt, h3⟩

theorem SameHeap.back_inst {p : Addr → Prop} {h h' : Heap} (hs : SameHeap p h h') {a : Nat} {i' : Inst} (ho : h'[a]? = some (.inst i')) :
    ∃ i attrs elems, h[a]? = some (.inst i) ∧ i' = { i with attrs := attrs, elems := elems } ∧ (attrs = i.attrs ∨ p a ∧ attrs.Perm i.attrs) ∧
      (elems = i.elems ∨ i.info.isIterator = true ∧ ∃ n, elems = i.elems.drop n) := by
  obtain ⟨o, h1, h2⟩ := hs.back ho
  rcases h2 with e | ⟨i2, attrs, elems, rfl, e, h3, h4⟩
  · subst e
    exact ⟨i', i'.attrs, i'.elems, h1, rfl, Or.inl rfl, Or.inl rfl⟩
  · injection e with e
    exact ⟨i2, attrs, elems, h1, e, h3, h4⟩

theorem SameHeap.set {p : Addr → Prop} {h h' : Heap} (hs : SameHeap p h h') {a : Nat} {o o' : Obj} (ho : h[a]? = some o)
    (hsame : SameObj (p a) o o') : SameHeap p h (h'.set a o') := by
  refine ⟨by rw [List.length_set, hs.1], fun b ob hb => ?_⟩
  by_cases e : b = a
  · subst e
    rw [ho] at hb
    cases hb
    have : b < h'.length := by rw [hs.1]; exact (List.getElem?_eq_some_iff.1 ho).1
    exact ⟨o', by simp [this], hsame⟩
  · obtain ⟨o2, h2, h3⟩ := hs.2 b ob hb
    exact ⟨o2, by rw [List.getElem?_set_ne (fun e' => e e'.symm)]; exact h2, h3⟩

theorem pair_back {p : Addr → Prop} {h h' : Heap} (hs : SameHeap p h h') {b : Addr} {k : Str} {v : Val} (hp : Pair h' b k v) : Pair h b k v := by
  cases hp with
  | entry kvs h1 h2 =>
    obtain ⟨o, h3, h4⟩ := hs.back h1
    rcases h4 with e | ⟨_, _, _, _, e, _⟩
    · subst e; exact .entry kvs h3 h2
    · cases e
  | attr i' h1 h2 =>
    obtain ⟨i, attrs, elems, h3, rfl, h4, _⟩ := hs.back_inst h1
    refine .attr i h3 ?_
    rcases h4 with rfl | ⟨_, h4⟩
    · exact h2
    · exact h4.mem_iff.1 h2
  | slot i' h1 h2 =>
    obtain ⟨i, attrs, elems, h3, rfl, h4, _⟩ := hs.back_inst h1
    refine .slot i h3 ?_
    rcases h4 with rfl | ⟨_, h4⟩
    · exact h2
    · exact h4.mem_iff.1 h2
  | item i' h1 h2 =>
    obtain ⟨i, attrs, elems, h3, rfl, _, _⟩ := hs.back_inst h1
    exact .item i h3 h2
  | dir i' h1 h2 =>
    obtain ⟨i, attrs, elems, h3, rfl, _, _⟩ := hs.back_inst h1
    exact .dir i h3 h2
  | exemplar i' h1 h2 h4 h5 =>
    obtain ⟨i, attrs, elems, h3, rfl, _, _⟩ := hs.back_inst h1
    exact .exemplar i h3 h2 h4 h5

theorem classOk_same {p : Addr → Prop} {h0 : Heap} : ClassOk (SameHeap p h0) := by
  intro h h1 a i i1 hI hI1 ha ha1
  obtain ⟨j, _, _, h2, rfl, _, _⟩ := hI.back_inst ha
  obtain ⟨j1, _, _, h3, rfl, _, _⟩ := hI1.back_inst ha1
  rw [h2] at h3
  cases h3
  rfl

theorem dset_mem {k : Str} {v : Val} : ∀ {d : List (Str × Val)}, (k, v) ∈ d → (d.map (·.1)).Nodup → dset k v d = d
  | (k', v') :: d, h, hn => by
    simp only [List.map_cons, List.nodup_cons] at hn
    rcases List.mem_cons.1 h with e | e
    · cases e; simp [dset]
    · have : k' ≠ k := fun e' => hn.1 (by rw [e']; exact List.mem_map.2 ⟨_, e, rfl⟩)
      simp [dset, this, dset_mem e hn.2]

theorem insert_perm (e : Str × Val) : ∀ l, (insertAttr e l).Perm (e :: l)
  | [] => .refl _
  | f :: l => by
    unfold insertAttr
    split
    · exact .refl _
    · exact ((insert_perm e l).cons f).trans (List.Perm.swap e f l)

theorem sorted_perm : ∀ l, (sorted l).Perm l
  | [] => .refl _
  | e :: l => (insert_perm e (sorted l)).trans ((sorted_perm l).cons e)

theorem members_back {p : Addr → Prop} {cfg : RCfg} {h h' : Heap} (hI : SameHeap p h h') {k : Str}
    (hk : k ∈ memberNames cfg h' cfg.root) : k ∈ memberNames cfg h cfg.root := by
  unfold memberNames at hk ⊢
  cases hr : cfg.root with
  | ref a =>
    rw [hr] at hk
    simp only [] at hk ⊢
    cases hg : h'[a]? with
    | none => rw [hg] at hk; cases hk
    | some o =>
      rw [hg] at hk
      obtain ⟨o0, h2, h3⟩ := hI.back hg
      rcases h3 with rfl | ⟨i, attrs, elems, rfl, rfl, h4, _⟩
      · rw [h2]; exact hk
      · rw [h2]
        simp only [List.mem_append] at hk ⊢
        rcases hk with hk | hk
        · refine Or.inl ?_
          rcases h4 with rfl | ⟨_, h4⟩
          · exact hk
          · exact (h4.map _).mem_iff.1 hk
        · exact Or.inr hk
  | _ => rw [hr] at hk; exact hk

theorem setOk_same {p : Addr → Prop} {cfg : RCfg} {h0 : Heap}
    (hnames : ∀ a i, cfg.root = .ref a → h0[a]? = some (.inst i) → (i.attrs.map (·.1)).Nodup)
    (hclash : cfg.handleReadonly = true → ¬ Clash cfg h0) : SetOk cfg (SameHeap p h0) := by
  intro hro h h1 a i b k v hI hI1 hroot ha hst hk hpair
  obtain ⟨i0, attrs, elems, h2, rfl, h3, h4⟩ := hI.back_inst ha
  have hpair0 := pair_back hI1 hpair
  have hperm : attrs.Perm i0.attrs := by
    rcases h3 with rfl | h3
    · exact .refl _
    · exact h3.2
  have hk0 : k ∈ memberNames cfg h0 cfg.root := members_back hI hk
  have hba : b = a ∧ (k, v) ∈ i0.attrs := by
    refine Classical.byContradiction fun hne => ?_
    exact hclash hro ⟨a, i0, b, k, v, hroot, h2, hpair0, hne, hk0, hst⟩
  have hmem : (k, v) ∈ attrs := hperm.mem_iff.2 hba.2
  have hd : dset k v attrs = attrs := dset_mem hmem ((hperm.map _).nodup_iff.2 (hnames a i0 hroot h2))
  refine hI.set h2 (Or.inr ⟨i0, attrs, elems, rfl, ?_, h3, h4⟩)
  simp only [hd]

theorem iterOk_same {p : Addr → Prop} {h0 : Heap} : IterOk (SameHeap p h0) := by
  intro h h1 a i j x xs hI hI1 hj hji ha hx
  obtain ⟨i0, attrs, elems, h2, rfl, h3, h4⟩ := hI.back_inst ha
  obtain ⟨i0', _, _, h2', rfl, _, _⟩ := hI1.back_inst hj
  rw [h2] at h2'
  cases h2'
  refine hI.set h2 (Or.inr ⟨i0, attrs, xs, rfl, rfl, h3, Or.inr ⟨hji, ?_⟩⟩)
  simp only [] at hx
  rcases h4 with e | ⟨_, m, e⟩
  · exact ⟨1, by rw [← e, hx]; rfl⟩
  · refine ⟨m + 1, ?_⟩
    rw [← List.drop_drop, ← e, hx]
    rfl

theorem key_back {p : Addr → Prop} {h h' : Heap} (hs : SameHeap p h h') {a : Addr} (hk : Key h' a) : Key h a := by
  cases hk with
  | entry b kvs v h1 h2 =>
    obtain ⟨o, h3, h4⟩ := hs.back h1
    rcases h4 with e | ⟨_, _, _, _, e, _⟩
    · subst e; exact .entry b kvs v h3 h2
    · cases e
  | item b i' v h1 h2 =>
    obtain ⟨i, attrs, elems, h3, rfl, _, _⟩ := hs.back_inst h1
    exact .item b i v h3 h2

/-- the objects whose attributes may come to be in another order: with sorted keys the root, and the keys of dicts if they are encoded -/
def Sorts (cfg : RCfg) (h : Heap) (a : Addr) : Prop := cfg.sortKeys = true ∧ (cfg.root = .ref a ∨ cfg.opts.keys = true ∧ Key h a)

theorem sorted_same {p : Addr → Prop} {h0 h : Heap} {a : Nat} {i : Inst} (hI : SameHeap p h0 h) (hp : p a) (hg : h[a]? = some (.inst i)) :
    SameHeap p h0 (h.set a (.inst { i with attrs := sorted i.attrs })) := by
  obtain ⟨i0, attrs, elems, h2, rfl, h3, h4⟩ := hI.back_inst hg
  refine hI.set h2 (Or.inr ⟨i0, sorted attrs, elems, rfl, rfl, Or.inr ⟨hp, ?_⟩, h4⟩)
  refine (sorted_perm attrs).trans ?_
  rcases h3 with rfl | h3
  · exact .refl _
  · exact h3.2

theorem sortOk_same {cfg : RCfg} {h0 : Heap} : SortOk cfg (SameHeap (Sorts cfg h0) h0) :=
  fun hs hk _ _ _ _ hI hI1 hkey hg => sorted_same hI ⟨hs, Or.inr ⟨hk, key_back hI1 hkey⟩⟩ hg

theorem keeps_sort {cfg : RCfg} {h0 : Heap} : Keeps (SameHeap (Sorts cfg h0) h0) (sortFirst cfg cfg.root) := by
  unfold sortFirst
  split
  · next hs =>
    intro s1 r1 s2 hI h
    unfold sortAttrs at h
    cases hr : cfg.root with
    | ref a =>
      rw [hr] at h
      simp only [] at h
      cases hg : s1.heap[a]? with
      | none => rw [hg] at h; cases h; exact hI
      | some o =>
        rw [hg] at h
        cases o with
        | inst i =>
          simp only [] at h
          split at h
          · cases h; exact hI
          · split at h
            · cases h; exact sorted_same hI ⟨hs, Or.inl hr⟩ hg
            · cases h; exact hI
        | _ => cases h; exact hI
    | _ => rw [hr] at h; cases h; exact hI
  · exact Keeps.pure

/-- The heap after `encode` is the heap before, up to the order of the attributes of the root (and with `keys=True` of dictionary keys) when the backend
sorts keys, and up to iterators having advanced; whether `encode` returns or raises, with all options besides `include_properties`.  The condition on
`handle_readonly` cannot be dropped, see below.  Missing from the full property: `include_properties`, methods and
handlers that change objects themselves, and instances whose `__dict__` is reachable as an object. -/
theorem unchanged_partial (cfg : RCfg) (n : Nat) (s s' : RState) (r : Except Exc Json)
    (hnames : ∀ a i, cfg.root = .ref a → s.heap[a]? = some (.inst i) → (i.attrs.map (·.1)).Nodup)
    (hclash : cfg.handleReadonly = true → ¬ Clash cfg s.heap)
    (hrun : flattenTop cfg n s = some (r, s')) : SameHeap (Sorts cfg s.heap) s.heap s'.heap := by
  unfold flattenTop at hrun
  exact (Keeps.lift.bind (fun _ => keeps_sort.bind (fun _ => keeps_flatten (setOk_same hnames hclash) sortOk_same iterOk_same classOk_same n cfg.root)))
    s r s' SameHeap.refl hrun

/-! ### an instance of the theorem -/

/-- `repr` is only used for keys that are not strings, of which there are none in the examples -/
def world : World where
  heap := []
  repr := fun _ => .error .typeError
  pystr := fun _ => .error .typeError
  dumps := fun _ => []
  handler := fun _ => none

/-- the class `m.Task` has a method `save` and a read-only property `total` -/
def options : RCfg where
  handleReadonly := true
  members := fun c => if c == p!"m.Task" then [p!"save", p!"total"] else if c == p!"builtins.dict" then [p!"keys", p!"items"] else []
  stores := fun _ k => k != p!"total"
  root := .ref 0
  world := world

/-- `Task(name="a", sub=Part(size=1, total=2))`, where the part also holds an object with slots, one of a dict subclass, one with a state and one with a reduce value -/
def parts : Heap := [
  .inst { cls := p!"m.Task", attrs := [(p!"name", .str p!"a"), (p!"sub", .ref 1)] },
  .inst { cls := p!"m.Part", attrs := [(p!"size", .int 1), (p!"total", .int 2), (p!"more", .tuple 1 [.ref 2, .ref 3, .ref 4, .ref 6])] },
  .inst { cls := p!"m.Pair", info := { hasDict := false, hasSlots := true, slots := [p!"left"] }, attrs := [(p!"left", .int 1)] },
  .inst { cls := p!"m.Table", info := { base := .dict }, attrs := [(p!"rows", .int 1)], items := [(.str p!"x", .ref 0)] },
  .inst { cls := p!"m.Saved", info := { ownGetstate := true, hasSetstate := true }, state := .ok (.ref 5) },
  .dict [(.str p!"y", .ref 0)],
  .inst { cls := p!"m.Made", info := { reduces := true }, reduce := .tup [.type p!"m.Made", .tuple 2 [.ref 5, .set 3 [.int 1]]] }]

theorem pair_lt {h : Heap} {b : Addr} {k : Str} {v : Val} (hp : Pair h b k v) : b < h.length := by
  cases hp with
  | entry _ h1 _ => exact (List.getElem?_eq_some_iff.1 h1).1
  | attr _ h1 _ => exact (List.getElem?_eq_some_iff.1 h1).1
  | slot _ h1 _ => exact (List.getElem?_eq_some_iff.1 h1).1
  | item _ h1 _ => exact (List.getElem?_eq_some_iff.1 h1).1
  | dir _ h1 _ => exact (List.getElem?_eq_some_iff.1 h1).1
  | exemplar _ h1 _ _ _ => exact (List.getElem?_eq_some_iff.1 h1).1

/-- a name that does not begin with an underscore is the name in `__slots__` -/
theorem mangle_eq {i : Inst} {k : Str} {n : Str} (h : mangle i k = n) (hn : n.head? ≠ some 95) : k = n := by
  unfold mangle at h
  split at h
  · rw [← h] at hn
    exact absurd rfl hn
  · exact h

/-- a list of what is written for the object in cell `b` contains all of it, if no attribute begins with an underscore -/
theorem pair_names {h : Heap} {b : Addr} {k : Str} {v : Val} (hp : Pair h b k v)
    (hn : ∀ i, h[b]? = some (.inst i) → (∀ e ∈ i.attrs, e.1.head? ≠ some 95) ∧ i.dirAttrs = [] ∧ i.factory = none) :
    (∃ kvs, h[b]? = some (.dict kvs) ∧ Val.str k ∈ kvs.map (·.1)) ∨
    (∃ i, h[b]? = some (.inst i) ∧ (k ∈ i.attrs.map (·.1) ∨ Val.str k ∈ i.items.map (·.1))) := by
  cases hp with
  | entry kvs h1 h2 => exact Or.inl ⟨kvs, h1, List.mem_map.2 ⟨_, h2, rfl⟩⟩
  | attr i h1 h2 => exact Or.inr ⟨i, h1, Or.inl (List.mem_map.2 ⟨_, h2, rfl⟩)⟩
  | slot i h1 h2 =>
    refine Or.inr ⟨i, h1, Or.inl (List.mem_map.2 ⟨_, h2, ?_⟩)⟩
    exact (mangle_eq rfl ((hn i h1).1 _ h2)).symm
  | item i h1 h2 => exact Or.inr ⟨i, h1, Or.inr (List.mem_map.2 ⟨_, h2, rfl⟩)⟩
  | dir i h1 h2 => rw [(hn i h1).2.1] at h2; cases h2
  | exemplar i h1 _ _ h2 => rw [(hn i h1).2.2] at h2; cases h2

theorem parts_no_clash : ¬ Clash options parts := by
  rintro ⟨a, i, b, k, v, hr, ha, hp, hne, hk, hs⟩
  cases hr
  cases ha
  have hlt : b < 7 := pair_lt hp
  have hcase : ∀ b : Nat, b < 7 → b = 0 ∨ b = 1 ∨ b = 2 ∨ b = 3 ∨ b = 4 ∨ b = 5 ∨ b = 6 := by omega
  have key : b = 0 ∨ k ∈ [p!"size", p!"total", p!"more", p!"left", p!"rows", p!"x", p!"y"] := by
    rcases hcase b hlt with rfl | rfl | rfl | rfl | rfl | rfl | rfl
    · exact Or.inl rfl
    all_goals
      refine Or.inr ?_
      rcases pair_names hp (by intro i hi; cases hi <;> exact ⟨by decide, rfl, rfl⟩) with ⟨kvs, h1, h2⟩ | ⟨i, h1, h2⟩ <;> cases h1
      all_goals simp only [List.map, List.mem_cons, List.not_mem_nil, or_false, false_or, Val.str.injEq, reduceCtorEq] at h2
      all_goals first | (rcases h2 with rfl | rfl | rfl <;> decide) | (rcases h2 with rfl | rfl <;> decide) | (subst h2; decide)
  rcases key with rfl | key
  · refine hne ⟨rfl, ?_⟩
    cases hp with
    | entry _ h1 _ => cases h1
    | attr _ h1 h2 => cases h1; exact h2
    | slot _ h1 h2 =>
      cases h1
      have h3 : ∀ e ∈ [(p!"name", Val.str p!"a"), (p!"sub", Val.ref 1)], e.1.head? ≠ some 95 := by decide
      have h4 := mangle_eq rfl (h3 _ h2)
      rw [← h4] at h2
      exact h2
    | item _ h1 h2 => cases h1; cases h2
    | dir _ h1 h2 => cases h1; cases h2
    | exemplar _ h1 _ _ h2 => cases h1; cases h2
  · revert hk hs
    simp only [List.mem_cons, List.not_mem_nil, or_false] at key
    rcases key with rfl | rfl | rfl | rfl | rfl | rfl | rfl <;> decide

/-- the object is encoded, and is unchanged -/
example : ∃ r s', flattenTop options 10 { heap := parts } = some (.ok r, s') ∧
    SameHeap (fun _ => False) parts s'.heap := by
  have h : (flattenTop options 10 { heap := parts }).isSome = true := by decide +kernel
  obtain ⟨⟨r, s'⟩, h⟩ := Option.isSome_iff_exists.1 h
  have hs := unchanged_partial options 10 { heap := parts } s' r (fun a i hr ha => by cases hr; cases ha; decide) (fun _ => parts_no_clash) h
  have hok : ((flattenTop options 10 { heap := parts }).bind (fun p => p.1.toOption)).isSome = true := by decide +kernel
  rw [h] at hok
  cases r with
  | error e => cases hok
  | ok j => exact ⟨j, s', h, hs.mono (fun a ha => by cases ha.1)⟩

/-- the same with `unpicklable=False`, `make_refs=False`, `max_depth` and `fail_safe` -/
example : ∃ r s', flattenTop { options with opts := { unpicklable := false, makeRefs := false, maxDepth := some 2, failSafe := some (fun _ => .ok .null), useBase85 := true } } 20 { heap := parts } =
    some (.ok r, s') ∧ SameHeap (fun _ => False) parts s'.heap := by
  let cfg := { options with opts := { unpicklable := false, makeRefs := false, maxDepth := some 2, failSafe := some (fun _ => .ok .null), useBase85 := true } }
  have h : (flattenTop cfg 20 { heap := parts }).isSome = true := by decide +kernel
  obtain ⟨⟨r, s'⟩, h⟩ := Option.isSome_iff_exists.1 h
  have hs := unchanged_partial cfg 20 { heap := parts } s' r (fun a i hr ha => by cases hr; cases ha; decide) (fun _ => parts_no_clash) h
  have hok : ((flattenTop cfg 20 { heap := parts }).bind (fun p => p.1.toOption)).isSome = true := by decide +kernel
  rw [h] at hok
  cases r with
  | error e => cases hok
  | ok j => exact ⟨j, s', h, hs.mono (fun a ha => by cases ha.1)⟩

/-! ### where the property is false -/

def attrsOf (h : Heap) (a : Addr) : List (Str × Val) :=
  match h[a]? with
  | some (.inst i) => i.attrs
  | _ => []

def elemsOf (h : Heap) (a : Addr) : List Val :=
  match h[a]? with
  | some (.inst i) => i.elems
  | _ => []

/-- the attributes of the object in cell `a` after encoding, and whether `encode` returned normally -/
def after (cfg : RCfg) (h : Heap) (a : Addr) : Option (Bool × List (Str × Val)) :=
  (flattenTop cfg 10 { heap := h }).map (fun p => (p.1.toOption.isSome, attrsOf p.2.heap a))

/-- the document -/
def document (cfg : RCfg) (h : Heap) : Option Json := (flattenTop cfg 10 { heap := h }).bind (fun p => p.1.toOption)

/-- `handle_readonly=True`: encoding `Task(sub=Part(name="b"), name="a")` sets the name of the task to `"b"`, in memory and
in the document. -/
theorem attribute_overwritten :
    let h : Heap := [.inst { cls := p!"m.Task", attrs := [(p!"sub", .ref 1), (p!"name", .str p!"a")] },
      .inst { cls := p!"m.Part", attrs := [(p!"name", .str p!"b")] }]
    after options h 0 = some (true, [(p!"sub", .ref 1), (p!"name", .str p!"b")]) ∧
    document options h = some (.obj [(Tags.OBJECT, .str p!"m.Task"),
      (p!"sub", .obj [(Tags.OBJECT, .str p!"m.Part"), (p!"name", .str p!"b")]), (p!"name", .str p!"b")]) := by
  decide +kernel

/-- `handle_readonly=True`: encoding `Task(data={"save": 1})` gives the task an attribute that hides its method `save`, and raises
`RuntimeError` because the `__dict__` has grown during the iteration. -/
theorem method_shadowed :
    after options [.inst { cls := p!"m.Task", attrs := [(p!"data", .ref 1)] }, .dict [(.str p!"save", .int 1)]] 0 =
      some (false, [(p!"data", .ref 1), (p!"save", .int 1)]) := by
  decide +kernel

/-- `handle_readonly=True`: an object of a dict subclass with an attribute and an item of the same name loses its attribute. -/
theorem own_item_overwrites :
    after options [.inst { cls := p!"m.Table", info := { base := .dict }, attrs := [(p!"name", .str p!"a")], items := [(.str p!"name", .str p!"b")] }] 0 =
      some (true, [(p!"name", .str p!"b")]) := by
  decide +kernel

/-- A backend that sorts keys: the attributes of the object itself are sorted. -/
theorem attributes_reordered :
    after { options with handleReadonly := false, sortKeys := true } [.inst { cls := p!"m.Part", attrs := [(p!"b", .int 1), (p!"a", .int 2)] }] 0 =
      some (true, [(p!"a", .int 2), (p!"b", .int 1)]) := by
  decide +kernel

/-- … and with `keys=True` those of an object that is a key. -/
theorem key_reordered :
    after { options with handleReadonly := false, sortKeys := true, opts := { keys := true } }
      [.dict [(.ref 1, .int 0)], .inst { cls := p!"m.Part", attrs := [(p!"b", .int 1), (p!"a", .int 2)] }] 1 =
      some (true, [(p!"a", .int 2), (p!"b", .int 1)]) := by
  decide +kernel

/-- Encoding an iterator uses it up, with `max_iter=1` by one item. -/
theorem iterator_consumed :
    ((flattenTop { options with handleReadonly := false, opts := { maxIter := some 1 } } 10
      { heap := [.inst { cls := p!"m.It", info := { isIterator := true }, elems := [.int 1, .int 2] }] }).map
        (fun p => elemsOf p.2.heap 0)) = some [.int 2] := by
  decide +kernel

end JP.C26
