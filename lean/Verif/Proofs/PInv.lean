import Verif.Proofs.PLogic
/-!
# State invariants for the encoder

`Inv w cfg` packages an invariant of the encoder state (indexed by nesting depth) and predicates on the
JSON produced, with the closure conditions that make them hold throughout.  `Inv.flatten` is the
conclusion; it also says that the run does not depend on `_seen` and is unchanged by more fuel.
-/
namespace JP.Pickler
open JP PyM

/-- equal states, except perhaps for `_seen` -/
def EqSeen (exact : Bool) (s t : PState) : Prop :=
  t.depth = s.depth ∧ t.objs = s.objs ∧ t.flattened = s.flattened ∧ (exact = true → t.seen = s.seen)

theorem EqSeen.rfl {e : Bool} {s : PState} : EqSeen e s s := ⟨Eq.refl _, Eq.refl _, Eq.refl _, fun _ => Eq.refl _⟩

/-- The values considered, closed under what they refer to, and the strings they give rise to. -/
structure Scope (w : World) where
  On : Val → Prop
  S : Str → Prop
  touch : ∀ {v x}, On v → Touches w.heap v x → On x
  none : On .none
  newobj : On (.str Tags.NEWOBJ)
  sVal : ∀ {s}, On (.str s) → S s
  sType : ∀ {n}, On (.type n) → S n
  sFunc : ∀ {n}, On (.func n) → S n
  sModule : ∀ {n}, On (.module n) → S (n ++ 47 :: n)
  sClass : ∀ {a : Addr} {i : Inst}, On (.ref a) → w.heap[a]? = some (.inst i) → S i.cls
  sClone : S CLONE
  sRepr : ∀ {v s}, On v → w.repr v = .ok s → S s
  sPystr : ∀ {v s}, On v → w.pystr v = .ok s → S s

/-- What is reached from a value, and what the encoder writes of its own accord. -/
def From (w : World) (root : Val) (x : Val) : Prop := Within w.heap root x ∨ x = .none ∨ x = .str Tags.NEWOBJ

/-- the scope of one encoding; strings are unrestricted -/
def Scope.ofRoot (w : World) (root : Val) : Scope w where
  On := From w root
  S _ := True
  touch {v x} h ht := by
    rcases h with h | rfl | rfl
    · exact .inl (.step h ht)
    · cases ht
    · cases ht
  none := .inr (.inl rfl)
  newobj := .inr (.inr rfl)
  sVal _ := trivial
  sType _ := trivial
  sFunc _ := trivial
  sModule _ := trivial
  sClass _ _ := trivial
  sClone := trivial
  sRepr _ _ := trivial
  sPystr _ _ := trivial

theorem Scope.ofRoot_root {w : World} {root : Val} : (Scope.ofRoot w root).On root := .inl .self

/-- no restriction -/
def Scope.all (w : World) : Scope w where
  On _ := True
  S _ := True
  touch _ _ := trivial
  none := trivial
  newobj := trivial
  sVal _ := trivial
  sType _ := trivial
  sFunc _ := trivial
  sModule _ := trivial
  sClass _ _ := trivial
  sClone := trivial
  sRepr _ _ := trivial
  sPystr _ _ := trivial

structure Inv (w : World) (cfg : PCfg) where
  /-- holds at depth `d` -/
  I : Idx → PState → Prop
  /-- holds when an exception leaves a computation started at depth `d` -/
  Ie : Idx → PState → Prop
  JC : Idx → Json → Prop
  JD : Idx → Json → Prop
  JB : Idx → Json → Prop
  K : Str → Prop
  RefOk : Prop
  scope : Scope w
  /-- also compare `_seen` in the two runs -/
  exact : Bool
  /-- the positions considered -/
  wf : Idx → Prop
  wfChild : ∀ {d v}, scope.On v ∧ Boxed v → wf d → wf (d.child v)
  /-- the invariant determines the depth counter -/
  tracksDepth : Prop
  IIe : ∀ {d s}, I d s → Ie d s
  catches : Catches w scope.On → ∀ {d s}, Ie d s → I d s
  failSafe : cfg.failSafe.isSome = true → ∀ {d s}, Ie d s → I d s
  /-- registering an identity -/
  log : ∀ {d : Idx} {s i}, wf d → I d s → d.Owns w i → i ∉ s.objs → I d { s with objs := s.objs ++ [i] }
  /-- an identity already registered is only referred to when that is allowed -/
  refOk : cfg.unpicklable = true → cfg.makeRefs = true → RefOk
  ref : ∀ {d s} {n : Nat}, RefOk → I d s → n < s.objs.length → JB d (.obj [(Tags.ID, .int n)]) ∧ JD d (.obj [(Tags.ID, .int n)])
  push : ∀ {d s v}, wf d → I d s → I (d.child v) { s with depth := s.depth + 1, seen := s.seen ++ [v] }
  pop : ∀ {d v s}, wf d → I (d.child v) s →
    I d (if s.depth - 1 == -1 then ({} : PState) else { s with depth := s.depth - 1 })
  popE : ∀ {d v s}, wf d → Ie (d.child v) s → Ie d s
  /-- `v` is kept alive in state `s` -/
  InSeen : Idx → PState → Val → Prop
  popSeen : ∀ {d v s}, wf d → I (d.child v) s →
    InSeen d (if s.depth - 1 == -1 then ({} : PState) else { s with depth := s.depth - 1 }) v
  store : ∀ {d s id j}, ¬ (cfg.unpicklable = true ∧ cfg.makeRefs = true) → wf d → I d s → JC d j →
    (∃ v, Own w v id ∧ InSeen d s v) ∨ (∃ i, id = .inl i) →
    I d { s with flattened := (id, j) :: s.flattened }
  stored : ∀ {d s id j}, ¬ (cfg.unpicklable = true ∧ cfg.makeRefs = true) → I d s →
    (id, j) ∈ s.flattened → JC d j
  jBC : ∀ {d : Idx} {v j}, JB (d.child v) j →
    (tracksDepth → some (d.depth + 1) ≠ cfg.maxDepth ∨ HasEnum w scope.On) → JC d j
  depthEq : tracksDepth → ∀ {d : Idx} {s}, I d s → s.depth = d.depth
  jSafe : ∀ {d f e j}, cfg.failSafe = some f → f e = .ok j → JC d j
  jB64 : ∀ {d b}, JC d (.obj [(Tags.B64, .str (b64encode b))])
  jB85 : ∀ {d b}, JC d (.obj [(Tags.B85, .str (b85encode b))])
  jBa64 : ∀ {d b}, JC d (.obj [(Tags.BYTEARRAY, .obj [(Tags.B64, .str (b64encode b))])])
  jBa85 : ∀ {d b}, JC d (.obj [(Tags.BYTEARRAY, .obj [(Tags.B85, .str (b85encode b))])])
  jNull : ∀ {d}, JC d .null
  jBool : ∀ {d b}, JC d (.bool b)
  jInt : ∀ {d i}, JC d (.int i)
  jFloat : ∀ {d f}, scope.On (.float f) → JC d (.float f)
  jStr : ∀ {d s}, scope.S s → JC d (.str s)
  jCD : ∀ {d j}, JC d j → JD d j
  jCB : ∀ {d j}, JC d j → JB d j
  jArrD : ∀ {d js}, (∀ j ∈ js, JC d j) → JD d (.arr js)
  jArrB : ∀ {d js}, (∀ j ∈ js, JC d j) → JB d (.arr js)
  jObjD : ∀ {d kvs}, (kvs.map (·.1)).Nodup → (∀ kv ∈ kvs, K kv.1 ∧ JC d kv.2) → JD d (.obj kvs)
  jObjB : ∀ {d kvs}, (kvs.map (·.1)).Nodup → (∀ kv ∈ kvs, K kv.1 ∧ JD d kv.2) → JB d (.obj kvs)
  jDate : ∀ {d c kvs p c' js}, w.handler c = some .datetime → (∀ x ∈ p, x < 128) → (kvs.map (·.1)).Nodup → (∀ kv ∈ kvs, K kv.1 ∧ JD d kv.2) → JC d c' →
    (∀ j ∈ js, JC d j) → JB d (.obj (dset p!"__reduce__" (.arr [c', .arr (.str p :: js)]) kvs))
  kUser : ∀ {s}, scope.S s → Tags.isReserved s = false → K s
  kName : ∀ s ∈ [p!"exemplar", p!"default_factory", p!"__dict__", p!"__reduce__"], K s
  kRepr : ∀ {v s}, scope.On v → (∀ t, v ≠ .str t) → reprKey w v = .ok s → K s
  kEsc : ∀ {d j}, JC d j → K (Tags.JSON_KEY ++ w.dumps j)
  kField : ∀ {a : Addr} {i : Inst} {kv : Str × Val}, scope.On (.ref a) → w.heap[a]? = some (.inst i) → kv ∈ i.hfields → K kv.1
  kTag : cfg.unpicklable = true → ∀ k ∈ [Tags.OBJECT, Tags.FUNCTION, Tags.MODULE, Tags.REDUCE, Tags.SEQ,
    Tags.SET, Tags.TUPLE, Tags.STATE], K k
  kAlways : ∀ k ∈ [Tags.TYPE, Tags.NEWARGS, Tags.NEWARGSEX, Tags.INITARGS, Tags.ITERATOR,
    Tags.DEFAULT_FACTORY], K k

namespace Inv
variable {w : World} {cfg : PCfg} (V : Inv w cfg)

/-- the judgement -/
def T (d : Idx) {α : Type} (x x' : P α) (Q : α → Prop) : Prop :=
  V.wf d → ∀ s t, EqSeen V.exact s t → V.I d s → ∀ r s1, x s = some (r, s1) →
    (∃ t1, EqSeen V.exact s1 t1 ∧ x' t = some (r, t1)) ∧
    (∀ a, r = .ok a → Q a ∧ V.I d s1) ∧ (∀ e, r = .error e → V.Ie d s1)

theorem tPure {d} {α : Type} {Q : α → Prop} {a : α} (h : Q a) : V.T d (Pure.pure a) (Pure.pure a) Q := by
  intro hw s t hst hI r s1 hx
  simp only [pure_run, Option.some.injEq, Prod.mk.injEq] at hx
  obtain ⟨rfl, rfl⟩ := hx
  exact ⟨⟨t, hst, rfl⟩, fun b hb => by cases hb; exact ⟨h, hI⟩, fun e he => by cases he⟩

theorem tBind {d} {α β : Type} {x x' : P α} {f f' : α → P β} {Q : α → Prop} {R : β → Prop}
    (hx : V.T d x x' Q) (hf : ∀ a, Q a → V.T d (f a) (f' a) R) : V.T d (x >>= f) (x' >>= f') R := by
  intro hw s t hst hI r s1 h
  rw [bind_run] at h
  rw [bind_run]
  match hxs : x s with
  | none => rw [hxs] at h; cases h
  | some (.error e, s2) =>
    rw [hxs] at h
    cases h
    obtain ⟨⟨t1, h1, h2⟩, _, h4⟩ := hx hw s t hst hI _ _ hxs
    rw [h2]
    exact ⟨⟨t1, h1, rfl⟩, (fun b hb => by cases hb), fun e' he => by cases he; exact h4 e rfl⟩
  | some (.ok a, s2) =>
    rw [hxs] at h
    obtain ⟨⟨t1, h1, h2⟩, h3, _⟩ := hx hw s t hst hI _ _ hxs
    rw [h2]
    obtain ⟨hQ, hI2⟩ := h3 a rfl
    exact hf a hQ hw s2 t1 h1 hI2 r s1 h

theorem tOfExcept {d} {α : Type} {r : Except Exc α} {Q : α → Prop} (h : ∀ a, r = .ok a → Q a) :
    V.T d (PyM.ofExcept r) (PyM.ofExcept r) Q := by
  intro hw s t hst hI r' s1 hx
  simp only [ofExcept_run, Option.some.injEq, Prod.mk.injEq] at hx
  obtain ⟨rfl, rfl⟩ := hx
  exact ⟨⟨t, hst, rfl⟩, fun b hb => ⟨h b hb, hI⟩, fun e he => V.IIe hI⟩

theorem tTry {d} {α : Type} {x x' : P α} {p : Exc → Bool} {h h' : Exc → P α} {Q : α → Prop}
    (hc : ∀ {s}, (∃ e, p e = true) → V.Ie d s → V.I d s)
    (hx : V.T d x x' Q) (hh : ∀ e, p e = true → V.T d (h e) (h' e) Q) :
    V.T d (PyM.tryCatch x p h) (PyM.tryCatch x' p h') Q := by
  intro hw s t hst hI r s1 hr
  unfold PyM.tryCatch at hr ⊢
  match hxs : x s with
  | none => rw [hxs] at hr; cases hr
  | some (.ok a, s2) =>
    rw [hxs] at hr
    cases hr
    obtain ⟨⟨t1, h1, h2⟩, h3, _⟩ := hx hw s t hst hI _ _ hxs
    rw [h2]
    exact ⟨⟨t1, h1, rfl⟩, h3, fun e he => by cases he⟩
  | some (.error e, s2) =>
    rw [hxs] at hr
    obtain ⟨⟨t1, h1, h2⟩, _, h4⟩ := hx hw s t hst hI _ _ hxs
    rw [h2]
    simp only at hr ⊢
    split at hr
    · next hp =>
      rw [if_pos hp]
      exact hh e hp hw s2 t1 h1 (hc ⟨e, hp⟩ (h4 e rfl)) r s1 hr
    · next hp =>
      rw [if_neg hp]
      cases hr
      exact ⟨⟨t1, h1, rfl⟩, (fun b hb => by cases hb), fun e' he => h4 e' he⟩

theorem tMkref {d : Idx} {i : Ident} (ho : d.Owns w i) : V.T d (mkref cfg i) (mkref cfg i) (fun b => b = true ∨ V.RefOk) := by
  unfold mkref
  refine V.tBind (Q := fun _ => True) ?_ (fun b _ => V.tPure ?_)
  · intro hw s t hst hI r s1 hr
    unfold logRef at hr ⊢
    rw [hst.2.1]
    split at hr
    · next h =>
      cases hr
      rw [if_pos h]
      exact ⟨⟨t, hst, rfl⟩, fun _ _ => ⟨trivial, hI⟩, fun e he => by cases he⟩
    · next h =>
      cases hr
      rw [if_neg h]
      refine ⟨⟨_, ?_, rfl⟩, fun _ _ => ⟨trivial, V.log hw hI ho (by simpa using h)⟩, fun e he => by cases he⟩
      exact ⟨hst.1, rfl, hst.2.2⟩
  · cases hu : cfg.unpicklable
    · simp
    · cases hm : cfg.makeRefs
      · simp
      · exact .inr (V.refOk hu hm)

/-- register, and either go on or write a reference -/
theorem tRefOr {d : Idx} {i : Ident} {α : Type} {x x' : P α} {g g' : Json → P α} {Q : α → Prop} (ho : d.Owns w i) (hx : V.T d x x' Q)
    (hg : ∀ j, V.JB d j ∧ V.JD d j → V.T d (g j) (g' j) Q) :
    V.T d (mkref cfg i >>= fun new => if new then x else getref i >>= g) (mkref cfg i >>= fun new => if new then x' else getref i >>= g') Q := by
  cases hc : (!cfg.unpicklable || !cfg.makeRefs) with
  | true =>
    refine V.tBind (Q := fun b => b = true) ?_ (fun b hb => by subst hb; exact hx)
    intro hw s t hst hI r s1 hr
    obtain ⟨h1, h2, h3⟩ := V.tMkref ho hw s t hst hI r s1 hr
    refine ⟨h1, fun a ha => ⟨?_, (h2 a ha).2⟩, h3⟩
    subst ha
    unfold mkref at hr
    rw [bind_run] at hr
    split at hr
    · cases hr
    · cases hr
    · simp only [hc, Bool.true_or, pure_run, Option.some.injEq, Prod.mk.injEq, Except.ok.injEq] at hr
      exact hr.1.symm
  | false =>
    have hro : V.RefOk := by
      simp only [Bool.or_eq_false_iff, Bool.not_eq_false'] at hc
      exact V.refOk hc.1 hc.2
    have old : ∀ s : PState, s.objs.contains i = true → Pickler.mkref cfg i s = some (.ok false, s) := by
      intro s h
      unfold Pickler.mkref
      rw [bind_run]
      unfold logRef
      rw [if_pos h]
      simp [hc]
    have new : ∀ s : PState, s.objs.contains i = false → Pickler.mkref cfg i s = some (.ok true, { s with objs := s.objs ++ [i] }) := by
      intro s h
      unfold Pickler.mkref
      rw [bind_run]
      unfold logRef
      rw [if_neg (by rw [h]; decide)]
      simp
    intro hw s t hst hI r s1 hr
    by_cases h : s.objs.contains i = true
    · have h' : t.objs.contains i = true := by rw [hst.2.1]; exact h
      have hget : ∀ s : PState, s.objs.contains i = true → Pickler.getref i s = some (.ok (.obj [(Tags.ID, .int (s.objs.idxOf i))]), s) := by
        intro s h
        unfold getref
        simp [List.contains_iff_mem.1 h]
      rw [bind_ok (old s h)] at hr
      rw [bind_ok (old t h')]
      simp only [Bool.false_eq_true, if_false] at hr ⊢
      rw [bind_ok (hget s h)] at hr
      rw [bind_ok (hget t h'), hst.2.1]
      exact hg _ (V.ref hro hI (List.idxOf_lt_length_of_mem (List.contains_iff_mem.1 h))) hw s t hst hI r s1 hr
    · have h0 : s.objs.contains i = false := by simpa using h
      have h' : t.objs.contains i = false := by rw [hst.2.1]; exact h0
      rw [bind_ok (new s h0)] at hr
      rw [bind_ok (new t h')]
      simp only [if_true] at hr ⊢
      exact hx hw { s with objs := s.objs ++ [i] } { t with objs := t.objs ++ [i] } ⟨hst.1, by simp [hst.2.1], hst.2.2⟩ (V.log hw hI ho (by simpa using h)) r s1 hr

theorem tMax {d : Idx} : V.T d (maxReached cfg) (maxReached cfg) 
    (fun b => V.tracksDepth → b = (some d.depth == cfg.maxDepth)) := by
  intro hw s t hst hI r s1 hr
  unfold maxReached at hr ⊢
  simp only [gets_run] at hr ⊢
  cases hr
  rw [hst.1]
  exact ⟨⟨t, hst, rfl⟩, fun j hj => by cases hj; exact ⟨fun ht => by rw [V.depthEq ht hI], hI⟩, fun e he => by cases he⟩

theorem tCycle {d} {i : Ident} {e m r : Bool} :
    V.T d (inCycle i e m r) (inCycle i e m r) (fun b => m = true → e = false → b = true) := by
  intro hw s t hst hI r' s1 hr
  unfold inCycle at hr ⊢
  cases hr
  rw [hst.2.1]
  refine ⟨⟨t, hst, rfl⟩, fun j hj => ⟨?_, hI⟩, fun e he => by cases he⟩
  cases hj
  rintro rfl rfl
  simp

theorem tCached {d} {id : Ident} {x x' : P Json} (hx : V.T d x x' (V.JC d))
    (ho : ∀ s j s1, V.wf d → V.I d s → x s = some (.ok j, s1) →
      (∃ v, Own w v id ∧ V.InSeen d s1 v) ∨ (∃ i, id = .inl i)) :
    V.T d (cached cfg id x) (cached cfg id x') (V.JC d) := by
  unfold cached
  split
  · exact hx
  · next hc =>
    have hc' : ¬ (cfg.unpicklable = true ∧ cfg.makeRefs = true) := by simpa using hc
    intro hw s t hst hI r s1 hr
    rw [bind_ok (get_run s)] at hr
    rw [bind_ok (get_run t), hst.2.2.1]
    cases hf : s.flattened.find? (fun p => p.1 == id) with
    | some p =>
      rw [hf] at hr
      simp only [pure_run] at hr ⊢
      cases hr
      refine ⟨⟨t, hst, rfl⟩, fun j hj => ⟨?_, hI⟩, fun e he => by cases he⟩
      cases hj
      exact V.stored hc' hI (List.mem_of_find?_eq_some hf)
    | none =>
      rw [hf] at hr
      simp only at hr ⊢
      rw [bind_run] at hr ⊢
      match hxs : x s with
      | none => rw [hxs] at hr; cases hr
      | some (.error e, s2) =>
        rw [hxs] at hr
        cases hr
        obtain ⟨⟨t1, h1, h2⟩, _, h4⟩ := hx hw s t hst hI _ _ hxs
        rw [h2]
        exact ⟨⟨t1, h1, rfl⟩, (fun b hb => by cases hb), h4⟩
      | some (.ok j, s2) =>
        rw [hxs] at hr
        obtain ⟨⟨t1, h1, h2⟩, h3, _⟩ := hx hw s t hst hI _ _ hxs
        rw [h2]
        obtain ⟨hj, hI2⟩ := h3 j rfl
        simp only [bind_run, modify_run, pure_run] at hr ⊢
        cases hr
        refine ⟨⟨_, ?_, rfl⟩, fun a ha => ?_, fun e he => by cases he⟩
        · exact ⟨h1.1, h1.2.1, by rw [h1.2.2.1], h1.2.2.2⟩
        · cases ha
          exact ⟨hj, V.store hc' hw hI2 hj (ho s j s2 hw hI hxs)⟩

/-- `_flatten_obj` after the bookkeeping -/
def objInner (cfg : PCfg) (id : Ident) (e : Bool) (rep : Except Exc Str) (body : P Json) : P Json := do
  let max ← maxReached cfg
  PyM.tryCatch
    (do
      let cyc ← Pickler.inCycle id e max cfg.makeRefs
      if cyc then do
        let r ← PyM.ofExcept rep
        Pure.pure (.str r)
      else body)
    (fun e => e.isException && cfg.failSafe.isSome)
    (fun e => match cfg.failSafe with
      | some f => PyM.ofExcept (f e)
      | none => PyM.throw e)

theorem tObjWith {d : Idx} {v : Val} {id : Ident} {e : Bool} {rep : Except Exc Str} {body body' : P Json}
    (he : e = true → HasEnum w V.scope.On) (hr : ∀ s, rep = .ok s → V.scope.S s) (hb : V.T (d.child v) body body' (V.JB (d.child v))) :
    V.T (d.child v) (objInner cfg id e rep body) (objInner cfg id e rep body') (V.JC d) := by
  refine V.tBind V.tMax (fun m hm => V.tTry ?_ ?_ ?_)
  · rintro s ⟨e, he⟩ hI
    simp only [Bool.and_eq_true] at he
    exact V.failSafe he.2 hI
  · refine V.tBind V.tCycle (fun c hc => ?_)
    by_cases hcc : c = true
    · subst hcc
      simp only [if_true]
      exact V.tBind (Q := V.scope.S) (V.tOfExcept hr) (fun _ hs => V.tPure (V.jStr hs))
    · simp only [if_neg hcc]
      have hmd : V.tracksDepth → some (d.depth + 1) ≠ cfg.maxDepth ∨ HasEnum w V.scope.On := by
        intro ht
        by_cases hmd : some (d.depth + 1) = cfg.maxDepth
        · have : m = true := by rw [hm ht]; simpa [Idx.child] using hmd
          cases hee : e with
          | true => exact .inr (he hee)
          | false => exact absurd (hc this hee) hcc
        · exact .inl hmd
      intro hw s t hst hI r s1 hr
      obtain ⟨h1, h2, h3⟩ := hb hw s t hst hI r s1 hr
      exact ⟨h1, fun a ha => ⟨V.jBC (h2 a ha).1 hmd, (h2 a ha).2⟩, h3⟩
  · intro e he
    simp only [Bool.and_eq_true] at he
    cases hf : cfg.failSafe with
    | none => rw [hf] at he; simp at he
    | some f => exact V.tOfExcept (fun j hj => V.jSafe hf hj)

theorem tLevel {d : Idx} {v : Val} {id : Ident} {e : Bool} {rep : Except Exc Str} {body body' : P Json}
    (hv : V.scope.On v ∧ Boxed v) (he : e = true → HasEnum w V.scope.On) (hrep : ∀ s, rep = .ok s → V.scope.S s) (ho : Own w v id) (hb : V.T (d.child v) body body' (V.JB (d.child v))) :
    V.T d (level cfg v id e rep body) (level cfg v id e rep body') (V.JC d) := by
  unfold level
  have key := V.tObjWith (id := id) (rep := rep) he hrep hb
  refine V.tCached ?_ ?_
  · intro hw s t hst hI r s1 hr
    change (objInner cfg id e rep body >>= Pickler.pop)
      { s with depth := s.depth + 1, seen := s.seen ++ [v] } = _ at hr
    change (∃ t1, EqSeen V.exact s1 t1 ∧ (objInner cfg id e rep body' >>= Pickler.pop)
      { t with depth := t.depth + 1, seen := t.seen ++ [v] } = _) ∧ _
    rw [bind_run] at hr ⊢
    have hst' : EqSeen V.exact { s with depth := s.depth + 1, seen := s.seen ++ [v] }
        { t with depth := t.depth + 1, seen := t.seen ++ [v] } := ⟨by simp [hst.1], hst.2.1, hst.2.2.1, fun h => by simp [hst.2.2.2 h]⟩
    have key' := key (V.wfChild hv hw) _ _ hst' (V.push hw hI)
    split at hr
    · cases hr
    · next e' s2 h =>
      cases hr
      obtain ⟨⟨t1, h1, h2⟩, _, h3⟩ := key' _ _ h
      rw [h2]
      exact ⟨⟨t1, h1, rfl⟩, (fun b hb => by cases hb), fun e he => V.popE hw (h3 e he)⟩
    · next j s2 h =>
      obtain ⟨⟨t1, h1, h2⟩, h3, _⟩ := key' _ _ h
      rw [h2]
      obtain ⟨hj, hI2⟩ := h3 j rfl
      simp only [Pickler.pop] at hr ⊢
      cases hr
      refine ⟨⟨_, ?_, rfl⟩, fun a ha => ?_, fun e he => by cases he⟩
      · rw [h1.1]
        split
        · exact EqSeen.rfl
        · exact ⟨rfl, h1.2.1, h1.2.2⟩
      · cases ha
        exact ⟨hj, V.pop hw hI2⟩
  · intro s j s1 hw hI hr
    refine .inl ⟨v, ho, ?_⟩
    change (objInner cfg id e rep body >>= Pickler.pop)
      { s with depth := s.depth + 1, seen := s.seen ++ [v] } = _ at hr
    rw [bind_run] at hr
    have key' := key (V.wfChild hv hw) _ _ EqSeen.rfl (V.push (v := v) hw hI)
    split at hr
    · cases hr
    · cases hr
    · next j s2 h =>
      obtain ⟨_, h3, _⟩ := key' _ _ h
      obtain ⟨hj, hI2⟩ := h3 j rfl
      simp only [Pickler.pop] at hr
      cases hr
      exact V.popSeen hw hI2

/-- The invariant as an instance of the program logic. -/
def logic : Logic w cfg where
  T := V.T
  JC := V.JC
  JD := V.JD
  JB := V.JB
  K := V.K
  RefOk := V.RefOk
  V := V.scope.On
  R := V.scope.On
  rv := id
  S := V.scope.S
  pure := V.tPure
  bind := V.tBind
  ofExcept := V.tOfExcept
  tryCatch hc _ _ _ _ _ _ _ _ hx hh := V.tTry (fun _ h => V.catches hc h) hx (fun e _ => hh e)
  mkref := V.tMkref
  refOr := V.tRefOr
  maxReached := fun {_} hw s t hst hI r s1 hr =>
    let ⟨h1, h2, h3⟩ := V.tMax hw s t hst hI r s1 hr
    ⟨h1, fun a ha => ⟨trivial, (h2 a ha).2⟩, h3⟩
  inCycle := fun {_ _ _ _ _} hw s t hst hI r s1 hr =>
    let ⟨h1, h2, h3⟩ := V.tCycle hw s t hst hI r s1 hr
    ⟨h1, fun a ha => ⟨trivial, (h2 a ha).2⟩, h3⟩
  level := V.tLevel
  leafBytes := V.tCached (V.tPure (by unfold flattenBytestring; split; exact V.jB85; exact V.jB64))
    (fun _ _ _ _ _ _ => .inr ⟨_, rfl⟩)
  leafBytearray := V.tCached (V.tPure (by unfold flattenBytestring; split; exact V.jBa85; exact V.jBa64))
    (fun _ _ _ _ _ _ => .inr ⟨_, rfl⟩)
  jNull := V.jNull
  jBool := V.jBool
  jInt := V.jInt
  jFloat := V.jFloat
  jStr := V.jStr
  jCD := V.jCD
  jCB := V.jCB
  jArrD := V.jArrD
  jArrB := V.jArrB
  jObjD := V.jObjD
  jObjB := V.jObjB
  jDate := V.jDate
  vNone := V.scope.none
  vNewobj := V.scope.newobj
  sVal := V.scope.sVal
  sType := V.scope.sType
  sFunc := V.scope.sFunc
  sModule := V.scope.sModule
  sClass := V.scope.sClass
  sClone := V.scope.sClone
  sRepr := V.scope.sRepr
  sPystr := V.scope.sPystr
  kUser := V.kUser
  kName := V.kName
  kRepr := V.kRepr
  kEsc := V.kEsc
  kField := V.kField
  kObject h := V.kTag h _ (by simp)
  kFunction h := V.kTag h _ (by simp)
  kModule h := V.kTag h _ (by simp)
  kReduce h := V.kTag h _ (by simp)
  kSeq h := V.kTag h _ (by simp)
  kSet h := V.kTag h _ (by simp)
  kTuple h := V.kTag h _ (by simp)
  kState h := V.kTag h _ (by simp)
  kType := V.kAlways _ (by simp)
  kNewargs := V.kAlways _ (by simp)
  kNewargsex := V.kAlways _ (by simp)
  kInitargs := V.kAlways _ (by simp)
  kIterator := V.kAlways _ (by simp)
  kDefault := V.kAlways _ (by simp)

/-- The invariant and the output predicate hold for every run of `_flatten`, the run does not depend on
`_seen`, and it is the same with more fuel. -/
theorem flatten (n k : Nat) (d : Idx) (v : Val) (hv : V.scope.On v) :
    V.T d (Pickler.flatten w cfg n v) (Pickler.flatten w cfg (n + k) v) (V.JC d) :=
  V.logic.flatten_add (fun _ hv _ ht => V.scope.touch hv ht) k
    (fun d v _ _ s t _ _ r s1 h => by simp [Pickler.flatten] at h) n d v hv

theorem flatten_ok {n : Nat} {d : Idx} {v : Val} {s s1 : PState} {j : Json} (hv : V.scope.On v) (hw : V.wf d) (hI : V.I d s)
    (h : Pickler.flatten w cfg n v s = some (.ok j, s1)) : V.JC d j ∧ V.I d s1 :=
  (V.flatten n 0 d v hv hw s s EqSeen.rfl hI _ _ h).2.1 j rfl

end Inv
end JP.Pickler
