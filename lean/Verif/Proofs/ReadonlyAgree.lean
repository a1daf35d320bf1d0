import Verif.Proofs.ReadonlyInv
/-!
# The encoder with the heap in the state agrees with the encoder of `Verif/Pickler.lean`

Without `handle_readonly`, sorted keys and iterators nothing is written to the heap, and the two models produce the same
document, or the same exception.
-/
namespace JP.Readonly
open JP PyM

variable {h : Heap} {cfg : RCfg} {α β γ : Type}

/-- the world, with the given heap -/
def RCfg.pworld (cfg : RCfg) (h : Heap) : World := { cfg.world with heap := h }

/-- no iterators, no `__dict__` that is an object of the graph, and no attribute twice -/
def Still (h : Heap) : Prop := ∀ (a : Nat) (i : Inst), h[a]? = some (.inst i) → i.info.isIterator = false ∧ i.dictCell = none ∧ (i.attrs.map (·.1)).Nodup

/-- what a computation of `Verif/Pickler.lean` does, with the heap `h` -/
def withH (h : Heap) : Option (Except Exc α × PState) → Option (Except Exc α × RState) := Option.map (fun q => (q.1, { heap := h, base := q.2 }))

/-- the two computations do the same, and the heap stays as it is -/
def Sim (h : Heap) (x : R α) (y : P α) : Prop := ∀ p : PState, x { heap := h, base := p } = withH h (y p)

theorem bindAssoc {σ : Type} (x : PyM σ α) (f : α → PyM σ β) (g : β → PyM σ γ) : ((x >>= f) >>= g) = (x >>= fun a => f a >>= g) := by
  funext s
  rw [bind_run, bind_run, bind_run]
  cases x s with
  | none => rfl
  | some p =>
    obtain ⟨r, s'⟩ := p
    cases r with
    | error e => rfl
    | ok a => rfl

theorem dget_nodup : ∀ {l : List (Str × β)}, (l.map (·.1)).Nodup → ∀ {e : Str × β}, e ∈ l → dget e.1 l = some e.2
  | [], _, _, he => by cases he
  | f :: l, hn, e, he => by
    rw [List.map_cons, List.nodup_cons] at hn
    rcases List.mem_cons.1 he with rfl | he'
    · unfold dget
      simp
    · unfold dget
      have : ¬ (f.1 = e.1) := fun hc => hn.1 (hc ▸ List.mem_map_of_mem he')
      simp only [beq_iff_eq, this, if_false]
      exact dget_nodup hn.2 he'

namespace Sim
variable {x x' : R α} {y y' : P α}

theorem pure {a : α} : Sim h (Pure.pure a) (Pure.pure a) := fun _ => rfl

theorem throw {e : Exc} : Sim h (PyM.throw e : R α) (PyM.throw e) := fun _ => rfl

theorem ofExcept {r : Except Exc α} : Sim h (PyM.ofExcept r : R α) (PyM.ofExcept r) := fun _ => rfl

theorem lift {m : P α} : Sim h (lift m) m := fun _ => rfl

theorem bind {u : R β} {v : P β} {f : β → R α} {g : β → P α} (h1 : Sim h u v) (h2 : ∀ b, Sim h (f b) (g b)) : Sim h (u >>= f) (v >>= g) := by
  intro p
  rw [bind_run, bind_run, h1 p]
  cases v p with
  | none => rfl
  | some q =>
    obtain ⟨r, p'⟩ := q
    cases r with
    | error e => rfl
    | ok b => exact h2 b p'

theorem tryCatch {t : Exc → Bool} {f : Exc → R α} {g : Exc → P α} (h1 : Sim h x y) (h2 : ∀ e, Sim h (f e) (g e)) :
    Sim h (PyM.tryCatch x t f) (PyM.tryCatch y t g) := by
  intro p
  unfold PyM.tryCatch
  rw [h1 p]
  cases y p with
  | none => rfl
  | some q =>
    obtain ⟨r, p'⟩ := q
    cases r with
    | ok b => rfl
    | error e =>
      show (if t e = true then f e _ else _) = withH h (if t e = true then g e p' else _)
      split
      · exact h2 e p'
      · rfl

theorem mapM {f : β → R γ} {g : β → P γ} (hf : ∀ b, Sim h (f b) (g b)) : ∀ xs, Sim h (PyM.mapM f xs) (PyM.mapM g xs)
  | [] => Sim.pure
  | x :: xs => (hf x).bind (fun _ => (mapM hf xs).bind (fun _ => Sim.pure))

theorem foldM {f : γ → β → R γ} {g : γ → β → P γ} (hf : ∀ d b, Sim h (f d b) (g d b)) : ∀ (xs : List β) (d : γ), Sim h (PyM.foldM f d xs) (PyM.foldM g d xs)
  | [], _ => Sim.pure
  | x :: xs, d => (hf d x).bind (fun d' => foldM hf xs d')

theorem withHeap {f : Heap → R α} (hf : Sim h (f h) y) : Sim h (Readonly.withHeap f) y := hf

theorem ite {c : Prop} [Decidable c] (h1 : c → Sim h x y) (h2 : ¬ c → Sim h x' y') : Sim h (if c then x else x') (if c then y else y') := by
  split
  · next hc => exact h1 hc
  · next hc => exact h2 hc

end Sim

theorem sim_mkref {id : Ident} : Sim h (mkref cfg id) (Pickler.mkref cfg.opts id) := Sim.lift

theorem sim_getref {id : Ident} : Sim h (getref id) (Pickler.getref id) := Sim.lift

theorem sim_once {id : Ident} {x : R Json} {y : P Json} (hs : Sim h x y) :
    Sim h (once cfg id x) (Pickler.mkref cfg.opts id >>= fun new => if new then y else Pickler.getref id) :=
  sim_mkref.bind (fun _ => Sim.ite (fun _ => hs) (fun _ => sim_getref))

theorem sim_refObj {id : Ident} {en : Bool} {x : R Json} {y : P Json} (hs : Sim h x y) : Sim h (refObjInstance cfg id en x) (Pickler.refObjInstance cfg.opts id en y) := by
  unfold refObjInstance Pickler.refObjInstance
  exact Sim.ite (fun _ => sim_once hs) (fun _ => Sim.lift.bind (fun _ => Sim.lift.bind (fun _ => Sim.ite (fun _ => Sim.pure) (fun _ => sim_mkref.bind (fun _ => hs)))))

theorem sim_obj {x : R Json} {y : P Json} {v : Val} {id : Ident} {en : Bool} {rep : Except Exc Str} (hs : Sim h x y) :
    Sim h (flattenObjWith cfg v id en rep x) (Pickler.flattenObjWith cfg.opts v id en rep y) := by
  refine Sim.lift.bind (fun _ => Sim.lift.bind (fun _ => Sim.tryCatch (Sim.lift.bind (fun _ => Sim.ite (fun _ => Sim.ofExcept.bind (fun _ => Sim.pure)) (fun _ => hs))) (fun e => ?_)))
  cases cfg.opts.failSafe with
  | none => exact Sim.throw
  | some f => exact Sim.ofExcept

theorem sim_cached {id : Ident} {x : R Json} {y : P Json} (hs : Sim h x y) : Sim h (cached cfg id x) (Pickler.cached cfg.opts id y) := by
  unfold cached Pickler.cached
  refine Sim.ite (fun _ => hs) (fun _ => Sim.lift.bind (fun s => ?_))
  cases s.flattened.find? (fun p => p.1 == id) with
  | some p => exact Sim.pure
  | none => exact hs.bind (fun _ => Sim.lift.bind (fun _ => Sim.pure))

theorem sim_nested {x : R Json} {y : P Json} (hs : Sim h x y) : Sim h (nested x) (Pickler.push >>= fun _ => y >>= Pickler.pop) :=
  Sim.lift.bind (fun _ => hs.bind (fun _ => Sim.lift))

section
variable {fl : Val → R Json} {gl : Val → P Json} (hro : cfg.handleReadonly = false) (hsk : cfg.sortKeys = false) (hf : ∀ v, Sim h (fl v) (gl v))
include hro hsk hf

theorem sim_pair {k v : Val} {d : List (Str × Json)} : Sim h (keyValuePair cfg fl k v d) (Pickler.flattenKeyValuePair (cfg.pworld h) gl k v d) := by
  unfold keyValuePair Pickler.flattenKeyValuePair
  refine Sim.ite (fun _ => ?_) (fun _ => Sim.pure)
  have hskip : (skips cfg k v : R Bool) = Pure.pure false := by
    funext s
    unfold skips
    cases k <;> first | rfl | (rw [hro]; rfl)
  rw [hskip]
  show Sim h (PyM.ofExcept (Pickler.reprKey cfg.world k) >>= fun k => fl v >>= fun j => Pure.pure (dset k j d)) _
  exact Sim.ofExcept.bind (fun k => (hf v).bind (fun j => Sim.pure))

theorem sim_escape {k : Val} : Sim h (escapeKey cfg fl k) (Pickler.escapeKey (cfg.pworld h) gl k) := by
  unfold escapeKey sortFirst
  rw [hsk]
  show Sim h (fl k >>= fun j => Pure.pure (Tags.JSON_KEY ++ cfg.world.dumps j)) _
  exact (hf k).bind (fun _ => Sim.pure)

theorem sim_nonString (hk : cfg.opts.keys = true) {k v : Val} {d : List (Str × Json)} :
    Sim h (nonStringPair cfg fl k v d) (Pickler.flattenNonString (cfg.pworld h) cfg.opts gl k v d) := by
  unfold nonStringPair Pickler.flattenNonString
  refine Sim.ite (fun _ => ?_) (fun _ => Sim.pure)
  have hne : Sim h (escapeKey cfg fl k >>= fun k' => fl v >>= fun j => Pure.pure (dset k' j d))
      (if cfg.opts.keys = true then Pickler.escapeKey (cfg.pworld h) gl k >>= fun k' => gl v >>= fun j => Pure.pure (dset k' j d) else Pure.pure d) := by
    rw [if_pos hk]
    exact (sim_escape hro hsk hf).bind (fun _ => (hf v).bind (fun _ => Sim.pure))
  cases k with
  | str s => exact Sim.pure
  | _ => exact hne

theorem sim_string (hk : cfg.opts.keys = true) {k v : Val} {d : List (Str × Json)} :
    Sim h (stringPair cfg fl k v d) (Pickler.flattenString (cfg.pworld h) cfg.opts gl k v d) := by
  unfold stringPair Pickler.flattenString Pickler.flattenStringTail
  rw [hk]
  cases k with
  | str s =>
    simp only [Bool.and_true, if_true]
    refine Sim.ite (fun _ => (hf v).bind (fun _ => (sim_escape hro hsk hf).bind (fun _ => Sim.pure))) (fun _ => ?_)
    exact Sim.ite (fun _ => (hf v).bind (fun _ => Sim.pure)) (fun _ => Sim.pure)
  | _ =>
    simp only [if_true]
    split <;> exact Sim.pure

theorem sim_entries {kvs : List (Val × Val)} {excl : List Str} {d : List (Str × Json)} :
    Sim h (entries cfg fl kvs excl d) (Pickler.flattenEntries (cfg.pworld h) cfg.opts gl kvs excl d) := by
  unfold entries Pickler.flattenEntries
  exact Sim.ite (fun hk => (Sim.foldM (fun _ _ => sim_string hro hsk hf hk) _ _).bind (fun _ => Sim.foldM (fun _ _ => sim_nonString hro hsk hf hk) _ _))
    (fun _ => Sim.foldM (fun _ _ => sim_pair hro hsk hf) _ _)

/-- the first pass over the attributes -/
def firstOf (cfg : RCfg) (h : Heap) (gl : Val → P Json) (d : List (Str × Json)) (kv : Val × Val) : P (List (Str × Json)) :=
  if cfg.opts.keys then Pickler.flattenString (cfg.pworld h) cfg.opts gl kv.1 kv.2 d else Pickler.flattenKeyValuePair (cfg.pworld h) gl kv.1 kv.2 d

theorem sim_attrLoop {a : Addr} {i : Inst} {excl : List Str} (hi : h[a]? = some (.inst i)) :
    ∀ (es : List (Str × Val)) (d : List (Str × Json)), (∀ e ∈ es, dget e.1 i.attrs = some e.2) →
    Sim h (attrLoop cfg fl a excl i.attrs.length (es.map (·.1)) d) (PyM.foldM (firstOf cfg h gl) d (Pickler.itemsExcl excl (Pickler.asItems es)))
  | [], d, _ => by
    intro p
    show attrLoop cfg fl a excl i.attrs.length [] d _ = _
    unfold attrLoop
    rw [bind_run]
    unfold attrsNow
    simp only [hi, beq_self_eq_true, if_true]
    rfl
  | e :: es, d, he => by
    have ih := fun d => sim_attrLoop (excl := excl) hi es d (fun e' h' => he e' (List.mem_cons_of_mem _ h'))
    have hrun : ∀ p, attrLoop cfg fl a excl i.attrs.length ((e :: es).map (·.1)) d { heap := h, base := p } =
        (if excl.contains e.1 then attrLoop cfg fl a excl i.attrs.length (es.map (·.1)) d
         else firstPair cfg fl (.str e.1) e.2 d >>= fun d => attrLoop cfg fl a excl i.attrs.length (es.map (·.1)) d) { heap := h, base := p } := by
      intro p
      show attrLoop cfg fl a excl i.attrs.length (e.1 :: es.map (·.1)) d _ = _
      conv => lhs; unfold attrLoop
      rw [bind_run]
      unfold attrsNow
      simp only [hi, beq_self_eq_true, if_true]
      split
      · rfl
      · rw [he e (List.mem_cons_self ..)]
    intro p
    rw [hrun p]
    have hitems : Pickler.itemsExcl excl (Pickler.asItems (e :: es)) =
        if excl.contains e.1 then Pickler.itemsExcl excl (Pickler.asItems es) else (.str e.1, e.2) :: Pickler.itemsExcl excl (Pickler.asItems es) := by
      show List.filter _ ((Val.str e.1, e.2) :: Pickler.asItems es) = _
      rw [List.filter_cons]
      show (if (!excl.contains e.1) = true then _ else _) = _
      cases excl.contains e.1 <;> rfl
    rw [hitems]
    split
    · exact ih d p
    · refine Sim.bind (v := firstOf cfg h gl d (.str e.1, e.2)) ?_ (fun d' => ih d') p
      unfold firstPair firstOf
      exact Sim.ite (fun hk => sim_string hro hsk hf hk) (fun _ => sim_pair hro hsk hf)

omit hro hsk hf in
/-- the second pass does nothing for names -/
theorem nonString_names {excl : List Str} : ∀ (es : List (Str × Val)) (d : List (Str × Json)),
    PyM.foldM (fun d (kv : Val × Val) => Pickler.flattenNonString (cfg.pworld h) cfg.opts gl kv.1 kv.2 d) d (Pickler.itemsExcl excl (Pickler.asItems es)) = Pure.pure d
  | [], _ => rfl
  | e :: es, d => by
    have ih := nonString_names (excl := excl) es d
    show PyM.foldM _ d (List.filter _ ((Val.str e.1, e.2) :: Pickler.asItems es)) = _
    rw [List.filter_cons]
    show PyM.foldM _ d (if (!excl.contains e.1) = true then _ else _) = _
    split
    · show (Pickler.flattenNonString (cfg.pworld h) cfg.opts gl (.str e.1) e.2 d >>= fun d => PyM.foldM _ d _) = _
      have : Pickler.flattenNonString (cfg.pworld h) cfg.opts gl (.str e.1) e.2 d = Pure.pure d := by
        unfold Pickler.flattenNonString
        split <;> rfl
      rw [this]
      exact ih
    · exact ih

theorem sim_ownAttrs {a : Addr} {i : Inst} {excl : List Str} {d : List (Str × Json)} (hS : Still h) (hi : h[a]? = some (.inst i)) :
    Sim h (ownAttrs cfg fl a excl d) (Pickler.flattenEntries (cfg.pworld h) cfg.opts gl (Pickler.dictItems (cfg.pworld h) i) excl d) := by
  obtain ⟨_, hdc, hnd⟩ := hS a i hi
  have hitems : Pickler.dictItems (cfg.pworld h) i = Pickler.asItems i.attrs := by
    unfold Pickler.dictItems
    rw [hdc]
  have hfold : Pickler.flattenEntries (cfg.pworld h) cfg.opts gl (Pickler.asItems i.attrs) excl d = PyM.foldM (firstOf cfg h gl) d (Pickler.itemsExcl excl (Pickler.asItems i.attrs)) := by
    unfold Pickler.flattenEntries firstOf
    cases cfg.opts.keys with
    | false => rfl
    | true =>
      simp only [if_true]
      funext p
      rw [bind_run]
      cases PyM.foldM (fun d (kv : Val × Val) => Pickler.flattenString (cfg.pworld h) cfg.opts gl kv.1 kv.2 d) d (Pickler.itemsExcl excl (Pickler.asItems i.attrs)) p with
      | none => rfl
      | some q =>
        obtain ⟨r, p'⟩ := q
        cases r with
        | error e => rfl
        | ok d' =>
          simp only []
          rw [nonString_names]
          rfl
  rw [hitems, hfold]
  intro p
  have hrun : ownAttrs cfg fl a excl d { heap := h, base := p } = attrLoop cfg fl a excl i.attrs.length (i.attrs.map (·.1)) d { heap := h, base := p } := by
    unfold ownAttrs
    rw [bind_run]
    unfold attrsNow
    simp only [hi]
  rw [hrun]
  exact sim_attrLoop hro hsk hf hi i.attrs d (fun e he => dget_nodup hnd he) p

theorem sim_default {i : Inst} {d : List (Str × Json)} :
    Sim h (flattenDefault cfg fl i d) (Pickler.flattenDefault (cfg.pworld h) cfg.opts gl i.factory (outcome i.errs.factory i.exemplar) d) := by
  unfold flattenDefault Pickler.flattenDefault
  cases i.factory with
  | none => exact Sim.pure
  | some f =>
    refine Sim.bind ?_ (fun _ => Sim.pure)
    have hnew : Sim h (mkref cfg f.ident >>= fun new => if new then (PyM.ofExcept (outcome i.errs.factory i.exemplar) >>= fun x =>
          entries cfg fl [(.str p!"exemplar", x)] [] (if cfg.opts.unpicklable then [(Tags.OBJECT, .str Pickler.CLONE)] else []) >>= fun d => Pure.pure (Json.obj d)) else getref f.ident)
        (Pickler.mkref cfg.opts f.ident >>= fun new => if new then (PyM.ofExcept (outcome i.errs.factory i.exemplar) >>= fun x =>
          Pickler.flattenClone (cfg.pworld h) cfg.opts gl x) else Pickler.getref f.ident) := by
      refine sim_mkref.bind (fun new => Sim.ite (fun _ => Sim.ofExcept.bind (fun x => ?_)) (fun _ => sim_getref))
      exact (sim_entries hro hsk hf).bind (fun _ => Sim.pure)
    cases f with
    | type n => exact Sim.pure
    | _ => exact hnew

theorem sim_objAttrs {i : Inst} {lookup : R (List (Str × Val))} {now : List (Str × Val)} {names : List Str} {d : List (Str × Json)}
    (hl : ∀ s, s.heap = h → lookup s = some (.ok now, s)) :
    Sim h (objAttrs cfg fl i lookup names d) (Pickler.flattenObjAttrs (cfg.pworld h) gl i now names d) := by
  unfold objAttrs Pickler.flattenObjAttrs
  refine Sim.foldM (fun acc k => ?_) _ _
  unfold objAttr
  refine Sim.ite (fun _ => Sim.pure) (fun _ => Sim.tryCatch ?_ (fun _ => Sim.pure))
  intro p
  rw [bind_run, hl _ rfl]
  exact (Sim.ofExcept.bind (fun v => (sim_pair hro hsk hf).bind (fun _ => Sim.pure))) p

theorem sim_rest {a : Addr} {i : Inst} {d : List (Str × Json)} (hS : Still h) (hi : h[a]? = some (.inst i)) :
    Sim h (flattenRest cfg fl a i d) (Pickler.flattenRest (cfg.pworld h) cfg.opts gl a i d) := by
  have hseq : Sim h (flattenSequence cfg fl a i d) (Pickler.flattenSequence (cfg.pworld h) cfg.opts gl i d) := by
    unfold flattenSequence Pickler.flattenSequence Pickler.flattenSeqAttrs
    dsimp only
    split
    · exact (sim_ownAttrs hro hsk hf hS hi).bind (fun _ => (Sim.mapM hf _).bind (fun _ => Sim.ite (fun _ => Sim.pure) (fun _ => Sim.pure)))
    · exact Sim.pure.bind (fun _ => (Sim.mapM hf _).bind (fun _ => Sim.ite (fun _ => Sim.pure) (fun _ => Sim.pure)))
  unfold flattenRest Pickler.flattenRest
  cases i.info.base with
  | dict =>
    show Sim h _ ((Pickler.flattenEntries (cfg.pworld h) cfg.opts gl i.items i.exclude d >>= fun d =>
      Pickler.flattenDefault (cfg.pworld h) cfg.opts gl i.factory (outcome i.errs.factory i.exemplar) d >>= fun d =>
      Pickler.flattenOwnDict (cfg.pworld h) cfg.opts gl a i i.exclude d) >>= fun d => Pure.pure (Json.obj d))
    rw [bindAssoc]
    refine (sim_entries hro hsk hf).bind (fun d1 => ?_)
    rw [bindAssoc]
    refine (sim_default hro hsk hf).bind (fun d2 => Sim.bind ?_ (fun _ => Sim.pure))
    unfold flattenOwnDict Pickler.flattenOwnDict
    rw [show Pickler.dictIdent a i = .dictOf a from by unfold Pickler.dictIdent; rw [(hS a i hi).2.1]]
    exact Sim.ite (fun _ => sim_mkref.bind (fun new => Sim.ite (fun _ => (sim_ownAttrs hro hsk hf hS hi).bind (fun _ => Sim.pure)) (fun _ => sim_getref.bind (fun _ => Sim.pure))))
      (fun _ => Sim.pure)
  | list => exact hseq
  | set => exact hseq
  | tuple => exact hseq
  | plain =>
    simp only [(hS a i hi).1, Bool.false_eq_true, if_false]
    refine Sim.ite (fun _ => (sim_ownAttrs hro hsk hf hS hi).bind (fun _ => Sim.pure)) (fun _ => Sim.ite (fun _ => ?_) (fun _ => Sim.ite (fun _ => Sim.pure) (fun _ => Sim.ite (fun _ => Sim.pure) (fun _ => ?_))))
    · unfold flattenSlots Pickler.flattenSlots
      refine Sim.bind (sim_objAttrs hro hsk hf (fun s h1 => ?_)) (fun r => Sim.ite (fun _ => Sim.pure) (fun _ => ?_))
      · unfold attrsNow
        rw [h1, hi]
      · exact (sim_objAttrs hro hsk hf (fun _ _ => rfl)).bind (fun _ => Sim.pure)
    · generalize (if i.info.reduces then i.reduce else ReduceVal.nothing) = rv
      cases rv with
      | tup xs => exact Sim.withHeap (Sim.ite (fun _ => hf _) (fun _ => Sim.ite (fun _ => hf _) (fun _ => Sim.pure)))
      | raise e => exact Sim.ite (fun _ => Sim.pure) (fun _ => Sim.throw)
      | nothing => exact Sim.pure
      | str _ => exact Sim.pure

theorem sim_body {a : Addr} {i : Inst} (hS : Still h) (hi : h[a]? = some (.inst i)) :
    Sim h (flattenBody cfg fl a i) (Pickler.flattenBody (cfg.pworld h) cfg.opts gl a i) := by
  have hrest := fun d => sim_rest (d := d) hro hsk hf hS hi
  have hget : ∀ d, Sim h (flattenGetstate cfg fl a i d) (Pickler.flattenGetstate (cfg.pworld h) cfg.opts gl a i d) := by
    intro d
    unfold flattenGetstate Pickler.flattenGetstate
    refine Sim.ite (fun _ => ?_) (fun _ => hrest d)
    cases i.state with
    | error e => exact Sim.ite (fun _ => Sim.pure) (fun _ => Sim.throw)
    | ok st =>
      refine Sim.withHeap ?_
      show Sim h _ (match stateEntries h i st with
        | some kvs =>
          if (Pickler.itemsExcl i.exclude kvs).isEmpty then Pickler.flattenRest (cfg.pworld h) cfg.opts gl a i d
          else Pickler.flattenFilteredState (cfg.pworld h) cfg.opts gl a kvs i.exclude >>= fun j => Pure.pure (Pickler.putState cfg.opts j d)
        | none =>
          if truthy h st then gl st >>= fun j => Pure.pure (Pickler.putState cfg.opts j d)
          else Pickler.flattenRest (cfg.pworld h) cfg.opts gl a i d)
      cases stateEntries h i st with
      | some kvs =>
        refine Sim.ite (fun _ => hrest d) (fun _ => Sim.bind ?_ (fun _ => Sim.pure))
        exact sim_cached (sim_nested (sim_obj (sim_once ((sim_entries hro hsk hf).bind (fun _ => Sim.pure)))))
      | none => exact Sim.ite (fun _ => (hf st).bind (fun _ => Sim.pure)) (fun _ => hrest d)
  unfold flattenBody Pickler.flattenBody
  refine Sim.bind ?_ (fun d => Sim.bind ?_ hget)
  · unfold flattenNewargs Pickler.flattenNewargs
    exact Sim.ite (fun _ => Sim.ofExcept.bind (fun _ => (hf _).bind (fun _ => (hf _).bind (fun _ => Sim.pure))))
      (fun _ => Sim.ite (fun _ => Sim.ofExcept.bind (fun _ => (hf _).bind (fun _ => Sim.pure))) (fun _ => Sim.pure))
  · unfold flattenInitargs Pickler.flattenInitargs
    exact Sim.ite (fun _ => Sim.ofExcept.bind (fun _ => (hf _).bind (fun _ => Sim.pure))) (fun _ => Sim.pure)

theorem sim_inst {a : Addr} {i : Inst} (hS : Still h) (hi : h[a]? = some (.inst i)) :
    Sim h (flattenInst cfg fl a i) (Pickler.flattenInst (cfg.pworld h) cfg.opts gl a i) := by
  have hbody := sim_body hro hsk hf hS hi
  unfold flattenInst Pickler.flattenInst
  rw [show (cfg.pworld h).handler i.cls = cfg.world.handler i.cls from rfl]
  cases cfg.world.handler i.cls with
  | none =>
    show Sim h (flattenReduce cfg fl a i) (Pickler.flattenReduce (cfg.pworld h) cfg.opts gl a i)
    unfold flattenReduce Pickler.flattenReduce
    generalize (if cfg.opts.unpicklable && i.info.reduces then i.reduce else ReduceVal.nothing) = rv
    cases rv with
    | nothing => exact hbody
    | raise e => exact Sim.ite (fun _ => hbody) (fun _ => Sim.throw)
    | str o =>
      cases o with
      | none => exact hbody
      | some v => exact (hf v).tryCatch (fun _ => hbody)
    | tup xs => exact Sim.ite (fun _ => hbody) (fun _ => Sim.withHeap (Sim.ite (fun _ => (Sim.mapM hf _).bind (fun _ => Sim.pure)) (fun _ => hbody)))
  | some k =>
    cases k with
    | record => exact (Sim.foldM (fun _ _ => (hf _).bind (fun _ => Sim.pure)) _ _).bind (fun _ => Sim.ofExcept.bind (fun _ => Sim.pure))
    | datetime =>
      show Sim h (flattenDate cfg fl a i) (Pickler.flattenDate (cfg.pworld h) cfg.opts gl a i)
      unfold flattenDate Pickler.flattenDate
      exact Sim.ite (fun _ => (Sim.mapM hf _).bind (fun _ => Sim.ofExcept.bind (fun _ => Sim.pure))) (fun _ => Sim.ofExcept.bind (fun _ => Sim.ofExcept.bind (fun _ => Sim.pure)))
    | «opaque» => exact Sim.ofExcept.bind (fun _ => Sim.pure)
    | drop => exact Sim.ofExcept.bind (fun _ => Sim.pure)

theorem sim_by {v : Val} (hS : Still h) : Sim h (flattenBy cfg fl v) (Pickler.flattenBy (cfg.pworld h) cfg.opts gl v) := by
  cases v with
  | tuple l xs => exact (Sim.mapM hf xs).bind (fun _ => Sim.pure)
  | set l xs => exact (Sim.mapM hf xs).bind (fun _ => Sim.pure)
  | module n => exact sim_refObj Sim.lift
  | ref a =>
    unfold flattenBy flattenCell Pickler.flattenBy
    refine Sim.withHeap ?_
    dsimp only
    rw [show (cfg.pworld h).heap = h from rfl]
    cases hg : h[a]? with
    | none => exact Sim.throw
    | some o =>
      cases o with
      | list xs => exact sim_once ((Sim.mapM hf xs).bind (fun _ => Sim.pure))
      | dict kvs => exact sim_once ((sim_entries hro hsk hf).bind (fun _ => Sim.pure))
      | inst i => exact sim_refObj (sim_inst hro hsk hf hS hg)
      | _ => exact Sim.throw
  | _ => exact Sim.lift

theorem sim_step {v : Val} (hS : Still h) : Sim h (flattenStep cfg fl v) (Pickler.flattenStep (cfg.pworld h) cfg.opts gl v) := by
  have hobj : ∀ v, Sim h (nested (flattenObj cfg fl v)) (Pickler.push >>= fun _ => Pickler.flattenObj (cfg.pworld h) cfg.opts gl v >>= Pickler.pop) := fun v =>
    sim_nested (Sim.withHeap (sim_obj (sim_by hro hsk hf hS)))
  cases v <;> first | exact Sim.pure | exact sim_cached Sim.pure | exact sim_cached (hobj _)

end

theorem sim_flatten (hro : cfg.handleReadonly = false) (hsk : cfg.sortKeys = false) (hS : Still h) :
    ∀ n v, Sim h (flatten cfg n v) (Pickler.flatten (cfg.pworld h) cfg.opts n v)
  | 0, _ => fun _ => rfl
  | n + 1, _ => sim_step hro hsk (sim_flatten hro hsk hS n) hS

/-- the two encoders agree -/
theorem flattenTop_agree (hro : cfg.handleReadonly = false) (hsk : cfg.sortKeys = false) (hS : Still h) (n : Nat) :
    flattenTop cfg n { heap := h } = withH h (Pickler.flattenTop (cfg.pworld h) cfg.opts n cfg.root true {}) := by
  have e1 : flattenTop cfg n { heap := h } = flatten cfg n cfg.root { heap := h } := by
    unfold flattenTop sortFirst
    rw [hsk]
    rfl
  rw [e1]
  exact sim_flatten hro hsk hS n cfg.root {}

end JP.Readonly
