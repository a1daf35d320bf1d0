import Verif.Iso
import Verif.Proofs.PCongr
/-!
# The encoder does the same for the same graph at other addresses
-/
namespace JP.Pickler
open PyM

variable {f g : Nat → Nat}

@[simp] theorem rens_eq (xs : List Val) : Val.rens f g xs = xs.map (Val.ren f g) := by
  induction xs with
  | nil => rfl
  | cons x xs ih => simp [Val.rens, ih]

/-- the tables for the moved objects -/
def renState (f g : Nat → Nat) (s : PState) : PState where
  depth := s.depth
  objs := s.objs.map (Ident.ren f g)
  seen := s.seen.map (Val.ren f g)
  flattened := s.flattened.map (fun p => (p.1.ren f g, p.2))

/-- `y` does with the moved objects what `x` does -/
def Sim (f g : Nat → Nat) {α : Type} (x y : P α) : Prop := ∀ s, y (renState f g s) = (x s).map (fun r => (r.1, renState f g r.2))

namespace Sim
variable {α β γ : Type}

theorem pure (a : α) : Sim f g (pure a) (pure a) := fun _ => rfl
theorem throw (e : Exc) : Sim f g (PyM.throw e : P α) (PyM.throw e) := fun _ => rfl
theorem ofExcept (r : Except Exc α) : Sim f g (PyM.ofExcept r) (PyM.ofExcept r) := fun _ => rfl
theorem outOfFuel : Sim f g (PyM.outOfFuel : P α) PyM.outOfFuel := fun _ => rfl

theorem bind {x y : P α} {k k' : α → P β} (h : Sim f g x y) (hk : ∀ a, Sim f g (k a) (k' a)) : Sim f g (x >>= k) (y >>= k') := by
  intro s
  rw [bind_run, bind_run, h s]
  cases hx : x s with
  | none => rfl
  | some r =>
    obtain ⟨r, s'⟩ := r
    cases r with
    | error e => rfl
    | ok a => exact hk a s'

theorem tryCatch {x y : P α} {p : Exc → Bool} {k k' : Exc → P α} (h : Sim f g x y) (hk : ∀ a, Sim f g (k a) (k' a)) :
    Sim f g (PyM.tryCatch x p k) (PyM.tryCatch y p k') := by
  intro s
  unfold PyM.tryCatch
  rw [h s]
  cases hx : x s with
  | none => rfl
  | some r =>
    obtain ⟨r, s'⟩ := r
    cases r with
    | error e =>
      simp only [Option.map]
      by_cases hp : p e = true
      · simp only [hp, if_true]
        exact hk e s'
      · simp only [hp, if_false, Bool.false_eq_true]
    | ok a => rfl

theorem value {a : γ} {b : β} {k : γ → P α} {k' : β → P α} (h : Sim f g (k a) (k' b)) : Sim f g (PyM.ofExcept (.ok a) >>= k) (PyM.ofExcept (.ok b) >>= k') := h
theorem error {e : Exc} {k : γ → P α} {k' : β → P α} : Sim f g (PyM.ofExcept (.error e) >>= k) (PyM.ofExcept (.error e) >>= k') := fun _ => rfl

theorem mapM {δ : Type} {r : γ → δ} {x : γ → P β} {y : δ → P β} : ∀ (xs : List γ), (∀ v ∈ xs, Sim f g (x v) (y (r v))) → Sim f g (PyM.mapM x xs) (PyM.mapM y (xs.map r))
  | [], _ => pure _
  | v :: xs, h => by
    rw [List.map_cons, mapM_cons, mapM_cons]
    exact bind (h v (.head _)) fun _ => bind (mapM xs fun v hv => h v (.tail _ hv)) fun _ => pure _

theorem foldM {δ : Type} {r : γ → δ} {x : β → γ → P β} {y : β → δ → P β} : ∀ (xs : List γ) (b : β), (∀ b, ∀ v ∈ xs, Sim f g (x b v) (y b (r v))) →
    Sim f g (PyM.foldM x b xs) (PyM.foldM y b (xs.map r))
  | [], _, _ => pure _
  | v :: xs, b, h => by
    rw [List.map_cons, foldM_cons, foldM_cons]
    exact bind (h b v (.head _)) fun _ => foldM xs _ fun b v hv => h b v (.tail _ hv)

theorem ite {c : Prop} [Decidable c] {x x' y y' : P α} (h : Sim f g x y) (h' : Sim f g x' y') : Sim f g (if c then x else x') (if c then y else y') := by
  split
  · exact h
  · exact h'

end Sim

section
variable (hf : ∀ a b, f a = f b → a = b) (hg : ∀ a b, g a = g b → a = b)
include hf hg

theorem ident_inj {i j : Ident} (h : i.ren f g = j.ren f g) : i = j := by
  cases i <;> cases j <;> simp_all [Ident.ren] <;> first | exact hf _ _ h | exact hg _ _ h

theorem contains_ren (l : List Ident) (i : Ident) : (l.map (Ident.ren f g)).contains (i.ren f g) = l.contains i := by
  induction l with
  | nil => rfl
  | cons x l ih =>
    simp only [List.map_cons, List.contains_cons, ih]
    by_cases h : i = x
    · simp only [h, beq_self_eq_true]
    · have : ¬ i.ren f g = x.ren f g := fun h' => h (ident_inj hf hg h')
      simp only [beq_eq_false_iff_ne.2 h, beq_eq_false_iff_ne.2 this]

theorem idxOf_ren (l : List Ident) (i : Ident) : (l.map (Ident.ren f g)).idxOf (i.ren f g) = l.idxOf i := by
  induction l with
  | nil => rfl
  | cons x l ih =>
    simp only [List.map_cons, List.idxOf_cons, ih]
    by_cases h : x = i
    · simp only [h, beq_self_eq_true]
    · have : ¬ x.ren f g = i.ren f g := fun h' => h (ident_inj hf hg h')
      simp only [beq_eq_false_iff_ne.2 h, beq_eq_false_iff_ne.2 this]

theorem find_ren (l : List (Ident × Json)) (i : Ident) :
    (l.map (fun p => (p.1.ren f g, p.2))).find? (fun p => p.1 == i.ren f g) = (l.find? (fun p => p.1 == i)).map (fun p => (p.1.ren f g, p.2)) := by
  induction l with
  | nil => rfl
  | cons x l ih =>
    simp only [List.map_cons, List.find?_cons]
    by_cases h : x.1 = i
    · simp [h]
    · have : ¬ x.1.ren f g = i.ren f g := fun h' => h (ident_inj hf hg h')
      simp only [beq_eq_false_iff_ne.2 h, beq_eq_false_iff_ne.2 this]
      exact ih

variable (cfg : PCfg)

theorem sim_mkref (i : Ident) : Sim f g (mkref cfg i) (mkref cfg (i.ren f g)) := by
  refine Sim.bind ?_ fun _ => Sim.pure _
  intro s
  have := contains_ren hf hg s.objs i
  unfold logRef
  simp only [renState, this]
  by_cases h : s.objs.contains i = true
  · simp only [h, if_true]; rfl
  · simp only [h, if_false, Bool.false_eq_true]
    simp [renState]

theorem sim_getref (i : Ident) : Sim f g (getref i) (getref (i.ren f g)) := by
  intro s
  unfold getref
  simp only [renState, contains_ren hf hg, idxOf_ren hf hg]
  rfl

theorem sim_inCycle (i : Ident) (a b c : Bool) : Sim f g (inCycle i a b c) (inCycle (i.ren f g) a b c) := by
  intro s
  unfold inCycle
  simp only [renState, contains_ren hf hg]
  rfl

theorem sim_cached (i : Ident) {x y : P Json} (h : Sim f g x y) : Sim f g (cached cfg i x) (cached cfg (i.ren f g) y) := by
  unfold cached
  refine Sim.ite h ?_
  intro s
  rw [bind_run, bind_run, get_run, get_run]
  simp only [renState, find_ren hf hg]
  cases hc : s.flattened.find? (fun p => p.1 == i) with
  | some p => rfl
  | none =>
    exact Sim.bind h (fun j => Sim.bind (x := PyM.modify (fun s => { s with flattened := (i, j) :: s.flattened }))
      (y := PyM.modify (fun s => { s with flattened := (i.ren f g, j) :: s.flattened })) (fun s => rfl) fun _ => Sim.pure j) s

end

theorem sim_maxReached (cfg : PCfg) : Sim f g (maxReached cfg) (maxReached cfg) := fun _ => rfl
theorem sim_push : Sim f g push push := fun _ => rfl
theorem sim_pop (j : Json) : Sim f g (pop j) (pop j) := by
  intro s
  unfold pop
  simp only [renState]
  by_cases h : (s.depth - 1 == -1) = true
  · simp only [h, if_true]; rfl
  · simp only [h, if_false, Bool.false_eq_true]; rfl
theorem sim_seen (v : Val) : Sim f g (PyM.modify (fun s => { s with seen := s.seen ++ [v] })) (PyM.modify (fun s => { s with seen := s.seen ++ [v.ren f g] })) := by
  intro s
  simp [renState]

section
variable {w w' : World} (hm : Moved f g w w') (cfg : PCfg) {fl fl' : Val → P Json} (hfl : ∀ v, Sim f g (fl v) (fl' (v.ren f g)))
include hm

theorem isPicklable_ren (k v : Val) : isPicklable (k.ren f g) (v.ren f g) = isPicklable k v := by
  unfold isPicklable
  congr 1
  · cases k <;> rfl
  · cases v <;> rfl

theorem reprKey_ren (k : Val) : reprKey w' (k.ren f g) = reprKey w k := by
  have h1 := hm.repr k
  have h2 := hm.pystr k
  cases k <;> first | rfl | (simp only [Val.ren] at h1 h2; simp only [Val.ren, reprKey, h1, h2])

include hfl

theorem sim_kvp (k v : Val) (d : List (Str × Json)) : Sim f g (flattenKeyValuePair w fl k v d) (flattenKeyValuePair w' fl' (k.ren f g) (v.ren f g) d) := by
  unfold flattenKeyValuePair
  rw [isPicklable_ren hm, reprKey_ren hm]
  exact Sim.ite (Sim.bind (Sim.ofExcept _) fun _ => Sim.bind (hfl v) fun _ => Sim.pure _) (Sim.pure _)

theorem sim_escapeKey (k : Val) : Sim f g (escapeKey w fl k) (escapeKey w' fl' (k.ren f g)) := by
  unfold escapeKey
  simp only [hm.dumps]
  exact Sim.bind (hfl k) fun _ => Sim.pure _

theorem sim_nonString (k v : Val) (d : List (Str × Json)) : Sim f g (flattenNonString w cfg fl k v d) (flattenNonString w' cfg fl' (k.ren f g) (v.ren f g) d) := by
  have hk := sim_escapeKey hm hfl k
  have key : Sim f g (if cfg.keys = true then do
      let k' ← escapeKey w fl k
      let j ← fl v
      pure (dset k' j d)
    else Pure.pure d) (if cfg.keys = true then do
      let k' ← escapeKey w' fl' (k.ren f g)
      let j ← fl' (v.ren f g)
      pure (dset k' j d)
    else Pure.pure d) := Sim.ite (Sim.bind hk fun _ => Sim.bind (hfl v) fun _ => Sim.pure _) (Sim.pure _)
  unfold flattenNonString
  rw [isPicklable_ren hm]
  refine Sim.ite ?_ (Sim.pure _)
  cases k <;> first | exact key | exact Sim.pure _

theorem sim_stringTail (k v : Val) (d : List (Str × Json)) : Sim f g (flattenStringTail w cfg fl k v d) (flattenStringTail w' cfg fl' (k.ren f g) (v.ren f g) d) := by
  unfold flattenStringTail
  rw [isPicklable_ren hm, reprKey_ren hm]
  refine Sim.ite (Sim.ite ?_ (Sim.bind (Sim.ofExcept _) fun _ => Sim.bind (hfl v) fun _ => Sim.pure _)) (Sim.pure _)
  cases k <;> first | exact Sim.pure _ | exact Sim.bind (hfl v) fun _ => Sim.pure _

theorem sim_string (k v : Val) (d : List (Str × Json)) : Sim f g (flattenString w cfg fl k v d) (flattenString w' cfg fl' (k.ren f g) (v.ren f g) d) := by
  have h1 := sim_stringTail hm cfg hfl k v d
  have h2 := sim_escapeKey hm hfl k
  cases k <;> first | exact h1 | exact Sim.ite (Sim.bind (hfl v) fun _ => Sim.bind h2 fun _ => Sim.pure _) h1

omit hm hfl in
theorem itemsExcl_ren (ex : List Str) (kvs : List (Val × Val)) : itemsExcl ex (kvs.map (renPair f g)) = (itemsExcl ex kvs).map (renPair f g) := by
  unfold itemsExcl
  rw [List.filter_map]
  congr 1
  apply List.filter_congr
  intro kv _
  obtain ⟨k, v⟩ := kv
  cases k <;> rfl

theorem sim_entries (kvs : List (Val × Val)) (ex : List Str) (d : List (Str × Json)) :
    Sim f g (flattenEntries w cfg fl kvs ex d) (flattenEntries w' cfg fl' (kvs.map (renPair f g)) ex d) := by
  unfold flattenEntries
  simp only [itemsExcl_ren]
  refine Sim.ite (Sim.bind ?_ fun _ => ?_) ?_
  · exact Sim.foldM _ _ fun _ _ _ => sim_string hm cfg hfl _ _ _
  · exact Sim.foldM _ _ fun _ _ _ => sim_nonString hm cfg hfl _ _ _
  · exact Sim.foldM _ _ fun _ _ _ => sim_kvp hm hfl _ _ _

omit hfl in
theorem dictItems_ren (i : Inst) : dictItems w' (i.ren f g) = (dictItems w i).map (renPair f g) := by
  unfold dictItems
  cases h : i.dictCell with
  | none =>
    simp only [Inst.ren, h, Option.map]
    simp [asItems, renPair, renField, Val.ren]
  | some d =>
    simp only [Inst.ren, h, Option.map, hm.heap]
    cases w.heap[d]? with
    | none => rfl
    | some o => cases o <;> rfl

omit hm hfl in
theorem dictIdent_ren (a : Addr) (i : Inst) : dictIdent (f a) (i.ren f g) = (dictIdent a i).ren f g := by
  unfold dictIdent
  cases h : i.dictCell <;> simp only [Inst.ren, h, Option.map] <;> rfl

theorem sim_clone (x : Val) : Sim f g (flattenClone w cfg fl x) (flattenClone w' cfg fl' (x.ren f g)) :=
  Sim.bind (sim_entries hm cfg hfl [(.str p!"exemplar", x)] [] _) fun _ => Sim.pure _

omit hm hfl in
theorem ident_ren (v : Val) : (v.ren f g).ident = v.ident.ren f g := by
  cases v <;> rfl

theorem sim_factory (v : Val) (e : Option Exc) (x : Val) :
    Sim f g (flattenFactory w cfg fl v (outcome e x)) (flattenFactory w' cfg fl' (v.ren f g) (outcome e (x.ren f g))) := by
  have key : Sim f g (do
      let new ← mkref cfg v.ident
      if new then do
        let x ← PyM.ofExcept (outcome e x)
        flattenClone w cfg fl x
      else getref v.ident) (do
      let new ← mkref cfg (v.ren f g).ident
      if new then do
        let x ← PyM.ofExcept (outcome e (x.ren f g))
        flattenClone w' cfg fl' x
      else getref (v.ren f g).ident) := by
    rw [ident_ren]
    refine Sim.bind (sim_mkref hm.inj hm.injLabel cfg _) fun _ => Sim.ite ?_ (sim_getref hm.inj hm.injLabel _)
    cases e with
    | none => exact Sim.value (sim_clone hm cfg hfl x)
    | some e => exact Sim.error
  cases v <;> first | exact key | exact Sim.pure _

theorem sim_default (fac : Option Val) (e : Option Exc) (x : Val) (d : List (Str × Json)) :
    Sim f g (flattenDefault w cfg fl fac (outcome e x) d) (flattenDefault w' cfg fl' (fac.map (Val.ren f g)) (outcome e (x.ren f g)) d) := by
  cases fac with
  | none => exact Sim.pure _
  | some v => exact Sim.bind (sim_factory hm cfg hfl v e x) fun _ => Sim.pure _

theorem sim_ownDict (a : Addr) (i : Inst) (ex : List Str) (d : List (Str × Json)) :
    Sim f g (flattenOwnDict w cfg fl a i ex d) (flattenOwnDict w' cfg fl' (f a) (i.ren f g) ex d) := by
  unfold flattenOwnDict
  rw [dictIdent_ren, dictItems_ren hm]
  exact Sim.ite (Sim.bind (sim_mkref hm.inj hm.injLabel cfg _) fun _ =>
    Sim.ite (Sim.bind (sim_entries hm cfg hfl _ _ _) fun _ => Sim.pure _) (Sim.bind (sim_getref hm.inj hm.injLabel _) fun _ => Sim.pure _)) (Sim.pure _)

theorem sim_dictSub (a : Addr) (i : Inst) (d : List (Str × Json)) : Sim f g (flattenDictSub w cfg fl a i d) (flattenDictSub w' cfg fl' (f a) (i.ren f g) d) :=
  Sim.bind (sim_entries hm cfg hfl _ _ _) fun _ => Sim.bind (sim_default hm cfg hfl _ _ _ _) fun _ => sim_ownDict hm cfg hfl a i _ _

omit hm hfl in
theorem dget_ren (n : Str) (l : List (Str × Val)) : dget n (l.map (renField f g)) = (dget n l).map (Val.ren f g) := by
  induction l with
  | nil => rfl
  | cons x l ih =>
    simp only [List.map_cons, dget, renField]
    split
    · rfl
    · exact ih

theorem sim_objAttrs (i : Inst) (lk : List (Str × Val)) (ns : List Str) (d : List (Str × Json)) :
    Sim f g (flattenObjAttrs w fl i lk ns d) (flattenObjAttrs w' fl' (i.ren f g) (lk.map (renField f g)) ns d) := by
  unfold flattenObjAttrs
  have := Sim.foldM (f := f) (g := g) (r := id) (x := fun (acc : Bool × List (Str × Json)) k =>
    if i.exclude.contains k then pure acc
    else
      PyM.tryCatch (do
        let name := if startsWith k p!"__" then p!"_" ++ i.info.shortName ++ k else k
        let v ← PyM.ofExcept (match dget name lk with
          | some v => .ok v
          | none => .error .attributeError)
        let d ← flattenKeyValuePair w fl (.str k) v acc.2
        pure (true, d))
        (· == .attributeError)
        (fun _ => pure acc)) (y := fun (acc : Bool × List (Str × Json)) k =>
    if (i.ren f g).exclude.contains k then pure acc
    else
      PyM.tryCatch (do
        let name := if startsWith k p!"__" then p!"_" ++ (i.ren f g).info.shortName ++ k else k
        let v ← PyM.ofExcept (match dget name (lk.map (renField f g)) with
          | some v => .ok v
          | none => .error .attributeError)
        let d ← flattenKeyValuePair w' fl' (.str k) v acc.2
        pure (true, d))
        (· == .attributeError)
        (fun _ => pure acc)) ns (false, d) (by
    intro b k _
    refine Sim.ite (Sim.pure _) (Sim.tryCatch ?_ fun _ => Sim.pure _)
    simp only [id, dget_ren]
    cases h : dget (if startsWith k p!"__" then p!"_" ++ i.info.shortName ++ k else k) lk with
    | none =>
      have : dget (if startsWith k p!"__" then p!"_" ++ (i.ren f g).info.shortName ++ k else k) lk = none := h
      rw [this]
      exact Sim.error
    | some v =>
      have : dget (if startsWith k p!"__" then p!"_" ++ (i.ren f g).info.shortName ++ k else k) lk = some v := h
      rw [this]
      exact Sim.value <| Sim.bind (sim_kvp hm hfl (.str k) v _) fun _ => Sim.pure _)
  rw [List.map_id] at this
  exact this

theorem sim_slots (i : Inst) (d : List (Str × Json)) : Sim f g (flattenSlots w fl i d) (flattenSlots w' fl' (i.ren f g) d) := by
  unfold flattenSlots
  refine Sim.bind (sim_objAttrs hm hfl i _ _ _) fun r => Sim.ite (Sim.pure _) ?_
  have : (i.ren f g).dirAttrs.map (·.1) = i.dirAttrs.map (·.1) := by
    simp [Inst.ren, renField, Function.comp_def]
  rw [this]
  exact Sim.bind (sim_objAttrs hm hfl i i.dirAttrs _ _) fun _ => Sim.pure _

theorem sim_sequence (i : Inst) (d : List (Str × Json)) : Sim f g (flattenSequence w cfg fl i d) (flattenSequence w' cfg fl' (i.ren f g) d) := by
  unfold flattenSequence flattenSeqAttrs
  rw [dictItems_ren hm]
  have he : (i.ren f g).elems = i.elems.map (Val.ren f g) := rens_eq _
  rw [he]
  exact Sim.bind (Sim.ite (sim_entries hm cfg hfl _ _ _) (Sim.pure _)) fun _ => Sim.bind (Sim.mapM _ fun v _ => hfl v) fun _ => Sim.ite (Sim.pure _) (Sim.pure _)

omit hfl in
theorem truthy_ren (v : Val) : truthy w'.heap (v.ren f g) = truthy w.heap v := by
  cases v with
  | ref a =>
    simp only [Val.ren, truthy, hm.heap]
    cases w.heap[a]? with
    | none => rfl
    | some o =>
      cases o with
      | list xs => simp [Obj.ren]
      | dict kvs => simp [Obj.ren]
      | inst i =>
        simp only [Option.map, Obj.ren]
        have h1 : (i.ren f g).info = i.info := rfl
        have h2 : (i.ren f g).items.isEmpty = i.items.isEmpty := by simp [Inst.ren]
        have h3 : (i.ren f g).elems.isEmpty = i.elems.isEmpty := by simp [Inst.ren]
        rw [h1, h2, h3]
      | _ => rfl
  | tuple i xs => simp [Val.ren, truthy]
  | set i xs => simp [Val.ren, truthy]
  | _ => rfl

omit hm hfl in
theorem getD_ren (xs : List Val) (n : Nat) : (xs.map (Val.ren f g)).getD n .none = (xs.getD n .none).ren f g := by
  simp only [List.getD_eq_getElem?_getD, List.getElem?_map]
  cases xs[n]? <;> rfl

theorem sim_filteredState (a : Addr) (kvs : List (Val × Val)) (ex : List Str) :
    Sim f g (flattenFilteredState w cfg fl a kvs ex) (flattenFilteredState w' cfg fl' (f a) (kvs.map (renPair f g)) ex) := by
  unfold flattenFilteredState
  refine sim_cached hm.inj hm.injLabel cfg (.stateOf a) (Sim.bind sim_push fun _ => Sim.bind ?_ fun _ => sim_pop _)
  unfold flattenObjWith
  have hr := hm.repr (.ref a)
  simp only [Val.ren] at hr
  rw [hr]
  refine Sim.bind (sim_seen (.ref a)) fun _ => Sim.bind (sim_maxReached cfg) fun _ => Sim.tryCatch (Sim.bind (sim_inCycle hm.inj hm.injLabel (.stateOf a) _ _ _) fun _ =>
    Sim.ite (Sim.bind (Sim.ofExcept _) fun _ => Sim.pure _) ?_) fun e => ?_
  · rw [itemsExcl_ren]
    exact Sim.bind (sim_mkref hm.inj hm.injLabel cfg (.stateOf a)) fun _ => Sim.ite (Sim.bind (sim_entries hm cfg hfl _ _ _) fun _ => Sim.pure _) (sim_getref hm.inj hm.injLabel (.stateOf a))
  · cases cfg.failSafe with
    | none => exact Sim.throw e
    | some k => exact Sim.ofExcept _

theorem sim_rest (a : Addr) (i : Inst) (d : List (Str × Json)) : Sim f g (flattenRest w cfg fl a i d) (flattenRest w' cfg fl' (f a) (i.ren f g) d) := by
  unfold flattenRest
  have h1 : (i.ren f g).info = i.info := rfl
  have h2 : iterated cfg (i.ren f g) = (iterated cfg i).map (Val.ren f g) := by
    unfold iterated
    cases cfg.maxIter <;> simp [Inst.ren, List.map_take]
  have h3 : iterErr cfg (i.ren f g) = iterErr cfg i := by
    unfold iterErr
    cases cfg.maxIter <;> simp [Inst.ren]
  rw [h1, h2, h3, dictItems_ren hm]
  cases i.info.base with
  | dict => exact Sim.bind (sim_dictSub hm cfg hfl a i d) fun _ => Sim.pure _
  | list => exact sim_sequence hm cfg hfl i d
  | set => exact sim_sequence hm cfg hfl i d
  | tuple => exact sim_sequence hm cfg hfl i d
  | plain =>
    refine Sim.ite (Sim.bind (Sim.mapM _ fun v _ => hfl v) fun _ => Sim.bind (Sim.ofExcept _) fun _ => Sim.pure _)
      (Sim.ite (Sim.bind (sim_entries hm cfg hfl _ _ _) fun _ => Sim.pure _) (Sim.ite (sim_slots hm hfl i d) (Sim.ite (Sim.pure _) (Sim.ite (Sim.pure _) ?_))))
    have h4 : (if i.info.reduces = true then (i.ren f g).reduce else ReduceVal.nothing) = (if i.info.reduces = true then i.reduce else ReduceVal.nothing).ren f g := by
      split <;> rfl
    rw [h4]
    cases (if i.info.reduces = true then i.reduce else ReduceVal.nothing) with
    | nothing => exact Sim.pure _
    | str t => exact Sim.pure _
    | raise e => exact Sim.ite (Sim.pure _) (Sim.throw _)
    | tup xs =>
      simp only [ReduceVal.ren, rens_eq, getD_ren, truthy_ren hm]
      exact Sim.ite (hfl _) (Sim.ite (hfl _) (Sim.pure _))

omit hfl in
theorem excludable_ren (ex : List Str) (st : Val) :
    Outside.excludable w'.heap ex (st.ren f g) = (Outside.excludable w.heap ex st).map (List.map (renPair f g)) := by
  cases st with
  | ref d =>
    simp only [Outside.excludable, Val.ren, hm.heap]
    cases w.heap[d]? with
    | none => rfl
    | some o =>
      cases o with
      | dict kvs => simp only [Option.map, Obj.ren]; split <;> rfl
      | _ => rfl
  | _ => rfl

theorem sim_getstate (a : Addr) (i : Inst) (d : List (Str × Json)) : Sim f g (flattenGetstate w cfg fl a i d) (flattenGetstate w' cfg fl' (f a) (i.ren f g) d) := by
  rw [Outside.getstate_eq, Outside.getstate_eq]
  have hr := sim_rest hm cfg hfl a i d
  refine Sim.ite ?_ hr
  have h1 : (i.ren f g).state = i.state.map (Val.ren f g) := rfl
  have h2 : (i.ren f g).exclude = i.exclude := rfl
  rw [h1, h2]
  cases i.state with
  | error e => exact Sim.ite (Sim.pure _) (Sim.throw _)
  | ok st =>
    simp only [Except.map, excludable_ren hm]
    cases Outside.excludable w.heap i.exclude st with
    | none =>
      simp only [Option.map, truthy_ren hm]
      exact Sim.ite (Sim.bind (hfl st) fun _ => Sim.pure _) hr
    | some kvs =>
      simp only [Option.map, itemsExcl_ren, List.isEmpty_map]
      exact Sim.ite hr (Sim.bind (sim_filteredState hm cfg hfl a kvs _) fun _ => Sim.pure _)

theorem sim_newargs (i : Inst) (d : List (Str × Json)) : Sim f g (flattenNewargs fl i d) (flattenNewargs fl' (i.ren f g) d) := by
  unfold flattenNewargs
  refine Sim.ite ?_ (Sim.ite ?_ (Sim.pure _))
  · have h : (i.ren f g).newargsEx = (i.newargsEx.1.ren f g, i.newargsEx.2.ren f g) := rfl
    have h' : (i.ren f g).errs = i.errs := rfl
    rw [h, h']
    cases i.errs.newargsEx with
    | none => exact Sim.value <| Sim.bind (hfl _) fun _ => Sim.bind (hfl _) fun _ => Sim.pure _
    | some e => exact Sim.error
  · have h' : (i.ren f g).errs = i.errs := rfl
    rw [h']
    cases i.errs.newargs with
    | none => exact Sim.value <| Sim.bind (hfl i.newargs) fun _ => Sim.pure _
    | some e => exact Sim.error

theorem sim_initargs (i : Inst) (d : List (Str × Json)) : Sim f g (flattenInitargs fl i d) (flattenInitargs fl' (i.ren f g) d) := by
  unfold flattenInitargs
  refine Sim.ite ?_ (Sim.pure _)
  have h' : (i.ren f g).errs = i.errs := rfl
  rw [h']
  cases i.errs.initargs with
  | none => exact Sim.value <| Sim.bind (hfl i.initargs) fun _ => Sim.pure _
  | some e => exact Sim.error

theorem sim_body (a : Addr) (i : Inst) : Sim f g (flattenBody w cfg fl a i) (flattenBody w' cfg fl' (f a) (i.ren f g)) :=
  Sim.bind (sim_newargs hm hfl i _) fun _ => Sim.bind (sim_initargs hm hfl i _) fun _ => sim_getstate hm cfg hfl a i _

omit hm hfl in
theorem newobjMark_ren (xs : List Val) : newobjMark (xs.map (Val.ren f g)) = (newobjMark xs).map (Val.ren f g) := by
  cases xs with
  | nil => rfl
  | cons x xs => cases x <;> simp only [List.map_cons, Val.ren, newobjMark] <;> split <;> rfl

theorem sim_reduce (a : Addr) (i : Inst) : Sim f g (flattenReduce w cfg fl a i) (flattenReduce w' cfg fl' (f a) (i.ren f g)) := by
  have hb := sim_body hm cfg hfl a i
  have h4 : (if (cfg.unpicklable && (i.ren f g).info.reduces) = true then (i.ren f g).reduce else ReduceVal.nothing)
      = (if (cfg.unpicklable && i.info.reduces) = true then i.reduce else ReduceVal.nothing).ren f g := by
    have h1 : (i.ren f g).info = i.info := rfl
    rw [h1]
    split <;> rfl
  unfold flattenReduce
  rw [h4]
  cases (if (cfg.unpicklable && i.info.reduces) = true then i.reduce else ReduceVal.nothing) with
  | nothing => exact hb
  | raise e => exact Sim.ite hb (Sim.throw _)
  | str t =>
    cases t with
    | none => exact hb
    | some v => exact Sim.tryCatch (hfl v) fun _ => hb
  | tup xs =>
    have h5 : reduceSane w' (i.ren f g) (xs.map (Val.ren f g)) = reduceSane w i xs := by
      unfold reduceSane
      rw [getD_ren, truthy_ren hm]
      rfl
    have h6 : padReduce (xs.map (Val.ren f g)) = (padReduce xs).map (Val.ren f g) := by
      unfold padReduce
      simp [Val.ren]
    simp only [ReduceVal.ren, rens_eq, h5, h6, newobjMark_ren, List.isEmpty_map]
    exact Sim.ite hb (Sim.ite (Sim.bind (Sim.mapM _ fun v _ => hfl v) fun _ => Sim.pure _) hb)

omit hm hfl in
theorem dateText_ren (fs : List (Str × Val)) : dateText (fs.map (renField f g)) = dateText fs := by
  unfold dateText
  rcases fs with _ | ⟨⟨k, v⟩, r⟩
  · rfl
  · cases v <;> rfl

theorem sim_date (a : Addr) (i : Inst) : Sim f g (flattenDate w cfg fl a i) (flattenDate w' cfg fl' (f a) (i.ren f g)) := by
  unfold flattenDate
  have h1 : (i.ren f g).hfields = i.hfields.map (renField f g) := rfl
  have h2 : (i.ren f g).hfields.tail.map (·.2) = (i.hfields.tail.map (·.2)).map (Val.ren f g) := by
    rw [h1, ← List.map_tail, List.map_map, List.map_map]
    rfl
  have h3 : w'.pystr (.ref (f a)) = w.pystr (.ref a) := hm.pystr (.ref a)
  have h4 : objTag cfg (i.ren f g) = objTag cfg i := rfl
  rw [h2, h3, h4, h1, dateText_ren]
  exact Sim.ite (Sim.bind (Sim.mapM _ fun v _ => hfl v) fun _ => Sim.bind (Sim.ofExcept _) fun _ => Sim.pure _)
    (Sim.bind (Sim.ofExcept _) fun _ => Sim.bind (Sim.ofExcept _) fun _ => Sim.pure _)

theorem sim_inst (a : Addr) (i : Inst) : Sim f g (flattenInst w cfg fl a i) (flattenInst w' cfg fl' (f a) (i.ren f g)) := by
  unfold flattenInst
  have h1 : (i.ren f g).cls = i.cls := rfl
  rw [h1, hm.handler]
  cases w.handler i.cls with
  | none => exact sim_reduce hm cfg hfl a i
  | some k =>
    cases k with
    | record =>
      exact Sim.bind (Sim.foldM (r := renField f g) _ _ fun _ kv _ => Sim.bind (hfl kv.2) fun _ => Sim.pure _) fun _ => Sim.bind (Sim.ofExcept _) fun _ => Sim.pure _
    | datetime => exact sim_date hm cfg hfl a i
    | «opaque» => exact Sim.bind (Sim.ofExcept _) fun _ => Sim.pure _
    | drop => exact Sim.bind (Sim.ofExcept _) fun _ => Sim.pure _

omit hfl in
theorem sim_refObj (id : Ident) (e : Bool) {x y : P Json} (h : Sim f g x y) : Sim f g (refObjInstance cfg id e x) (refObjInstance cfg (id.ren f g) e y) := by
  unfold refObjInstance
  exact Sim.ite (Sim.bind (sim_mkref hm.inj hm.injLabel cfg _) fun _ => Sim.ite h (sim_getref hm.inj hm.injLabel _))
    (Sim.bind (sim_maxReached cfg) fun _ => Sim.bind (sim_inCycle hm.inj hm.injLabel _ _ _ _) fun _ =>
      Sim.ite (Sim.pure _) (Sim.bind (sim_mkref hm.inj hm.injLabel cfg _) fun _ => h))

theorem sim_by (v : Val) : Sim f g (flattenBy w cfg fl v) (flattenBy w' cfg fl' (v.ren f g)) := by
  cases v with
  | ref a =>
    simp only [Val.ren, flattenBy, hm.heap]
    cases w.heap[a]? with
    | none => exact Sim.throw _
    | some o =>
      cases o with
      | list xs =>
        simp only [Option.map, Obj.ren, rens_eq]
        exact Sim.bind (sim_mkref hm.inj hm.injLabel cfg (.addr a)) fun _ => Sim.ite (Sim.bind (Sim.mapM _ fun v _ => hfl v) fun _ => Sim.pure _) (sim_getref hm.inj hm.injLabel (.addr a))
      | dict kvs =>
        exact Sim.bind (sim_mkref hm.inj hm.injLabel cfg (.addr a)) fun _ => Sim.ite (Sim.bind (sim_entries hm cfg hfl _ _ _) fun _ => Sim.pure _) (sim_getref hm.inj hm.injLabel (.addr a))
      | inst i => exact sim_refObj hm cfg (.addr a) _ (sim_inst hm cfg hfl a i)
      | _ => exact Sim.throw _
  | tuple i xs =>
    simp only [Val.ren, flattenBy, rens_eq]
    exact Sim.bind (Sim.mapM _ fun v _ => hfl v) fun _ => Sim.pure _
  | set i xs =>
    simp only [Val.ren, flattenBy, rens_eq]
    exact Sim.bind (Sim.mapM _ fun v _ => hfl v) fun _ => Sim.pure _
  | module n =>
    refine sim_refObj hm cfg (.mod n) false ?_
    unfold flattenModule
    have hp := hm.pystr (.module n)
    simp only [Val.ren] at hp
    rw [hp]
    exact Sim.ite (Sim.pure _) (Sim.bind (Sim.ofExcept _) fun _ => Sim.pure _)
  | func n => exact Sim.pure _
  | type n => exact Sim.pure _
  | lambda i => exact Sim.pure _
  | _ => exact Sim.throw _

omit hfl in
theorem isEnumV_ren (v : Val) : isEnumV w' (v.ren f g) = isEnumV w v := by
  cases v with
  | ref a =>
    simp only [Val.ren, isEnumV, hm.heap]
    cases w.heap[a]? with
    | none => rfl
    | some o => cases o <;> rfl
  | _ => rfl

theorem sim_obj (v : Val) : Sim f g (flattenObj w cfg fl v) (flattenObj w' cfg fl' (v.ren f g)) := by
  unfold flattenObj flattenObjWith
  rw [ident_ren, isEnumV_ren hm, hm.repr]
  refine Sim.bind (sim_seen v) fun _ => Sim.bind (sim_maxReached cfg) fun _ => Sim.tryCatch (Sim.bind (sim_inCycle hm.inj hm.injLabel _ _ _ _) fun _ =>
    Sim.ite (Sim.bind (Sim.ofExcept _) fun _ => Sim.pure _) (sim_by hm cfg hfl v)) fun e => ?_
  cases cfg.failSafe with
  | none => exact Sim.throw e
  | some k => exact Sim.ofExcept _

theorem sim_step (v : Val) : Sim f g (flattenStep w cfg fl v) (flattenStep w' cfg fl' (v.ren f g)) := by
  have h : Sim f g (do push; let j ← flattenObj w cfg fl v; pop j) (do push; let j ← flattenObj w' cfg fl' (v.ren f g); pop j) :=
    Sim.bind sim_push fun _ => Sim.bind (sim_obj hm cfg hfl v) fun _ => sim_pop _
  have hc := fun {x y : P Json} (h : Sim f g x y) => sim_cached hm.inj hm.injLabel cfg v.ident h
  rw [← ident_ren] at hc
  cases v <;> first | exact Sim.pure _ | exact hc (Sim.pure _) | exact hc h

end

theorem sim_flatten {w w' : World} (hm : Moved f g w w') (cfg : PCfg) : ∀ (n : Nat) (v : Val), Sim f g (flatten w cfg n v) (flatten w' cfg n (v.ren f g))
  | 0, _ => Sim.outOfFuel
  | n + 1, v => sim_step hm cfg (sim_flatten hm cfg n) v

theorem sim_encode {w w' : World} (hm : Moved f g w w') (cfg : PCfg) (n : Nat) (v : Val) (reset : Bool) : Sim f g (Api.encode w cfg n v reset) (Api.encode w' cfg n (v.ren f g) reset) := by
  unfold Api.encode flattenTop
  simp only [hm.dumps]
  refine Sim.bind (Sim.ite (Sim.bind (fun _ => rfl) fun _ => sim_flatten hm cfg n v) (sim_flatten hm cfg n v)) fun _ => Sim.pure _

end JP.Pickler
