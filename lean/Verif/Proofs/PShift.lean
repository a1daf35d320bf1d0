import Verif.Api
import Verif.Proofs.PCongr
/-!
# The depth counter matters only through `max_depth`
-/
namespace JP.Pickler
open PyM

/-- the same options with another limit -/
def mx (cfg : PCfg) (m : Option Int) : PCfg := { cfg with maxDepth := m }

/-- Two states that differ in `_seen` and in the depth counter: by `c` (`q = some c`), or anyhow. -/
structure SR (q : Option Int) (s t : PState) : Prop where
  objs : s.objs = t.objs
  flattened : s.flattened = t.flattened
  left : 0 ≤ s.depth
  right : 0 ≤ t.depth
  gap : ∀ c, q = some c → t.depth = s.depth + c

/-- The two limits are both absent, or are as far apart as the counters. -/
def Limits (q : Option Int) (m m' : Option Int) : Prop :=
  match q with
  | none => m = none ∧ m' = none
  | some c => m' = m.map (· + c)

/-- `x` and `y` have the same outcome and lead to states that correspond again; neither counter falls. -/
def Sh (q : Option Int) {α : Type} (x y : P α) : Prop := ∀ s t, SR q s t →
  (x s = none ∧ y t = none) ∨ ∃ r s' t', x s = some (r, s') ∧ y t = some (r, t') ∧ SR q s' t' ∧ s.depth ≤ s'.depth ∧ t.depth ≤ t'.depth

namespace Sh
variable {α β γ : Type} {q : Option Int}

/-- what neither looks at the states nor changes them -/
def Still (x : P α) : Prop := ∃ r, ∀ s, x s = some (r, s)

theorem still {x : P α} (h : Still x) : Sh q x x := fun s t hst => by
  obtain ⟨r, h⟩ := h
  exact .inr ⟨r, s, t, h s, h t, hst, by omega, by omega⟩

theorem pure (a : α) : Sh q (Pure.pure a : P α) (Pure.pure a) := still ⟨.ok a, fun _ => rfl⟩
theorem throw (e : Exc) : Sh q (PyM.throw e : P α) (PyM.throw e) := still ⟨.error e, fun _ => rfl⟩
theorem ofExcept (x : Except Exc α) : Sh q (PyM.ofExcept x : P α) (PyM.ofExcept x) := by
  cases x
  · exact throw _
  · exact pure _
theorem outOfFuel : Sh q (PyM.outOfFuel : P α) PyM.outOfFuel := fun _ _ _ => .inl ⟨rfl, rfl⟩

theorem bind {x y : P α} {f g : α → P β} (h : Sh q x y) (hk : ∀ a, Sh q (f a) (g a)) : Sh q (x >>= f) (y >>= g) := by
  intro s t hst
  simp only [bind_run]
  rcases h s t hst with ⟨h1, h2⟩ | ⟨r, s', t', h1, h2, h3, h4, h5⟩
  · rw [h1, h2]; exact .inl ⟨rfl, rfl⟩
  · rw [h1, h2]
    cases r with
    | error e => exact .inr ⟨_, _, _, rfl, rfl, h3, h4, h5⟩
    | ok a =>
      rcases hk a s' t' h3 with ⟨g1, g2⟩ | ⟨r, s2, t2, g1, g2, g3, g4, g5⟩
      · exact .inl ⟨g1, g2⟩
      · exact .inr ⟨r, s2, t2, g1, g2, g3, by omega, by omega⟩

theorem tryCatch {x y : P α} {p : Exc → Bool} {f g : Exc → P α} (h : Sh q x y) (hk : ∀ e, Sh q (f e) (g e)) :
    Sh q (PyM.tryCatch x p f) (PyM.tryCatch y p g) := by
  intro s t hst
  unfold PyM.tryCatch
  rcases h s t hst with ⟨h1, h2⟩ | ⟨r, s', t', h1, h2, h3, h4, h5⟩
  · rw [h1, h2]; exact .inl ⟨rfl, rfl⟩
  · rw [h1, h2]
    cases r with
    | ok a => exact .inr ⟨_, _, _, rfl, rfl, h3, h4, h5⟩
    | error e =>
      simp only
      split
      · rcases hk e s' t' h3 with ⟨g1, g2⟩ | ⟨r, s2, t2, g1, g2, g3, g4, g5⟩
        · exact .inl ⟨g1, g2⟩
        · exact .inr ⟨r, s2, t2, g1, g2, g3, by omega, by omega⟩
      · exact .inr ⟨_, _, _, rfl, rfl, h3, h4, h5⟩

theorem mapM {x y : γ → P β} (h : ∀ v, Sh q (x v) (y v)) : ∀ (xs : List γ), Sh q (PyM.mapM x xs) (PyM.mapM y xs)
  | [] => pure _
  | v :: vs => by
    simp only [PyM.mapM]
    exact bind (h v) fun _ => bind (mapM h vs) fun _ => pure _

theorem foldM {x y : β → γ → P β} (h : ∀ b v, Sh q (x b v) (y b v)) : ∀ (xs : List γ) (b : β), Sh q (PyM.foldM x b xs) (PyM.foldM y b xs)
  | [], _ => pure _
  | v :: vs, b => by
    simp only [PyM.foldM]
    exact bind (h b v) fun _ => foldM h vs _

theorem ite {c : Prop} [Decidable c] {x x' y y' : P α} (h : Sh q x y) (h' : Sh q x' y') : Sh q (if c then x else x') (if c then y else y') := by
  split
  · exact h
  · exact h'

theorem logRef (i : Ident) : Sh q (Pickler.logRef i) (Pickler.logRef i) := by
  intro s t hst
  simp only [Pickler.logRef, ← hst.objs]
  split
  · exact .inr ⟨_, _, _, rfl, rfl, hst, by omega, by omega⟩
  · exact .inr ⟨_, _, _, rfl, rfl, ⟨by simp [hst.objs], hst.flattened, hst.left, hst.right, hst.gap⟩, by simp, by simp⟩

theorem mkref (cfg : PCfg) (i : Ident) : Sh q (Pickler.mkref cfg i) (Pickler.mkref cfg i) := bind (logRef i) fun _ => pure _

theorem getref (i : Ident) : Sh q (Pickler.getref i) (Pickler.getref i) := by
  intro s t hst
  simp only [Pickler.getref, ← hst.objs]
  exact .inr ⟨_, _, _, rfl, rfl, hst, by omega, by omega⟩

theorem inCycle (i : Ident) (e m r : Bool) : Sh q (Pickler.inCycle i e m r) (Pickler.inCycle i e m r) := by
  intro s t hst
  simp only [Pickler.inCycle, ← hst.objs]
  exact .inr ⟨_, _, _, rfl, rfl, hst, by omega, by omega⟩

/-- a whole level: the counter goes up and, when all went well, down again -/
theorem level {x y : P Json} (h : Sh q x y) : Sh q (push >>= fun _ => x >>= fun j => pop j) (push >>= fun _ => y >>= fun j => pop j) := by
  intro s t hst
  simp only [push, bind_run, modify_run]
  rcases h { s with depth := s.depth + 1 } { t with depth := t.depth + 1 } ⟨hst.objs, hst.flattened, by have := hst.left; simp only; omega, by have := hst.right; simp only; omega, fun c hc => by have := hst.gap c hc; simp only; omega⟩ with ⟨h1, h2⟩ | ⟨r, s', t', h1, h2, h3, h4, h5⟩
  · rw [h1, h2]; exact .inl ⟨rfl, rfl⟩
  · rw [h1, h2]
    have hl := hst.left
    have hr := hst.right
    simp only at h4 h5
    cases r with
    | error e => exact .inr ⟨_, _, _, rfl, rfl, h3, by omega, by omega⟩
    | ok j =>
      refine .inr ⟨.ok j, { s' with depth := s'.depth - 1 }, { t' with depth := t'.depth - 1 }, ?_, ?_, ⟨h3.objs, h3.flattened, by simp only; omega, by simp only; omega, fun c hc => by have := h3.gap c hc; simp only; omega⟩, by simp only; omega, by simp only; omega⟩
      · simp only [pop]
        rw [if_neg (by simp; omega)]
      · simp only [pop]
        rw [if_neg (by simp; omega)]

theorem seen (v : Val) : Sh q (modify fun s : PState => { s with seen := s.seen ++ [v] }) (modify fun s : PState => { s with seen := s.seen ++ [v] }) :=
  fun _ _ hst => .inr ⟨.ok (), _, _, rfl, rfl, ⟨hst.objs, hst.flattened, hst.left, hst.right, hst.gap⟩, by simp, by simp⟩

end Sh

/-- steps that do not look at the counter -/
macro "sh0" : tactic => `(tactic| first
  | exact Sh.pure _ | exact Sh.throw _ | exact Sh.ofExcept _ | exact Sh.mkref _ _ | exact Sh.getref _ | exact Sh.inCycle _ _ _ _ | exact Sh.seen _ | exact Sh.outOfFuel)
/-- … or two of them -/
macro "sh" : tactic => `(tactic| first | sh0 | exact Sh.bind (by sh0) fun _ => (by sh0) | (split <;> sh0))

/-- nothing but `maxReached` looks at the limit -/
macro "mxs" : tactic => `(tactic| try simp only [
  show ∀ (c : PCfg) D, (mx c D).keys = c.keys from fun _ _ => rfl,
  show ∀ (c : PCfg) D, (mx c D).unpicklable = c.unpicklable from fun _ _ => rfl,
  show ∀ (c : PCfg) D, (mx c D).makeRefs = c.makeRefs from fun _ _ => rfl,
  show ∀ (c : PCfg) D, (mx c D).failSafe = c.failSafe from fun _ _ => rfl,
  show ∀ (c : PCfg) D, mkref (mx c D) = mkref c from fun _ _ => rfl,
  show ∀ (c : PCfg) D, iterated (mx c D) = iterated c from fun _ _ => rfl,
  show ∀ (c : PCfg) D, iterErr (mx c D) = iterErr c from fun _ _ => rfl,
  show ∀ (c : PCfg) D, putState (mx c D) = putState c from fun _ _ => rfl,
  show ∀ (c : PCfg) D, objTag (mx c D) = objTag c from fun _ _ => rfl,
  show ∀ (c : PCfg) D, flattenBytestring (mx c D) = flattenBytestring c from fun _ _ => rfl,
  show ∀ (w : World) (c : PCfg) D, flattenModule w (mx c D) = flattenModule w c from fun _ _ _ => rfl])

variable {w : World} {cfg : PCfg} {q : Option Int} {m m' : Option Int} {fl fl' : Val → P Json}

theorem sh_maxReached (hc : Limits q m m') : Sh q (maxReached (mx cfg m)) (maxReached (mx cfg m')) := by
  intro s t hst
  refine .inr ⟨.ok (some s.depth == m), s, t, rfl, ?_, hst, by omega, by omega⟩
  unfold maxReached mx
  simp only [gets_run, Option.some.injEq, Prod.mk.injEq, Except.ok.injEq, and_true]
  cases q with
  | none => obtain ⟨rfl, rfl⟩ := hc; rfl
  | some c =>
    have := hst.gap c rfl
    simp only [Limits] at hc
    subst hc
    cases m with
    | none => rfl
    | some d =>
      rw [this, Bool.eq_iff_iff]
      simp

theorem sh_cached (i : Ident) {x y : P Json} (h : Sh q x y) : Sh q (cached (mx cfg m) i x) (cached (mx cfg m') i y) := by
  unfold cached
  mxs
  refine Sh.ite h ?_
  intro s t hst
  rw [bind_ok (get_run s), bind_ok (get_run t), ← hst.flattened]
  cases List.find? (fun p => p.1 == i) s.flattened with
  | some p => exact Sh.pure _ s t hst
  | none =>
    refine Sh.bind h (fun j => Sh.bind (fun s t hst => ?_) fun _ => Sh.pure _) s t hst
    exact .inr ⟨.ok (), _, _, rfl, rfl, ⟨hst.objs, by simp only [hst.flattened], hst.left, hst.right, hst.gap⟩, by simp, by simp⟩

variable (hc : Limits q m m') (hfl : ∀ v, Sh q (fl v) (fl' v))
include hfl

theorem sh_kvp (k v : Val) (d : List (Str × Json)) : Sh q (flattenKeyValuePair w fl k v d) (flattenKeyValuePair w fl' k v d) := by
  unfold flattenKeyValuePair
  mxs
  exact Sh.ite (Sh.bind (by sh) fun _ => Sh.bind (hfl v) fun _ => (by sh)) (by sh)

theorem sh_escapeKey (k : Val) : Sh q (escapeKey w fl k) (escapeKey w fl' k) := by
  unfold escapeKey
  mxs
  exact Sh.bind (hfl k) fun _ => (by sh)

theorem sh_nonString (k v : Val) (d : List (Str × Json)) : Sh q (flattenNonString w (mx cfg m) fl k v d) (flattenNonString w (mx cfg m') fl' k v d) := by
  have h : Sh q (if cfg.keys = true then escapeKey w fl k >>= fun k' => fl v >>= fun j => pure (dset k' j d) else pure d)
    (if cfg.keys = true then escapeKey w fl' k >>= fun k' => fl' v >>= fun j => pure (dset k' j d) else pure d) :=
    Sh.ite (Sh.bind (sh_escapeKey hfl k) fun _ => Sh.bind (hfl v) fun _ => (by sh)) (by sh)
  unfold flattenNonString
  mxs
  refine Sh.ite ?_ (by sh)
  cases k <;> first | exact h | sh

theorem sh_stringTail (k v : Val) (d : List (Str × Json)) : Sh q (flattenStringTail w (mx cfg m) fl k v d) (flattenStringTail w (mx cfg m') fl' k v d) := by
  have h : ∀ k : Str, Sh q (fl v >>= fun j => pure (dset k j d)) (fl' v >>= fun j => pure (dset k j d)) := fun _ => Sh.bind (hfl v) fun _ => (by sh)
  unfold flattenStringTail
  mxs
  refine Sh.ite (Sh.ite ?_ (Sh.bind (by sh) fun _ => h _)) (by sh)
  cases k <;> first | sh | exact h _

theorem sh_string (k v : Val) (d : List (Str × Json)) : Sh q (flattenString w (mx cfg m) fl k v d) (flattenString w (mx cfg m') fl' k v d) := by
  have h1 := sh_stringTail (w := w) (cfg := cfg) (m := m) (m' := m') hfl k v d
  have h2 := sh_escapeKey (w := w) hfl k
  cases k with
  | str s =>
    unfold flattenString
    mxs
    exact Sh.ite (Sh.bind (hfl v) fun _ => Sh.bind h2 fun _ => (by sh)) h1
  | _ => exact h1

theorem sh_entries (kvs : List (Val × Val)) (ex : List Str) (d : List (Str × Json)) :
    Sh q (flattenEntries w (mx cfg m) fl kvs ex d) (flattenEntries w (mx cfg m') fl' kvs ex d) := by
  unfold flattenEntries
  mxs
  refine Sh.ite (Sh.bind ?_ fun _ => ?_) ?_
  · exact Sh.foldM (fun _ _ => sh_string hfl _ _ _) _ _
  · exact Sh.foldM (fun _ _ => sh_nonString hfl _ _ _) _ _
  · exact Sh.foldM (fun _ _ => sh_kvp hfl _ _ _) _ _

theorem sh_clone (x : Val) : Sh q (flattenClone w (mx cfg m) fl x) (flattenClone w (mx cfg m') fl' x) := by
  unfold flattenClone
  mxs
  exact Sh.bind (sh_entries hfl _ _ _) fun _ => (by sh)

theorem sh_factory (v : Val) (x : Except Exc Val) : Sh q (flattenFactory w (mx cfg m) fl v x) (flattenFactory w (mx cfg m') fl' v x) := by
  have h : Sh q (mkref cfg v.ident >>= fun new => if new = true then PyM.ofExcept x >>= fun x => flattenClone w (mx cfg m) fl x else getref v.ident)
    (mkref cfg v.ident >>= fun new => if new = true then PyM.ofExcept x >>= fun x => flattenClone w (mx cfg m') fl' x else getref v.ident) :=
    Sh.bind (by sh) fun _ => Sh.ite (Sh.bind (by sh) fun _ => sh_clone hfl _) (by sh)
  cases v <;> first | exact h | (unfold flattenFactory; mxs; exact h) | (unfold flattenFactory; sh)

theorem sh_default (fac : Option Val) (x : Except Exc Val) (d : List (Str × Json)) :
    Sh q (flattenDefault w (mx cfg m) fl fac x d) (flattenDefault w (mx cfg m') fl' fac x d) := by
  cases fac with
  | none => sh
  | some v =>
    unfold flattenDefault
    exact Sh.bind (sh_factory hfl v x) fun _ => (by sh)

theorem sh_ownDict (a : Addr) (i : Inst) (ex : List Str) (d : List (Str × Json)) :
    Sh q (flattenOwnDict w (mx cfg m) fl a i ex d) (flattenOwnDict w (mx cfg m') fl' a i ex d) := by
  unfold flattenOwnDict
  mxs
  exact Sh.ite (Sh.bind (by sh) fun _ => Sh.ite (Sh.bind (sh_entries hfl _ _ _) fun _ => (by sh)) (by sh)) (by sh)

theorem sh_dictSub (a : Addr) (i : Inst) (d : List (Str × Json)) : Sh q (flattenDictSub w (mx cfg m) fl a i d) (flattenDictSub w (mx cfg m') fl' a i d) := by
  unfold flattenDictSub
  mxs
  exact Sh.bind (sh_entries hfl _ _ _) fun _ => Sh.bind (sh_default hfl _ _ _) fun _ => sh_ownDict hfl a i _ _

theorem sh_objAttrs (i : Inst) (lk : List (Str × Val)) (ns : List Str) (d : List (Str × Json)) :
    Sh q (flattenObjAttrs w fl i lk ns d) (flattenObjAttrs w fl' i lk ns d) := by
  unfold flattenObjAttrs
  mxs
  refine Sh.foldM (fun b k => ?_) _ _
  exact Sh.ite (by sh) (Sh.tryCatch (Sh.bind (by sh) fun _ => Sh.bind (sh_kvp hfl _ _ _) fun _ => (by sh)) fun _ => (by sh))

theorem sh_slots (i : Inst) (d : List (Str × Json)) : Sh q (flattenSlots w fl i d) (flattenSlots w fl' i d) := by
  unfold flattenSlots
  mxs
  exact Sh.bind (sh_objAttrs hfl i _ _ _) fun r => Sh.ite (by sh) (Sh.bind (sh_objAttrs hfl i _ _ _) fun _ => (by sh))

theorem sh_sequence (i : Inst) (d : List (Str × Json)) : Sh q (flattenSequence w (mx cfg m) fl i d) (flattenSequence w (mx cfg m') fl' i d) := by
  unfold flattenSequence flattenSeqAttrs
  mxs
  exact Sh.bind (Sh.ite (sh_entries hfl _ _ _) (by sh)) fun _ => Sh.bind (Sh.mapM hfl _) fun _ => (by sh)

omit hfl in
include hc in
theorem sh_objWith (v : Val) (id : Ident) (e : Bool) (rep : Except Exc Str) {x y : P Json} (h : Sh q x y) :
    Sh q (flattenObjWith (mx cfg m) v id e rep x) (flattenObjWith (mx cfg m') v id e rep y) := by
  unfold flattenObjWith
  mxs
  exact Sh.bind (by sh) fun _ => Sh.bind (sh_maxReached hc) fun _ => Sh.tryCatch (Sh.bind (by sh) fun _ => Sh.ite (by sh) h) fun _ => (by sh)

include hc

theorem sh_filteredState (a : Addr) (kvs : List (Val × Val)) (ex : List Str) :
    Sh q (flattenFilteredState w (mx cfg m) fl a kvs ex) (flattenFilteredState w (mx cfg m') fl' a kvs ex) := by
  unfold flattenFilteredState
  mxs
  exact sh_cached _ (Sh.level (sh_objWith hc _ _ _ _
    (Sh.bind (by sh) fun _ => Sh.ite (Sh.bind (sh_entries hfl _ _ _) fun _ => (by sh)) (by sh))))

theorem sh_rest (a : Addr) (i : Inst) (d : List (Str × Json)) : Sh q (flattenRest w (mx cfg m) fl a i d) (flattenRest w (mx cfg m') fl' a i d) := by
  unfold flattenRest
  mxs
  cases i.info.base with
  | dict => exact Sh.bind (sh_dictSub hfl a i d) fun _ => (by sh)
  | list => exact sh_sequence hfl i d
  | set => exact sh_sequence hfl i d
  | tuple => exact sh_sequence hfl i d
  | plain =>
    refine Sh.ite (Sh.bind (Sh.mapM hfl _) fun _ => (by sh))
      (Sh.ite (Sh.bind (sh_entries hfl _ _ _) fun _ => (by sh)) (Sh.ite (sh_slots hfl i d) (Sh.ite (by sh) (Sh.ite (by sh) ?_))))
    cases (if i.info.reduces = true then i.reduce else ReduceVal.nothing) with
    | nothing => sh
    | str t => sh
    | raise e => exact Sh.ite (by sh) (by sh)
    | tup xs => exact Sh.ite (hfl _) (Sh.ite (hfl _) (by sh))

theorem sh_getstate (a : Addr) (i : Inst) (d : List (Str × Json)) : Sh q (flattenGetstate w (mx cfg m) fl a i d) (flattenGetstate w (mx cfg m') fl' a i d) := by
  simp only [Outside.getstate_eq]
  mxs
  have hr := sh_rest (w := w) (cfg := cfg) hc hfl a i d
  refine Sh.ite ?_ hr
  cases i.state with
  | error e => exact Sh.ite (by sh) (by sh)
  | ok st =>
    cases he : Outside.excludable w.heap i.exclude st with
    | none =>
      simp only [he]
      exact Sh.ite (Sh.bind (hfl st) fun _ => (by sh)) hr
    | some kvs =>
      simp only [he]
      exact Sh.ite hr (Sh.bind (sh_filteredState hc hfl a kvs _) fun _ => (by sh))

omit hc in
theorem sh_newargs (i : Inst) (d : List (Str × Json)) : Sh q (flattenNewargs fl i d) (flattenNewargs fl' i d) := by
  unfold flattenNewargs
  mxs
  exact Sh.ite (Sh.bind (by sh) fun _ => Sh.bind (hfl _) fun _ => Sh.bind (hfl _) fun _ => (by sh))
    (Sh.ite (Sh.bind (by sh) fun _ => Sh.bind (hfl _) fun _ => (by sh)) (by sh))

omit hc in
theorem sh_initargs (i : Inst) (d : List (Str × Json)) : Sh q (flattenInitargs fl i d) (flattenInitargs fl' i d) := by
  unfold flattenInitargs
  mxs
  exact Sh.ite (Sh.bind (by sh) fun _ => Sh.bind (hfl _) fun _ => (by sh)) (by sh)

theorem sh_body (a : Addr) (i : Inst) : Sh q (flattenBody w (mx cfg m) fl a i) (flattenBody w (mx cfg m') fl' a i) := by
  unfold flattenBody
  mxs
  exact Sh.bind (sh_newargs hfl i _) fun _ => Sh.bind (sh_initargs hfl i _) fun _ => sh_getstate hc hfl a i _

theorem sh_reduce (a : Addr) (i : Inst) : Sh q (flattenReduce w (mx cfg m) fl a i) (flattenReduce w (mx cfg m') fl' a i) := by
  have hb := sh_body (w := w) (cfg := cfg) hc hfl a i
  unfold flattenReduce
  mxs
  cases (if (cfg.unpicklable && i.info.reduces) = true then i.reduce else ReduceVal.nothing) with
  | nothing => exact hb
  | raise e => exact Sh.ite hb (by sh)
  | str t =>
    cases t with
    | none => exact hb
    | some v => exact Sh.tryCatch (hfl v) fun _ => hb
  | tup xs => exact Sh.ite hb (Sh.ite (Sh.bind (Sh.mapM hfl _) fun _ => (by sh)) hb)

theorem sh_date (a : Addr) (i : Inst) : Sh q (flattenDate w (mx cfg m) fl a i) (flattenDate w (mx cfg m') fl' a i) := by
  unfold flattenDate
  mxs
  exact Sh.ite (Sh.bind (Sh.mapM hfl _) fun _ => (by sh)) (Sh.bind (by sh) fun _ => Sh.bind (by sh) fun _ => (by sh))

theorem sh_inst (a : Addr) (i : Inst) : Sh q (flattenInst w (mx cfg m) fl a i) (flattenInst w (mx cfg m') fl' a i) := by
  unfold flattenInst
  mxs
  cases w.handler i.cls with
  | none => exact sh_reduce hc hfl a i
  | some k =>
    cases k with
    | record =>
      refine Sh.bind (Sh.foldM (fun _ kv => ?_) _ _) fun _ => (by sh)
      exact Sh.bind (hfl kv.2) fun _ => (by sh)
    | datetime => exact sh_date hc hfl a i
    | «opaque» => sh
    | drop => sh

omit hfl in
theorem sh_refObj (id : Ident) (e : Bool) {x y : P Json} (h : Sh q x y) : Sh q (refObjInstance (mx cfg m) id e x) (refObjInstance (mx cfg m') id e y) := by
  unfold refObjInstance
  mxs
  exact Sh.ite (Sh.bind (by sh) fun _ => Sh.ite h (by sh))
    (Sh.bind (sh_maxReached hc) fun _ => Sh.bind (by sh) fun _ => Sh.ite (by sh) (Sh.bind (by sh) fun _ => h))

theorem sh_by (v : Val) : Sh q (flattenBy w (mx cfg m) fl v) (flattenBy w (mx cfg m') fl' v) := by
  cases v with
  | ref a =>
    simp only [flattenBy]
    mxs
    cases ho : w.heap[a]? with
    | none => sh
    | some o =>
      cases o with
      | list xs => exact Sh.bind (by sh) fun _ => Sh.ite (Sh.bind (Sh.mapM hfl _) fun _ => (by sh)) (by sh)
      | dict kvs => exact Sh.bind (by sh) fun _ => Sh.ite (Sh.bind (sh_entries hfl _ _ _) fun _ => (by sh)) (by sh)
      | inst i => exact sh_refObj hc (.addr a) _ (sh_inst hc hfl a i)
      | _ => sh
  | tuple i xs => simp only [flattenBy]; mxs; exact Sh.bind (Sh.mapM hfl _) fun _ => (by sh)
  | set i xs => simp only [flattenBy]; mxs; exact Sh.bind (Sh.mapM hfl _) fun _ => (by sh)
  | module n => simp only [flattenBy]; mxs; exact sh_refObj hc (.mod n) false (by unfold flattenModule; exact Sh.ite (by sh) (by sh))
  | _ => simp only [flattenBy]; mxs; sh

theorem sh_step (v : Val) : Sh q (flattenStep w (mx cfg m) fl v) (flattenStep w (mx cfg m') fl' v) := by
  have h : Sh q (push >>= fun _ => flattenObj w (mx cfg m) fl v >>= fun j => pop j) (push >>= fun _ => flattenObj w (mx cfg m') fl' v >>= fun j => pop j) :=
    Sh.level (by unfold flattenObj; exact sh_objWith hc _ _ _ _ (sh_by hc hfl v))
  have hk := fun {x y : P Json} (h : Sh q x y) => sh_cached (cfg := cfg) (m := m) (m' := m') v.ident h
  cases v <;> first | sh | exact hk (by sh) | exact hk h | (refine hk ?_; simp only [flattenImpl]; mxs; sh)


omit hfl in
theorem sh_flatten : ∀ (n : Nat) (v : Val), Sh q (flatten w (mx cfg m) n v) (flatten w (mx cfg m') n v)
  | 0, _ => Sh.outOfFuel
  | n + 1, v => sh_step hc (sh_flatten n) v

omit hc hfl in
/-- The result does not depend on the counter at the top level either, where the state is dropped at the end. -/
theorem flatten_result (hc : Limits q m m') {s t : PState} (ho : s.objs = t.objs) (hf : s.flattened = t.flattened)
    (hs : -1 ≤ s.depth) (ht : -1 ≤ t.depth) (hg : ∀ c, q = some c → t.depth = s.depth + c) (n : Nat) (v : Val) :
    (flatten w (mx cfg m) n v s).map (·.1) = (flatten w (mx cfg m') n v t).map (·.1) := by
  cases n with
  | zero => rfl
  | succ n =>
    have hk : ∀ {x y : P Json} (i : Ident), (x s).map (·.1) = (y t).map (·.1) → (cached (mx cfg m) i x s).map (·.1) = (cached (mx cfg m') i y t).map (·.1) := by
      intro x y i h
      unfold cached
      mxs
      split
      · exact h
      · rw [bind_ok (get_run s), bind_ok (get_run t), ← hf]
        cases List.find? (fun p => p.1 == i) s.flattened with
        | some p => rfl
        | none =>
          simp only [bind_run]
          cases hx : x s with
          | none =>
            cases hy : y t with
            | none => rfl
            | some r => rw [hx, hy] at h; cases h
          | some r =>
            cases hy : y t with
            | none => rw [hx, hy] at h; cases h
            | some r' =>
              rw [hx, hy] at h
              simp only [Option.map_some, Option.some.injEq] at h
              obtain ⟨r, s1⟩ := r
              obtain ⟨r', t1⟩ := r'
              simp only at h
              subst h
              cases r <;> rfl
    have hl : (flattenObj w (mx cfg m) (flatten w (mx cfg m) n) v { s with depth := s.depth + 1 }).map (·.1) = (flattenObj w (mx cfg m') (flatten w (mx cfg m') n) v { t with depth := t.depth + 1 }).map (·.1) →
        ((push >>= fun _ => flattenObj w (mx cfg m) (flatten w (mx cfg m) n) v >>= fun j => pop j) s).map (·.1) =
        ((push >>= fun _ => flattenObj w (mx cfg m') (flatten w (mx cfg m') n) v >>= fun j => pop j) t).map (·.1) := by
      intro h
      simp only [push, bind_run, modify_run]
      cases hx : flattenObj w (mx cfg m) (flatten w (mx cfg m) n) v { s with depth := s.depth + 1 } with
      | none =>
        rw [hx] at h
        cases hy : flattenObj w (mx cfg m') (flatten w (mx cfg m') n) v { t with depth := t.depth + 1 } with
        | none => rfl
        | some r => rw [hy] at h; cases h
      | some r =>
        rw [hx] at h
        cases hy : flattenObj w (mx cfg m') (flatten w (mx cfg m') n) v { t with depth := t.depth + 1 } with
        | none => rw [hy] at h; cases h
        | some r' =>
          rw [hy] at h
          simp only [Option.map_some, Option.some.injEq] at h
          obtain ⟨r, s1⟩ := r
          obtain ⟨r', t1⟩ := r'
          simp only at h
          subst h
          cases r <;> rfl
    have ho := hl (by
      have hst : SR q { s with depth := s.depth + 1 } { t with depth := t.depth + 1 } :=
        ⟨ho, hf, by simp only; omega, by simp only; omega, fun c hc => by have := hg c hc; simp only; omega⟩
      rcases (by unfold flattenObj; exact sh_objWith hc _ _ _ _ (sh_by hc (sh_flatten hc n) v) : Sh q (flattenObj w (mx cfg m) (flatten w (mx cfg m) n) v) (flattenObj w (mx cfg m') (flatten w (mx cfg m') n) v)) _ _ hst with ⟨h1, h2⟩ | ⟨r, s', t', h1, h2, _⟩
      · rw [h1, h2]
      · rw [h1, h2]; rfl)
    cases v <;> first | rfl | exact hk _ rfl | exact hk _ ho

end JP.Pickler
