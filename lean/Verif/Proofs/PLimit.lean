import Verif.Api
import Verif.Proofs.PCongr
/-!
# A large `max_depth` is never reached
-/
namespace JP.Pickler
open PyM

/-- the same options with a limit -/
def lim (cfg : PCfg) (d : Int) : PCfg := { cfg with maxDepth := some d }

/-- `x d` does the same as `y`, in every state, for all large `d` -/
def Ev {α : Type} (x : Int → P α) (y : P α) : Prop := ∀ s, ∃ D, ∀ d, D ≤ d → x d s = y s

namespace Ev
variable {α β γ : Type}

theorem same (x : P α) : Ev (fun _ => x) x := fun _ => ⟨0, fun _ _ => rfl⟩

theorem bind {x : Int → P α} {y : P α} {k : Int → α → P β} {k' : α → P β} (h : Ev x y) (hk : ∀ a, Ev (fun d => k d a) (k' a)) :
    Ev (fun d => x d >>= k d) (y >>= k') := by
  intro s
  obtain ⟨D, hD⟩ := h s
  cases hy : y s with
  | none =>
    refine ⟨D, fun d hd => ?_⟩
    simp only [bind_run]
    rw [hD d hd, hy]
  | some r =>
    obtain ⟨r, s'⟩ := r
    cases r with
    | error e =>
      refine ⟨D, fun d hd => ?_⟩
      simp only [bind_run]
      rw [hD d hd, hy]
    | ok a =>
      obtain ⟨E, hE⟩ := hk a s'
      refine ⟨max D E, fun d hd => ?_⟩
      simp only [bind_run]
      rw [hD d (by omega), hy]
      exact hE d (by omega)

theorem tryCatch {x : Int → P α} {y : P α} {p : Exc → Bool} {k : Int → Exc → P α} {k' : Exc → P α} (h : Ev x y) (hk : ∀ e, Ev (fun d => k d e) (k' e)) :
    Ev (fun d => PyM.tryCatch (x d) p (k d)) (PyM.tryCatch y p k') := by
  intro s
  obtain ⟨D, hD⟩ := h s
  unfold PyM.tryCatch
  cases hy : y s with
  | none =>
    refine ⟨D, fun d hd => ?_⟩
    simp only
    rw [hD d hd, hy]
  | some r =>
    obtain ⟨r, s'⟩ := r
    cases r with
    | ok a =>
      refine ⟨D, fun d hd => ?_⟩
      simp only
      rw [hD d hd, hy]
    | error e =>
      obtain ⟨E, hE⟩ := hk e s'
      refine ⟨max D E, fun d hd => ?_⟩
      simp only
      rw [hD d (by omega), hy]
      simp only
      rw [show k d e s' = k' e s' from hE d (by omega)]

theorem mapM {x : Int → γ → P β} {y : γ → P β} (h : ∀ v, Ev (fun d => x d v) (y v)) : ∀ (xs : List γ), Ev (fun d => PyM.mapM (x d) xs) (PyM.mapM y xs)
  | [] => same _
  | v :: xs => by
    simp only [mapM_cons]
    exact bind (h v) fun _ => bind (mapM h xs) fun _ => same _

theorem foldM {x : Int → β → γ → P β} {y : β → γ → P β} (h : ∀ b v, Ev (fun d => x d b v) (y b v)) : ∀ (xs : List γ) (b : β),
    Ev (fun d => PyM.foldM (x d) b xs) (PyM.foldM y b xs)
  | [], _ => same _
  | v :: xs, b => by
    simp only [foldM_cons]
    exact bind (h b v) fun _ => foldM h xs _

theorem ite {c : Prop} [Decidable c] {x x' : Int → P α} {y y' : P α} (h : Ev x y) (h' : Ev x' y') : Ev (fun d => if c then x d else x' d) (if c then y else y') := by
  split
  · exact h
  · exact h'

end Ev

/-- nothing but `maxReached` looks at the limit -/
macro "lims" : tactic => `(tactic| try simp only [
  show ∀ (c : PCfg) D, (lim c D).keys = c.keys from fun _ _ => rfl,
  show ∀ (c : PCfg) D, (lim c D).unpicklable = c.unpicklable from fun _ _ => rfl,
  show ∀ (c : PCfg) D, (lim c D).makeRefs = c.makeRefs from fun _ _ => rfl,
  show ∀ (c : PCfg) D, (lim c D).failSafe = c.failSafe from fun _ _ => rfl,
  show ∀ (c : PCfg) D, mkref (lim c D) = mkref c from fun _ _ => rfl,
  show ∀ (c : PCfg) D, iterated (lim c D) = iterated c from fun _ _ => rfl,
  show ∀ (c : PCfg) D, iterErr (lim c D) = iterErr c from fun _ _ => rfl,
  show ∀ (c : PCfg) D, putState (lim c D) = putState c from fun _ _ => rfl,
  show ∀ (c : PCfg) D, objTag (lim c D) = objTag c from fun _ _ => rfl,
  show ∀ (c : PCfg) D, flattenBytestring (lim c D) = flattenBytestring c from fun _ _ => rfl,
  show ∀ (w : World) (c : PCfg) D, flattenModule w (lim c D) = flattenModule w c from fun _ _ _ => rfl])

variable {w : World} {cfg : PCfg} {fl : Int → Val → P Json} {fl' : Val → P Json}

theorem ev_maxReached (hc : cfg.maxDepth = none) : Ev (fun d => maxReached (lim cfg d)) (maxReached cfg) := by
  intro s
  refine ⟨s.depth + 1, fun d hd => ?_⟩
  unfold maxReached lim
  simp only [gets_run, hc]
  have : ¬ s.depth = d := by omega
  simp [this]

theorem ev_cached (i : Ident) {x : Int → P Json} {y : P Json} (h : Ev x y) : Ev (fun d => cached (lim cfg d) i (x d)) (cached cfg i y) := by
  unfold cached
  lims
  refine Ev.ite h (Ev.bind (Ev.same _) fun s => ?_)
  cases List.find? (fun p => p.1 == i) s.flattened with
  | some p => exact Ev.same _
  | none => exact Ev.bind h fun _ => Ev.same _

variable (hc : cfg.maxDepth = none) (hfl : ∀ v, Ev (fun d => fl d v) (fl' v))
include hfl

theorem ev_kvp (k v : Val) (d : List (Str × Json)) : Ev (fun D => flattenKeyValuePair w (fl D) k v d) (flattenKeyValuePair w fl' k v d) := by
  unfold flattenKeyValuePair
  lims
  exact Ev.ite (Ev.bind (Ev.same _) fun _ => Ev.bind (hfl v) fun _ => Ev.same _) (Ev.same _)

theorem ev_escapeKey (k : Val) : Ev (fun D => escapeKey w (fl D) k) (escapeKey w fl' k) := by
  unfold escapeKey
  lims
  exact Ev.bind (hfl k) fun _ => Ev.same _

theorem ev_nonString (k v : Val) (d : List (Str × Json)) : Ev (fun D => flattenNonString w (lim cfg D) (fl D) k v d) (flattenNonString w cfg fl' k v d) := by
  have h : Ev (fun D => if cfg.keys = true then escapeKey w (fl D) k >>= fun k' => fl D v >>= fun j => pure (dset k' j d) else pure d)
    (if cfg.keys = true then escapeKey w fl' k >>= fun k' => fl' v >>= fun j => pure (dset k' j d) else pure d) :=
    Ev.ite (Ev.bind (ev_escapeKey hfl k) fun _ => Ev.bind (hfl v) fun _ => Ev.same _) (Ev.same _)
  unfold flattenNonString
  lims
  refine Ev.ite ?_ (Ev.same _)
  cases k <;> first | exact h | exact Ev.same _

theorem ev_stringTail (k v : Val) (d : List (Str × Json)) : Ev (fun D => flattenStringTail w (lim cfg D) (fl D) k v d) (flattenStringTail w cfg fl' k v d) := by
  have h : ∀ k : Str, Ev (fun D => fl D v >>= fun j => pure (dset k j d)) (fl' v >>= fun j => pure (dset k j d)) := fun _ => Ev.bind (hfl v) fun _ => Ev.same _
  unfold flattenStringTail
  lims
  refine Ev.ite (Ev.ite ?_ (Ev.bind (Ev.same _) fun _ => h _)) (Ev.same _)
  cases k <;> first | exact Ev.same _ | exact h _

theorem ev_string (k v : Val) (d : List (Str × Json)) : Ev (fun D => flattenString w (lim cfg D) (fl D) k v d) (flattenString w cfg fl' k v d) := by
  have h1 := ev_stringTail (w := w) (cfg := cfg) hfl k v d
  have h2 := ev_escapeKey (w := w) hfl k
  cases k with
  | str s =>
    unfold flattenString
    lims
    exact Ev.ite (Ev.bind (hfl v) fun _ => Ev.bind h2 fun _ => Ev.same _) h1
  | _ => exact h1

theorem ev_entries (kvs : List (Val × Val)) (ex : List Str) (d : List (Str × Json)) :
    Ev (fun D => flattenEntries w (lim cfg D) (fl D) kvs ex d) (flattenEntries w cfg fl' kvs ex d) := by
  unfold flattenEntries
  lims
  refine Ev.ite (Ev.bind ?_ fun _ => ?_) ?_
  · exact Ev.foldM (fun _ _ => ev_string hfl _ _ _) _ _
  · exact Ev.foldM (fun _ _ => ev_nonString hfl _ _ _) _ _
  · exact Ev.foldM (fun _ _ => ev_kvp hfl _ _ _) _ _

theorem ev_clone (x : Val) : Ev (fun D => flattenClone w (lim cfg D) (fl D) x) (flattenClone w cfg fl' x) := by
  unfold flattenClone
  lims
  exact Ev.bind (ev_entries hfl _ _ _) fun _ => Ev.same _

theorem ev_factory (v : Val) (x : Except Exc Val) : Ev (fun D => flattenFactory w (lim cfg D) (fl D) v x) (flattenFactory w cfg fl' v x) := by
  have h : Ev (fun D => mkref cfg v.ident >>= fun new => if new = true then PyM.ofExcept x >>= fun x => flattenClone w (lim cfg D) (fl D) x else getref v.ident)
    (mkref cfg v.ident >>= fun new => if new = true then PyM.ofExcept x >>= fun x => flattenClone w cfg fl' x else getref v.ident) :=
    Ev.bind (Ev.same _) fun _ => Ev.ite (Ev.bind (Ev.same _) fun _ => ev_clone hfl _) (Ev.same _)
  cases v <;> first | exact h | (unfold flattenFactory; lims; exact h) | (unfold flattenFactory; exact Ev.same _)

theorem ev_default (fac : Option Val) (x : Except Exc Val) (d : List (Str × Json)) :
    Ev (fun D => flattenDefault w (lim cfg D) (fl D) fac x d) (flattenDefault w cfg fl' fac x d) := by
  cases fac with
  | none => exact Ev.same _
  | some v =>
    unfold flattenDefault
    exact Ev.bind (ev_factory hfl v x) fun _ => Ev.same _

theorem ev_ownDict (a : Addr) (i : Inst) (ex : List Str) (d : List (Str × Json)) :
    Ev (fun D => flattenOwnDict w (lim cfg D) (fl D) a i ex d) (flattenOwnDict w cfg fl' a i ex d) := by
  unfold flattenOwnDict
  lims
  exact Ev.ite (Ev.bind (Ev.same _) fun _ => Ev.ite (Ev.bind (ev_entries hfl _ _ _) fun _ => Ev.same _) (Ev.same _)) (Ev.same _)

theorem ev_dictSub (a : Addr) (i : Inst) (d : List (Str × Json)) : Ev (fun D => flattenDictSub w (lim cfg D) (fl D) a i d) (flattenDictSub w cfg fl' a i d) := by
  unfold flattenDictSub
  lims
  exact Ev.bind (ev_entries hfl _ _ _) fun _ => Ev.bind (ev_default hfl _ _ _) fun _ => ev_ownDict hfl a i _ _

theorem ev_objAttrs (i : Inst) (lk : List (Str × Val)) (ns : List Str) (d : List (Str × Json)) :
    Ev (fun D => flattenObjAttrs w (fl D) i lk ns d) (flattenObjAttrs w fl' i lk ns d) := by
  unfold flattenObjAttrs
  lims
  refine Ev.foldM (fun b k => ?_) _ _
  exact Ev.ite (Ev.same _) (Ev.tryCatch (Ev.bind (Ev.same _) fun _ => Ev.bind (ev_kvp hfl _ _ _) fun _ => Ev.same _) fun _ => Ev.same _)

theorem ev_slots (i : Inst) (d : List (Str × Json)) : Ev (fun D => flattenSlots w (fl D) i d) (flattenSlots w fl' i d) := by
  unfold flattenSlots
  lims
  exact Ev.bind (ev_objAttrs hfl i _ _ _) fun r => Ev.ite (Ev.same _) (Ev.bind (ev_objAttrs hfl i _ _ _) fun _ => Ev.same _)

theorem ev_sequence (i : Inst) (d : List (Str × Json)) : Ev (fun D => flattenSequence w (lim cfg D) (fl D) i d) (flattenSequence w cfg fl' i d) := by
  unfold flattenSequence flattenSeqAttrs
  lims
  exact Ev.bind (Ev.ite (ev_entries hfl _ _ _) (Ev.same _)) fun _ => Ev.bind (Ev.mapM hfl _) fun _ => Ev.same _

omit hfl in
include hc in
theorem ev_objWith (v : Val) (id : Ident) (e : Bool) (rep : Except Exc Str) {x : Int → P Json} {y : P Json} (h : Ev x y) :
    Ev (fun D => flattenObjWith (lim cfg D) v id e rep (x D)) (flattenObjWith cfg v id e rep y) := by
  unfold flattenObjWith
  lims
  exact Ev.bind (Ev.same _) fun _ => Ev.bind (ev_maxReached hc) fun _ => Ev.tryCatch (Ev.bind (Ev.same _) fun _ => Ev.ite (Ev.same _) h) fun _ => Ev.same _

include hc

theorem ev_filteredState (a : Addr) (kvs : List (Val × Val)) (ex : List Str) :
    Ev (fun D => flattenFilteredState w (lim cfg D) (fl D) a kvs ex) (flattenFilteredState w cfg fl' a kvs ex) := by
  unfold flattenFilteredState
  lims
  exact ev_cached _ (Ev.bind (Ev.same _) fun _ => Ev.bind (ev_objWith hc _ _ _ _
    (Ev.bind (Ev.same _) fun _ => Ev.ite (Ev.bind (ev_entries hfl _ _ _) fun _ => Ev.same _) (Ev.same _))) fun _ => Ev.same _)

theorem ev_rest (a : Addr) (i : Inst) (d : List (Str × Json)) : Ev (fun D => flattenRest w (lim cfg D) (fl D) a i d) (flattenRest w cfg fl' a i d) := by
  unfold flattenRest
  lims
  cases i.info.base with
  | dict => exact Ev.bind (ev_dictSub hfl a i d) fun _ => Ev.same _
  | list => exact ev_sequence hfl i d
  | set => exact ev_sequence hfl i d
  | tuple => exact ev_sequence hfl i d
  | plain =>
    refine Ev.ite (Ev.bind (Ev.mapM hfl _) fun _ => Ev.same _)
      (Ev.ite (Ev.bind (ev_entries hfl _ _ _) fun _ => Ev.same _) (Ev.ite (ev_slots hfl i d) (Ev.ite (Ev.same _) (Ev.ite (Ev.same _) ?_))))
    cases (if i.info.reduces = true then i.reduce else ReduceVal.nothing) with
    | nothing => exact Ev.same _
    | str t => exact Ev.same _
    | raise e => exact Ev.same _
    | tup xs => exact Ev.ite (hfl _) (Ev.ite (hfl _) (Ev.same _))

theorem ev_getstate (a : Addr) (i : Inst) (d : List (Str × Json)) : Ev (fun D => flattenGetstate w (lim cfg D) (fl D) a i d) (flattenGetstate w cfg fl' a i d) := by
  simp only [Outside.getstate_eq]
  lims
  have hr := ev_rest (w := w) hc hfl a i d
  refine Ev.ite ?_ hr
  cases i.state with
  | error e => exact Ev.same _
  | ok st =>
    cases he : Outside.excludable w.heap i.exclude st with
    | none =>
      simp only [he]
      exact Ev.ite (Ev.bind (hfl st) fun _ => Ev.same _) hr
    | some kvs =>
      simp only [he]
      exact Ev.ite hr (Ev.bind (ev_filteredState hc hfl a kvs _) fun _ => Ev.same _)

omit hc in
theorem ev_newargs (i : Inst) (d : List (Str × Json)) : Ev (fun D => flattenNewargs (fl D) i d) (flattenNewargs fl' i d) := by
  unfold flattenNewargs
  lims
  exact Ev.ite (Ev.bind (Ev.same _) fun _ => Ev.bind (hfl _) fun _ => Ev.bind (hfl _) fun _ => Ev.same _)
    (Ev.ite (Ev.bind (Ev.same _) fun _ => Ev.bind (hfl _) fun _ => Ev.same _) (Ev.same _))

omit hc in
theorem ev_initargs (i : Inst) (d : List (Str × Json)) : Ev (fun D => flattenInitargs (fl D) i d) (flattenInitargs fl' i d) := by
  unfold flattenInitargs
  lims
  exact Ev.ite (Ev.bind (Ev.same _) fun _ => Ev.bind (hfl _) fun _ => Ev.same _) (Ev.same _)

theorem ev_body (a : Addr) (i : Inst) : Ev (fun D => flattenBody w (lim cfg D) (fl D) a i) (flattenBody w cfg fl' a i) := by
  unfold flattenBody
  lims
  exact Ev.bind (ev_newargs hfl i _) fun _ => Ev.bind (ev_initargs hfl i _) fun _ => ev_getstate hc hfl a i _

theorem ev_reduce (a : Addr) (i : Inst) : Ev (fun D => flattenReduce w (lim cfg D) (fl D) a i) (flattenReduce w cfg fl' a i) := by
  have hb := ev_body (w := w) hc hfl a i
  unfold flattenReduce
  lims
  cases (if (cfg.unpicklable && i.info.reduces) = true then i.reduce else ReduceVal.nothing) with
  | nothing => exact hb
  | raise e => exact Ev.ite hb (Ev.same _)
  | str t =>
    cases t with
    | none => exact hb
    | some v => exact Ev.tryCatch (hfl v) fun _ => hb
  | tup xs => exact Ev.ite hb (Ev.ite (Ev.bind (Ev.mapM hfl _) fun _ => Ev.same _) hb)

theorem ev_date (a : Addr) (i : Inst) : Ev (fun D => flattenDate w (lim cfg D) (fl D) a i) (flattenDate w cfg fl' a i) := by
  unfold flattenDate
  lims
  exact Ev.ite (Ev.bind (Ev.mapM hfl _) fun _ => Ev.same _) (Ev.same _)

theorem ev_inst (a : Addr) (i : Inst) : Ev (fun D => flattenInst w (lim cfg D) (fl D) a i) (flattenInst w cfg fl' a i) := by
  unfold flattenInst
  lims
  cases w.handler i.cls with
  | none => exact ev_reduce hc hfl a i
  | some k =>
    cases k with
    | record =>
      refine Ev.bind (Ev.foldM (fun _ kv => ?_) _ _) fun _ => Ev.same _
      exact Ev.bind (hfl kv.2) fun _ => Ev.same _
    | datetime => exact ev_date hc hfl a i
    | «opaque» => exact Ev.same _
    | drop => exact Ev.same _

omit hfl in
theorem ev_refObj (id : Ident) (e : Bool) {x : Int → P Json} {y : P Json} (h : Ev x y) : Ev (fun D => refObjInstance (lim cfg D) id e (x D)) (refObjInstance cfg id e y) := by
  unfold refObjInstance
  lims
  exact Ev.ite (Ev.bind (Ev.same _) fun _ => Ev.ite h (Ev.same _))
    (Ev.bind (ev_maxReached hc) fun _ => Ev.bind (Ev.same _) fun _ => Ev.ite (Ev.same _) (Ev.bind (Ev.same _) fun _ => h))

theorem ev_by (v : Val) : Ev (fun D => flattenBy w (lim cfg D) (fl D) v) (flattenBy w cfg fl' v) := by
  cases v with
  | ref a =>
    simp only [flattenBy]
    lims
    cases ho : w.heap[a]? with
    | none => exact Ev.same _
    | some o =>
      cases o with
      | list xs => exact Ev.bind (Ev.same _) fun _ => Ev.ite (Ev.bind (Ev.mapM hfl _) fun _ => Ev.same _) (Ev.same _)
      | dict kvs => exact Ev.bind (Ev.same _) fun _ => Ev.ite (Ev.bind (ev_entries hfl _ _ _) fun _ => Ev.same _) (Ev.same _)
      | inst i => exact ev_refObj hc (.addr a) _ (ev_inst hc hfl a i)
      | _ => exact Ev.same _
  | tuple i xs => simp only [flattenBy]; lims; exact Ev.bind (Ev.mapM hfl _) fun _ => Ev.same _
  | set i xs => simp only [flattenBy]; lims; exact Ev.bind (Ev.mapM hfl _) fun _ => Ev.same _
  | module n => simp only [flattenBy]; lims; exact ev_refObj hc (.mod n) false (Ev.same _)
  | _ => simp only [flattenBy]; lims; exact Ev.same _

theorem ev_step (v : Val) : Ev (fun D => flattenStep w (lim cfg D) (fl D) v) (flattenStep w cfg fl' v) := by
  have h : Ev (fun D => push >>= fun _ => flattenObj w (lim cfg D) (fl D) v >>= fun j => pop j) (push >>= fun _ => flattenObj w cfg fl' v >>= fun j => pop j) :=
    Ev.bind (Ev.same _) fun _ => Ev.bind (by unfold flattenObj; exact ev_objWith hc _ _ _ _ (ev_by hc hfl v)) fun _ => Ev.same _
  have hk := fun {x : Int → P Json} {y : P Json} (h : Ev x y) => ev_cached (cfg := cfg) v.ident h
  cases v <;> first | exact Ev.same _ | exact hk (Ev.same _) | exact hk h | (refine hk ?_; simp only [flattenImpl]; lims; exact Ev.same _)

omit hfl in
theorem ev_flatten : ∀ (n : Nat) (v : Val), Ev (fun D => flatten w (lim cfg D) n v) (flatten w cfg n v)
  | 0, _ => Ev.same _
  | n + 1, v => ev_step hc (ev_flatten n) v

omit hfl in
theorem ev_encode (n : Nat) (v : Val) (reset : Bool) : Ev (fun D => Api.encode w (lim cfg D) n v reset) (Api.encode w cfg n v reset) := by
  unfold Api.encode flattenTop
  lims
  exact Ev.bind (Ev.ite (Ev.bind (Ev.same _) fun _ => ev_flatten hc n v) (ev_flatten hc n v)) fun _ => Ev.same _

end JP.Pickler
