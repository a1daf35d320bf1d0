import Verif.Proofs.PPropDoc
import Verif.Properties
/-! # The properties change nothing that the decoder reads

`Sim A x y`: whenever `y`, the run with properties, returns or raises, so does `x`, the run without, with related results and the same
table of objects. -/
namespace JP.Pickler.WithProps
open JP PyM Pickler Unpickler Unpickler.Pruning

variable {env : UEnv} {w : World} {cfg : PCfg} {px : PropCfg} {fl fl' : Val → P Json} {α β γ δ : Type}

/-- the states agree but for the objects kept alive and the cache, which is not used -/
def St (s s' : PState) : Prop := s.depth = s'.depth ∧ s.objs = s'.objs

def Out (A : α → β → Prop) : Except Exc α → Except Exc β → Prop
  | .ok a, .ok b => A a b
  | .error e, .error e' => e = e'
  | _, _ => False

/-- the run that is known to end: the one with properties (`true`), or the one without -/
def Ends (dir : Bool) {α β : Type} (x : Option α) (y : Option β) : Prop := if dir then y.isSome else x.isSome

def Sim (dir : Bool) (A : α → β → Prop) (x : P α) (y : P β) : Prop :=
  ∀ s s', St s s' → 0 ≤ s.depth → Ends dir (x s) (y s') →
    ∃ r t r' t', x s = some (r, t) ∧ y s' = some (r', t') ∧ St t t' ∧ s.depth ≤ t.depth ∧ Out A r r'

theorem Ends.ends {dir : Bool} {α β : Type} (a : α) (b : β) : Ends dir (some a) (some b) := by cases dir <;> rfl

/-- both runs end -/
theorem Sim.total {dir : Bool} {A : α → β → Prop} {x : P α} {y : P β}
    (h : ∀ s s', St s s' → 0 ≤ s.depth → ∃ r t r' t', x s = some (r, t) ∧ y s' = some (r', t') ∧ St t t' ∧ s.depth ≤ t.depth ∧ Out A r r') :
    Sim dir A x y := fun s s' hs hd _ => h s s' hs hd

theorem Sim.pure {dir : Bool} {A : α → β → Prop} {a : α} {b : β} (h : A a b) : Sim dir A (Pure.pure a : P α) (Pure.pure b : P β) :=
  Sim.total (fun _ _ hs _ => ⟨_, _, _, _, rfl, rfl, hs, Int.le_refl _, h⟩)

theorem Sim.throw {dir : Bool} {A : α → β → Prop} (e : Exc) : Sim dir A (PyM.throw e : P α) (PyM.throw e : P β) :=
  Sim.total (fun _ _ hs _ => ⟨_, _, _, _, rfl, rfl, hs, Int.le_refl _, rfl⟩)

theorem Ends.first {dir : Bool} {x : P α} {y : P β} {f : α → P γ} {g : β → P δ} {s s' : PState}
    (h : Ends dir ((x >>= f) s) ((y >>= g) s')) : Ends dir (x s) (y s') := by
  unfold Ends at *
  rw [bind_run, bind_run] at h
  cases dir with
  | true => cases hy : y s' with
    | none => rw [hy] at h; exact h
    | some _ => rfl
  | false => cases hx : x s with
    | none => rw [hx] at h; exact h
    | some _ => rfl

theorem Sim.bind {dir : Bool} {A : α → β → Prop} {B : γ → δ → Prop} {x : P α} {y : P β} {f : α → P γ} {g : β → P δ} (h : Sim dir A x y)
    (hf : ∀ a b, A a b → Sim dir B (f a) (g b)) : Sim dir B (x >>= f) (y >>= g) := by
  intro s s' hs hd he
  obtain ⟨r, u, q, u', hx, hy, hu, hle, ho⟩ := h s s' hs hd he.first
  rw [bind_run, bind_run, hx, hy] at he
  rw [bind_run, bind_run, hx, hy]
  cases q with
  | error e =>
    cases r with
    | ok a => cases ho
    | error e' => exact ⟨_, _, _, _, rfl, rfl, hu, hle, ho⟩
  | ok b =>
    cases r with
    | error e' => cases ho
    | ok a =>
      obtain ⟨r2, t2, r3, t3, h1, h1', h2, h3, h4⟩ := hf a b ho u u' hu (Int.le_trans hd hle) he
      exact ⟨r2, t2, r3, t3, h1, h1', h2, Int.le_trans hle h3, h4⟩

theorem Sim.ofExcept {dir : Bool} {A : α → β → Prop} {x : Except Exc α} {y : Except Exc β} (h : Out A x y) :
    Sim dir A (PyM.ofExcept x : P α) (PyM.ofExcept y : P β) :=
  Sim.total (fun _ _ hs _ => ⟨_, _, _, _, rfl, rfl, hs, Int.le_refl _, h⟩)

theorem Out.refl (x : Except Exc α) : Out (· = ·) x x := by cases x <;> rfl

theorem Sim.same {dir : Bool} (x : Except Exc α) : Sim dir (· = ·) (PyM.ofExcept x : P α) (PyM.ofExcept x : P α) := Sim.ofExcept (Out.refl x)

theorem Ends.tried {dir : Bool} {x : P α} {y : P β} {p : Exc → Bool} {f : Exc → P α} {g : Exc → P β} {s s' : PState}
    (h : Ends dir (PyM.tryCatch x p f s) (PyM.tryCatch y p g s')) : Ends dir (x s) (y s') := by
  unfold Ends PyM.tryCatch at *
  cases dir with
  | true => cases hy : y s' with
    | none => rw [hy] at h; exact h
    | some _ => rfl
  | false => cases hx : x s with
    | none => rw [hx] at h; exact h
    | some _ => rfl

theorem Sim.tryCatch {dir : Bool} {A : α → β → Prop} {x : P α} {y : P β} {p : Exc → Bool} {f : Exc → P α} {g : Exc → P β} (h : Sim dir A x y)
    (hf : ∀ e, Sim dir A (f e) (g e)) : Sim dir A (PyM.tryCatch x p f) (PyM.tryCatch y p g) := by
  intro s s' hs hd he
  obtain ⟨r, u, q, u', hx, hy, hu, hle, ho⟩ := h s s' hs hd he.tried
  unfold PyM.tryCatch at he ⊢
  rw [hx, hy] at he
  rw [hx, hy]
  cases q with
  | ok b =>
    cases r with
    | error e => cases ho
    | ok a => exact ⟨_, _, _, _, rfl, rfl, hu, hle, ho⟩
  | error e =>
    cases r with
    | ok a => cases ho
    | error e' =>
      have ho : e' = e := ho
      subst ho
      dsimp only at he ⊢
      cases hp : p e' with
      | true =>
        rw [hp] at he
        simp only [if_true] at he ⊢
        obtain ⟨r2, t2, r3, t3, h1, h1', h2, h3, h4⟩ := hf e' u u' hu (Int.le_trans hd hle) he
        exact ⟨r2, t2, r3, t3, h1, h1', h2, Int.le_trans hle h3, h4⟩
      | false => exact ⟨_, _, _, _, rfl, rfl, hu, hle, rfl⟩

theorem Sim.mapM {dir : Bool} {f g : Val → P Json} (h : ∀ v, Sim dir (Eqv env) (f v) (g v)) : ∀ xs : List Val, Sim dir (EqvL env) (PyM.mapM f xs) (PyM.mapM g xs)
  | [] => Sim.pure rfl
  | x :: xs => by
    rw [mapM_cons, mapM_cons]
    refine (h x).bind (fun a b hab => (Sim.mapM h xs).bind (fun as bs hs => Sim.pure ?_))
    unfold EqvL Eqv at *
    rw [List.map_cons, List.map_cons, hab, hs]

theorem Sim.foldM {dir : Bool} {A : α → β → Prop} {f : α → γ → P α} {g : β → γ → P β} : ∀ (xs : List γ) {a : α} {b : β}, A a b →
    (∀ x ∈ xs, ∀ a b, A a b → Sim dir A (f a x) (g b x)) → Sim dir A (PyM.foldM f a xs) (PyM.foldM g b xs)
  | [], _, _, h, _ => Sim.pure h
  | x :: xs, a, b, h, hf => by
    rw [foldM_cons, foldM_cons]
    exact (hf x (List.mem_cons_self ..) a b h).bind (fun a' b' h' => Sim.foldM xs h' (fun y hy => hf y (List.mem_cons_of_mem _ hy)))

theorem Sim.mkref {dir : Bool} (id : Ident) : Sim dir (· = ·) (Pickler.mkref cfg id) (Pickler.mkref cfg id) := by
  refine Sim.bind (A := (· = ·)) (Sim.total (fun s s' hs _ => ?_)) (fun a b e => Sim.pure (by rw [e]))
  unfold logRef
  rw [hs.2]
  split
  · exact ⟨_, _, _, _, rfl, rfl, hs, Int.le_refl _, rfl⟩
  · exact ⟨_, _, _, _, rfl, rfl, ⟨hs.1, rfl⟩, Int.le_refl _, rfl⟩

theorem Sim.getref {dir : Bool} (id : Ident) : Sim dir (Eqv env) (Pickler.getref id) (Pickler.getref id) := by
  refine Sim.total (fun s s' hs _ => ⟨_, _, _, _, rfl, rfl, hs, Int.le_refl _, ?_⟩)
  show Eqv env _ _
  rw [hs.2]
  rfl

/-- the options and the graph for which the result holds -/
structure Hyp (env : UEnv) (w : World) (cfg : PCfg) (px : PropCfg) : Prop where
  unpicklable : cfg.unpicklable = true
  makeRefs : cfg.makeRefs = true
  keys : cfg.keys = false
  depth : cfg.maxDepth = none
  failSafe : cfg.failSafe = none
  inc : px.inc = true
  repr : ∀ k s, reprKey w k = .ok s → (∃ t, k = .str t) ∨ Tags.isReserved s = false
  clone : Found env CLONE
  classes : ∀ (a : Nat) i, w.heap[a]? = some (.inst i) →
    w.handler i.cls = none ∧ Found env i.cls ∨ w.handler i.cls = some .opaque ∨ w.handler i.cls = some .drop
  props : ∀ a, ∀ kv ∈ px.members a ++ px.nonSlots a, (∃ j, kv.2 = .raw j) ∨ (∃ n, kv.2 = .val (.func n)) ∨ (∃ n, kv.2 = .val (.type n))

/-- flattening a function or a class succeeds and registers nothing -/
def Quiet (dir : Bool) (fl : Val → P Json) : Prop :=
  ∀ v s, (∃ n, v = .func n) ∨ (∃ n, v = .type n) → 0 ≤ s.depth → (dir = true → (fl v s).isSome) → ∃ j t, fl v s = some (.ok j, t) ∧ St s t

variable {dir : Bool} (H : Hyp env w cfg px) (hfl : ∀ v, Sim dir (Eqv env) (fl v) (fl' v)) (hq : Quiet dir fl')

include hq in
theorem props_quiet (ps : List (Str × PropVal))
    (hp : ∀ kv ∈ ps, (∃ j, kv.2 = .raw j) ∨ (∃ n, kv.2 = .val (.func n)) ∨ (∃ n, kv.2 = .val (.type n))) :
    ∀ s, 0 ≤ s.depth → (dir = true → (PyM.mapM (fun (kv : Str × PropVal) => do
      let j ← propValue fl' kv.2
      pure (kv.1, j)) ps s).isSome) → ∃ js t, PyM.mapM (fun (kv : Str × PropVal) => do
      let j ← propValue fl' kv.2
      pure (kv.1, j)) ps s = some (.ok js, t) ∧ St s t := by
  induction ps with
  | nil => intro s _ _; exact ⟨_, _, rfl, rfl, rfl⟩
  | cons x ps ih =>
    intro s hd h
    rw [mapM_cons, bind_run, bind_run] at h
    rw [mapM_cons, bind_run, bind_run]
    have hx : (dir = true → (propValue fl' x.2 s).isSome) → ∃ j t, propValue fl' x.2 s = some (.ok j, t) ∧ St s t := by
      intro he
      rcases hp x (List.mem_cons_self ..) with ⟨j, e⟩ | ⟨n, e⟩ | ⟨n, e⟩
      · rw [e]; exact ⟨_, _, rfl, rfl, rfl⟩
      · rw [e] at he ⊢; exact hq _ s (.inl ⟨n, rfl⟩) hd he
      · rw [e] at he ⊢; exact hq _ s (.inr ⟨n, rfl⟩) hd he
    obtain ⟨j, u, hj, hu⟩ := hx (fun hdir => by
      cases he : propValue fl' x.2 s with
      | none => have := h hdir; rw [he] at this; exact this
      | some _ => rfl)
    rw [hj] at h ⊢
    dsimp only [pure_run] at h ⊢
    rw [bind_run] at h ⊢
    obtain ⟨js, v, hjs, hv⟩ := ih (fun kv hkv => hp kv (List.mem_cons_of_mem _ hkv)) u (by rw [← hu.1]; exact hd) (fun hdir => by
      cases he : PyM.mapM (fun (kv : Str × PropVal) => do
          let j ← propValue fl' kv.2
          Pure.pure (kv.1, j)) ps u with
      | none => have := h hdir; rw [he] at this; exact this
      | some _ => rfl)
    rw [hjs]
    exact ⟨_, _, rfl, hu.1.trans hv.1, hu.2.trans hv.2⟩

include H hq in
/-- the properties of an object are written without further ado -/
theorem sim_putProps {A : List (Str × Json) → List (Str × Json) → Prop} {ps : List (Str × PropVal)} {d d' : List (Str × Json)}
    (hp : ∀ kv ∈ ps, (∃ j, kv.2 = .raw j) ∨ (∃ n, kv.2 = .val (.func n)) ∨ (∃ n, kv.2 = .val (.type n)))
    (hA : ∀ p, A d (dset Tags.PROPERTY p d')) : Sim dir A (pure d : P _) (putProps px fl' ps d') := by
  intro s s' hs hd he
  unfold putProps at he ⊢
  rw [H.inc, if_pos rfl, bind_run] at he ⊢
  obtain ⟨js, v, hjs, hv⟩ := props_quiet hq ps hp s' (by rw [← hs.1]; exact hd) (fun hdir => by
    subst hdir
    cases hm : PyM.mapM (fun (kv : Str × PropVal) => do
        let j ← propValue fl' kv.2
        Pure.pure (kv.1, j)) ps s' with
    | none => rw [hm] at he; exact he
    | some _ => rfl)
  rw [hjs]
  exact ⟨_, _, _, _, rfl, rfl, ⟨hs.1.trans hv.1, hs.2.trans hv.2⟩, Int.le_refl _, hA _⟩

include H hfl in
theorem sim_pair {b g : Bool} {k v : Val} {d d' : List (Str × Json)} (h : R env b g d d') :
    Sim dir (R env b g) (flattenKeyValuePair w fl k v d) (flattenKeyValuePair w fl' k v d') := by
  unfold flattenKeyValuePair
  cases hp : isPicklable k v with
  | false => exact Sim.pure h
  | true =>
    rw [if_pos rfl, if_pos rfl]
    refine Sim.bind (A := fun a b => a = b ∧ Tags.isReserved a = false) (Sim.ofExcept ?_) (fun a c e => ?_)
    · cases hr : reprKey w k with
      | error e => rfl
      | ok t =>
        refine ⟨rfl, ?_⟩
        rcases H.repr k t hr with ⟨u, e⟩ | e
        · subst e
          injection hr with hr
          subst hr
          unfold isPicklable at hp
          rw [Bool.and_eq_true] at hp
          simpa using hp.1
        · exact e
    · obtain ⟨e, hk⟩ := e
      subst e
      exact (hfl v).bind (fun j j' hj => Sim.pure (h.plain hk hj))

include H hfl in
theorem sim_entries {b g : Bool} {kvs : List (Val × Val)} {ex : List Str} {d d' : List (Str × Json)} (h : R env b g d d') :
    Sim dir (R env b g) (flattenEntries w cfg fl kvs ex d) (flattenEntries w cfg fl' kvs ex d') := by
  unfold flattenEntries
  dsimp only
  rw [H.keys, if_neg (by decide), if_neg (by decide)]
  exact Sim.foldM _ h (fun kv _ a c hac => sim_pair H hfl hac)

theorem Sim.ite {dir : Bool} {A : α → β → Prop} {x1 x2 : P α} {y1 y2 : P β} {c : Bool} (h1 : c = true → Sim dir A x1 y1) (h2 : c = false → Sim dir A x2 y2) :
    Sim dir A (if c then x1 else x2) (if c then y1 else y2) := by
  cases hc : c with
  | true => exact h1 hc
  | false => exact h2 hc

/-- a class tag -/
theorem R.object {b g : Bool} {d d' : List (Str × Json)} {c : Str} (h : R env b g d d') (hc : Found env c) :
    R env b true (JP.dset Tags.OBJECT (.str c) d) (JP.dset Tags.OBJECT (.str c) d') :=
  h.tag (by decide) (by decide) (fun _ => ⟨c, rfl, hc⟩) rfl

theorem R.doc {b : Bool} {d d' : List (Str × Json)} (h : R env b true d d') : Eqv env (.obj d) (.obj d') := h.eqv (fun _ => rfl)

theorem R.dict {g : Bool} {d d' : List (Str × Json)} (h : R env false g d d') : Eqv env (.obj d) (.obj d') := h.eqv (fun e => by cases e)

include H hfl hq in
theorem sim_clone (x : Val) : Sim dir (Eqv env) (Pickler.flattenClone w cfg fl x) (flattenClone w cfg px fl' x) := by
  unfold flattenClone
  show Sim dir (Eqv env) ((pure [] : P (List (Str × Json))) >>= fun _ => Pickler.flattenClone w cfg fl x) _
  refine Sim.bind (A := fun d d' => d = [] ∧ R env true false d d') (sim_putProps H hq (fun _ h => by cases h) (fun p => ⟨rfl, R.start p⟩)) (fun d d' hd => ?_)
  obtain ⟨e, hd⟩ := hd
  subst e
  unfold Pickler.flattenClone
  rw [H.unpicklable]
  exact (sim_entries H hfl (hd.object H.clone)).bind (fun a b hab => Sim.pure hab.doc)

include H hfl hq in
theorem sim_factory (f : Val) (x : Except Exc Val) : Sim dir (Eqv env) (Pickler.flattenFactory w cfg fl f x) (flattenFactory w cfg px fl' f x) := by
  have step : Sim dir (Eqv env) (do
      let new ← mkref cfg f.ident
      if new then do
        let x ← PyM.ofExcept x
        Pickler.flattenClone w cfg fl x
      else getref f.ident) (do
      let new ← mkref cfg f.ident
      if new then do
        let x ← PyM.ofExcept x
        flattenClone w cfg px fl' x
      else getref f.ident) := by
    refine (Sim.mkref f.ident).bind (fun a b e => ?_)
    subst e
    refine Sim.ite (fun _ => ?_) (fun _ => Sim.getref _)
    refine (Sim.same x).bind (fun a b e => ?_)
    subst e
    exact sim_clone H hfl hq a
  unfold flattenFactory Pickler.flattenFactory
  cases f with
  | type n => exact Sim.pure rfl
  | _ => exact step

include H hfl hq in
theorem sim_default {b g : Bool} {fo : Option Val} {x : Except Exc Val} {d d' : List (Str × Json)} (h : R env b g d d') :
    Sim dir (R env b g) (Pickler.flattenDefault w cfg fl fo x d) (flattenDefault w cfg px fl' fo x d') := by
  unfold flattenDefault Pickler.flattenDefault
  cases fo with
  | none => exact Sim.pure h
  | some f =>
    dsimp only
    rw [h.dhas (t := p!"default_factory") (by decide)]
    refine (sim_factory H hfl hq f x).bind (fun j j' hj => Sim.pure ?_)
    cases dhas p!"default_factory" d with
    | false => exact h.plain (by decide) hj
    | true =>
      refine h.dset (k := Tags.DEFAULT_FACTORY) (by decide) (by decide) (fun e => absurd e (by decide)) ?_
      unfold payload
      rw [if_neg (by decide), if_neg (by decide), if_neg (by decide), if_neg (by decide), if_neg (by decide), if_neg (by decide)]
      exact hj

include H hfl in
theorem sim_ownDict {b g : Bool} {a : Addr} {i : Inst} {ex : List Str} {d d' : List (Str × Json)} (h : R env b g d d') :
    Sim dir (R env b g) (flattenOwnDict w cfg fl a i ex d) (flattenOwnDict w cfg fl' a i ex d') := by
  unfold flattenOwnDict
  refine Sim.ite (fun _ => ?_) (fun _ => Sim.pure h)
  refine (Sim.mkref _).bind (fun x y e => ?_)
  subst e
  refine Sim.ite (fun _ => ?_) (fun _ => ?_)
  · exact (sim_entries H hfl R.nil).bind (fun dd dd' hd => Sim.pure (h.plain (by decide) hd.dict))
  · exact (Sim.getref _).bind (fun j j' hj => Sim.pure (h.plain (by decide) hj))

include H hfl hq in
theorem sim_dictSub {b g : Bool} {a : Addr} {i : Inst} {d d' : List (Str × Json)} (h : R env b g d d') :
    Sim dir (R env b g) (Pickler.flattenDictSub w cfg fl a i d) (flattenDictSub w cfg px fl' a i d') := by
  unfold flattenDictSub Pickler.flattenDictSub
  exact (sim_entries H hfl h).bind (fun _ _ h => (sim_default H hfl hq h).bind (fun _ _ h => sim_ownDict H hfl h))

/-- a flag and data -/
def RB (env : UEnv) (b g : Bool) (p p' : Bool × List (Str × Json)) : Prop := p.1 = p'.1 ∧ R env b g p.2 p'.2

include H hfl in
theorem sim_objAttrs {b g : Bool} {i : Inst} {lk : List (Str × Val)} {ns : List Str} {d d' : List (Str × Json)} (h : R env b g d d') :
    Sim dir (RB env b g) (flattenObjAttrs w fl i lk ns d) (flattenObjAttrs w fl' i lk ns d') := by
  unfold flattenObjAttrs
  refine Sim.foldM (A := RB env b g) ns ⟨rfl, h⟩ (fun k _ p p' hp => ?_)
  refine Sim.ite (fun _ => Sim.pure hp) (fun _ => ?_)
  refine Sim.tryCatch ?_ (fun _ => Sim.pure hp)
  refine (Sim.same _).bind (fun v v' e => ?_)
  subst e
  exact (sim_pair H hfl hp.2).bind (fun x y hxy => Sim.pure ⟨rfl, hxy⟩)

include H hfl hq in
theorem sim_slots {b : Bool} {a : Addr} {i : Inst} {d d' : List (Str × Json)} (hb : b = true) (h : R env b true d d') :
    Sim dir (Eqv env) (Pickler.flattenSlots w fl i d) (flattenSlots w px fl' a i d') := by
  subst hb
  unfold flattenSlots
  show Sim dir (Eqv env) ((pure d : P (List (Str × Json))) >>= fun d => Pickler.flattenSlots w fl i d) _
  refine (sim_putProps (A := R env true true) H hq (fun kv hkv => H.props a kv (List.mem_append_right _ hkv)) (fun p => h.property)).bind (fun d d' h => ?_)
  unfold Pickler.flattenSlots
  refine (sim_objAttrs H hfl h).bind (fun p p' hp => ?_)
  obtain ⟨f, d⟩ := p
  obtain ⟨f', d'⟩ := p'
  obtain ⟨e, hp⟩ := hp
  dsimp only at e hp
  subst e
  refine Sim.ite (fun _ => Sim.pure hp.doc) (fun _ => ?_)
  exact (sim_objAttrs H hfl hp).bind (fun p p' hp => Sim.pure hp.2.doc)

include H hfl in
theorem sim_sequence {b : Bool} {i : Inst} {d d' : List (Str × Json)} (h : R env b true d d') :
    Sim dir (Eqv env) (flattenSequence w cfg fl i d) (flattenSequence w cfg fl' i d') := by
  unfold flattenSequence flattenSeqAttrs
  rw [H.unpicklable]
  refine Sim.bind (A := R env b true) ?_ (fun d d' h => ?_)
  · exact Sim.ite (fun _ => sim_entries H hfl h) (fun _ => Sim.pure h)
  · refine (Sim.mapM hfl _).bind (fun js js' hj => Sim.pure ?_)
    exact (h.dset (k := Tags.SEQ) (by decide) (by decide) (fun e => absurd e (by decide)) (payload_items (by decide) hj)).doc

include H in
theorem sim_objWith {v v' : Val} {id : Ident} {en : Bool} {rep : Except Exc Str} {x y : P Json} (h : Sim dir (Eqv env) x y) :
    Sim dir (Eqv env) (flattenObjWith cfg v id en rep x) (flattenObjWith cfg v' id en rep y) := by
  unfold flattenObjWith
  refine Sim.bind (A := (· = ·)) (Sim.total (fun s s' hs _ => ⟨_, _, _, _, rfl, rfl, hs, Int.le_refl _, rfl⟩)) (fun _ _ _ => ?_)
  refine Sim.bind (A := (· = ·)) (Sim.total (fun s s' hs _ => ⟨_, _, _, _, rfl, rfl, hs, Int.le_refl _, ?_⟩)) (fun _ _ e => ?_)
  · show (some s.depth == cfg.maxDepth) = (some s'.depth == cfg.maxDepth)
    rw [hs.1]
  subst e
  refine Sim.tryCatch ?_ (fun e => ?_)
  · refine Sim.bind (A := (· = ·)) (Sim.total (fun s s' hs _ => ⟨_, _, _, _, rfl, rfl, hs, Int.le_refl _, ?_⟩)) (fun _ _ e => ?_)
    · rw [hs.2]
      rfl
    subst e
    refine Sim.ite (fun _ => ?_) (fun _ => h)
    exact (Sim.same rep).bind (fun _ _ e => by subst e; exact Sim.pure rfl)
  · rw [H.failSafe]
    exact Sim.throw e

/-- one level deeper and back -/
theorem wrap {x y : P Json} (h : Sim dir (Eqv env) x y) {s s' : PState} (hs : St s s') (hd : -1 ≤ s.depth)
    (he : Ends dir ((push >>= fun _ => x >>= fun j => pop j) s) ((push >>= fun _ => y >>= fun j => pop j) s')) :
    ∃ r t r' t', (push >>= fun _ => x >>= fun j => pop j) s = some (r, t) ∧ (push >>= fun _ => y >>= fun j => pop j) s' = some (r', t') ∧
      St t t' ∧ s.depth ≤ t.depth ∧ Out (Eqv env) r r' := by
  rw [bind_ok (x := push) (a := ()) (s' := { s' with depth := s'.depth + 1 }) rfl, bind_ok (x := push) (a := ()) (s' := { s with depth := s.depth + 1 }) rfl] at he ⊢
  obtain ⟨r, u, q, u', hx, hy, hu, hle, ho⟩ := h { s with depth := s.depth + 1 } { s' with depth := s'.depth + 1 } ⟨by show s.depth + 1 = s'.depth + 1; rw [hs.1], hs.2⟩
    (by show 0 ≤ s.depth + 1; omega) he.first
  have hle : s.depth + 1 ≤ u.depth := hle
  rw [bind_run, bind_run, hx, hy]
  cases q with
  | error e =>
    cases r with
    | ok a => cases ho
    | error e' => exact ⟨_, _, _, _, rfl, rfl, hu, by omega, ho⟩
  | ok j' =>
    cases r with
    | error e' => cases ho
    | ok j =>
      dsimp only
      unfold pop
      refine ⟨_, _, _, _, rfl, rfl, ?_, ?_, ho⟩
      · dsimp only
        rw [hu.1]
        split
        · exact ⟨rfl, rfl⟩
        · exact ⟨rfl, hu.2⟩
      · dsimp only
        split
        · next he =>
          have : u.depth - 1 = -1 := by simpa using he
          show s.depth ≤ -1
          omega
        · show s.depth ≤ u.depth - 1
          omega

theorem Sim.wrap {x y : P Json} (h : Sim dir (Eqv env) x y) :
    Sim dir (Eqv env) (push >>= fun _ => x >>= fun j => pop j) (push >>= fun _ => y >>= fun j => pop j) :=
  fun _ _ hs hd he => WithProps.wrap h hs (by omega) he

include H in
theorem cached_eq (id : Ident) (x : P Json) : cached cfg id x = x := by
  unfold cached; rw [H.unpicklable, H.makeRefs]; rfl

include H hfl in
theorem sim_filteredState {a : Addr} {kvs : List (Val × Val)} {ex : List Str} :
    Sim dir (Eqv env) (flattenFilteredState w cfg fl a kvs ex) (flattenFilteredState w cfg fl' a kvs ex) := by
  unfold flattenFilteredState
  rw [cached_eq H, cached_eq H]
  refine Sim.wrap (sim_objWith H ?_)
  refine (Sim.mkref _).bind (fun x y e => ?_)
  subst e
  refine Sim.ite (fun _ => ?_) (fun _ => Sim.getref _)
  exact (sim_entries H hfl R.nil).bind (fun dd dd' hd => Sim.pure hd.dict)

include H hfl hq in
theorem sim_rest {a : Addr} {i : Inst} {d d' : List (Str × Json)} (h : R env true true d d') :
    Sim dir (Eqv env) (Pickler.flattenRest w cfg fl a i d) (flattenRest w cfg px fl' a i d') := by
  unfold flattenRest Pickler.flattenRest
  cases i.info.base with
  | dict => exact (sim_dictSub H hfl hq h).bind (fun _ _ h => Sim.pure h.doc)
  | list => exact sim_sequence H hfl h
  | set => exact sim_sequence H hfl h
  | tuple => exact sim_sequence H hfl h
  | plain =>
    dsimp only
    refine Sim.ite (fun _ => ?_) (fun _ => Sim.ite (fun _ => ?_) (fun _ => Sim.ite (fun _ => ?_) (fun _ => ?_)))
    · refine (Sim.mapM hfl _).bind (fun js js' hj => (Sim.same _).bind (fun _ _ _ => Sim.pure ?_))
      exact (h.dset (k := Tags.ITERATOR) (by decide) (by decide) (fun e => absurd e (by decide)) (payload_items (by decide) hj)).doc
    · exact (sim_entries H hfl h).bind (fun _ _ h => Sim.pure h.doc)
    · exact sim_slots H hfl hq rfl h
    · have h1 : d.isEmpty = false := by
        cases d with
        | nil => exact absurd rfl (h.1 rfl)
        | cons _ _ => rfl
      have h2 : d'.isEmpty = false := by
        obtain ⟨_, _, e, he, _, hd⟩ := h
        rcases hd with ⟨hb, _⟩ | ⟨_, p, hd⟩
        · cases hb
        · rw [hd]; rfl
      rw [h1, h2]
      exact Sim.pure h.doc

include H in
theorem sim_putState {d d' : List (Str × Json)} {j j' : Json} (h : R env true true d d') (hj : Eqv env j j') :
    Eqv env (putState cfg j d) (putState cfg j' d') := by
  unfold putState
  rw [H.unpicklable, if_pos rfl, if_pos rfl]
  refine (h.dset (k := Tags.STATE) (by decide) (by decide) (fun e => absurd e (by decide)) ?_).doc
  rw [payload_state, payload_state]
  exact hj

include H hfl hq in
theorem sim_getstate {a : Addr} {i : Inst} {d d' : List (Str × Json)} (h : R env true true d d') :
    Sim dir (Eqv env) (Pickler.flattenGetstate w cfg fl a i d) (flattenGetstate w cfg px fl' a i d') := by
  have hr := sim_rest (a := a) (i := i) H hfl hq h
  unfold flattenGetstate Pickler.flattenGetstate
  refine Sim.ite (fun _ => ?_) (fun _ => hr)
  cases i.state with
  | error e => exact Sim.ite (fun _ => Sim.pure rfl) (fun _ => Sim.throw e)
  | ok st =>
    show Sim dir (Eqv env) (match stateDict w i st with
      | some kvs =>
        if (itemsExcl i.exclude kvs).isEmpty then Pickler.flattenRest w cfg fl a i d
        else do
          let j ← flattenFilteredState w cfg fl a kvs i.exclude
          pure (putState cfg j d)
      | none =>
        if truthy w.heap st then do
          let j ← fl st
          pure (putState cfg j d)
        else Pickler.flattenRest w cfg fl a i d) _
    dsimp only
    cases stateDict w i st with
    | some kvs =>
      refine Sim.ite (fun _ => hr) (fun _ => ?_)
      exact (sim_filteredState H hfl).bind (fun j j' hj => Sim.pure (sim_putState H h hj))
    | none =>
      refine Sim.ite (fun _ => ?_) (fun _ => hr)
      exact (hfl st).bind (fun j j' hj => Sim.pure (sim_putState H h hj))

include hfl in
theorem sim_newargs {b g : Bool} {i : Inst} {d d' : List (Str × Json)} (h : R env b g d d') :
    Sim dir (R env b g) (flattenNewargs fl i d) (flattenNewargs fl' i d') := by
  unfold flattenNewargs
  refine Sim.ite (fun _ => ?_) (fun _ => Sim.ite (fun _ => ?_) (fun _ => Sim.pure h))
  · refine (Sim.same _).bind (fun x y e => ?_)
    subst e
    refine (hfl _).bind (fun j j' hj => (hfl _).bind (fun k k' hk => Sim.pure ?_))
    refine h.dset (k := Tags.NEWARGSEX) (by decide) (by decide) (fun e => absurd e (by decide)) (payload_items (by decide) ?_)
    unfold EqvL Eqv at *
    simp only [List.map_cons, List.map_nil, hj, hk]
  · refine (Sim.same _).bind (fun x y e => ?_)
    subst e
    refine (hfl _).bind (fun j j' hj => Sim.pure ?_)
    refine h.dset (k := Tags.NEWARGS) (by decide) (by decide) (fun e => absurd e (by decide)) ?_
    rw [payload_newargs, payload_newargs]
    exact hj

include hfl in
theorem sim_initargs {b g : Bool} {i : Inst} {d d' : List (Str × Json)} (h : R env b g d d') :
    Sim dir (R env b g) (flattenInitargs fl i d) (flattenInitargs fl' i d') := by
  unfold flattenInitargs
  refine Sim.ite (fun _ => ?_) (fun _ => Sim.pure h)
  refine (Sim.same _).bind (fun x y e => ?_)
  subst e
  refine (hfl _).bind (fun j j' hj => Sim.pure ?_)
  refine h.dset (k := Tags.INITARGS) (by decide) (by decide) (fun e => absurd e (by decide)) ?_
  rw [payload_initargs, payload_initargs]
  exact hj

include H hfl hq in
theorem sim_body {a : Addr} {i : Inst} {d' : List (Str × Json)} (hc : Found env i.cls) (h : R env true false [] d') :
    Sim dir (Eqv env) (Pickler.flattenBody w cfg fl a i) (flattenBody w cfg px fl' a i d') := by
  unfold flattenBody Pickler.flattenBody
  have h0 : R env true true (Pickler.objTag cfg i) (objTag cfg i d') := by
    unfold objTag Pickler.objTag
    rw [H.unpicklable]
    exact h.object hc
  exact (sim_newargs hfl h0).bind (fun _ _ h => (sim_initargs hfl h).bind (fun _ _ h => sim_getstate H hfl hq h))

include H hfl hq in
theorem sim_reduce {a : Addr} {i : Inst} {d' : List (Str × Json)} (hc : Found env i.cls) (h : R env true false [] d') :
    Sim dir (Eqv env) (Pickler.flattenReduce w cfg fl a i) (flattenReduce w cfg px fl' a i d') := by
  have hb := sim_body (a := a) H hfl hq hc h
  unfold flattenReduce Pickler.flattenReduce
  cases (if (cfg.unpicklable && i.info.reduces) = true then i.reduce else ReduceVal.nothing) with
  | nothing => exact hb
  | «raise» e => exact Sim.ite (fun _ => hb) (fun _ => Sim.throw e)
  | str o =>
    cases o with
    | none => exact hb
    | some v => exact Sim.tryCatch (hfl v) (fun _ => hb)
  | tup xs =>
    dsimp only
    refine Sim.ite (fun _ => hb) (fun _ => Sim.ite (fun _ => ?_) (fun _ => hb))
    refine (Sim.mapM hfl _).bind (fun js js' hj => Sim.pure ?_)
    exact (h.tag (k := Tags.REDUCE) (by decide) (by decide) (fun e => absurd e (by decide)) (payload_items (by decide) (eqv_trim hj))).doc

include H hfl hq in
theorem sim_inst {a : Nat} {i : Inst} (hi : w.heap[a]? = some (.inst i)) :
    Sim dir (Eqv env) (Pickler.flattenInst w cfg fl a i) (flattenInst w cfg px fl' a i) := by
  unfold flattenInst
  rcases H.classes a i hi with ⟨hh, hc⟩ | hh | hh
  · unfold Pickler.flattenInst
    rw [hh]
    dsimp only
    show Sim dir (Eqv env) ((pure [] : P (List (Str × Json))) >>= fun _ => Pickler.flattenReduce w cfg fl a i) _
    refine Sim.bind (A := fun d d' => d = [] ∧ R env true false d d')
      (sim_putProps H hq (fun kv hkv => H.props a kv (List.mem_append_left _ hkv)) (fun p => ⟨rfl, R.start p⟩)) (fun d d' hd => ?_)
    obtain ⟨e, hd⟩ := hd
    subst e
    exact sim_reduce H hfl hq hc hd
  · rw [hh]
    unfold Pickler.flattenInst
    rw [hh]
    exact (Sim.same _).bind (fun _ _ _ => Sim.pure rfl)
  · rw [hh]
    unfold Pickler.flattenInst
    rw [hh]
    exact (Sim.same _).bind (fun _ _ _ => Sim.pure rfl)

include H hq in
theorem sim_module (n : Str) : Sim dir (Eqv env) (Pickler.flattenModule w cfg n) (flattenModule w cfg px fl' n) := by
  unfold flattenModule
  show Sim dir (Eqv env) ((pure [] : P (List (Str × Json))) >>= fun _ => Pickler.flattenModule w cfg n) _
  refine Sim.bind (A := fun d d' => d = [] ∧ R env true false d d') (sim_putProps H hq (fun _ h => by cases h) (fun p => ⟨rfl, R.start p⟩)) (fun d d' hd => ?_)
  obtain ⟨e, hd⟩ := hd
  subst e
  unfold Pickler.flattenModule
  rw [H.unpicklable, if_pos rfl, if_pos rfl]
  exact Sim.pure (hd.tag (k := Tags.MODULE) (by decide) (by decide) (fun e => absurd e (by decide)) rfl).doc

include H in
theorem sim_refObj {id : Ident} {en : Bool} {x y : P Json} (h : Sim dir (Eqv env) x y) :
    Sim dir (Eqv env) (refObjInstance cfg id en x) (refObjInstance cfg id en y) := by
  unfold refObjInstance
  rw [H.unpicklable, if_pos rfl, if_pos rfl]
  refine (Sim.mkref _).bind (fun a b e => ?_)
  subst e
  exact Sim.ite (fun _ => h) (fun _ => Sim.getref _)

theorem eqv_list {k : Str} {xs xs' : List Json} (hk : k ∈ wireTags) (h1 : k ≠ Tags.TYPE) (h2 : k ≠ Tags.OBJECT) (hi : itemPayloads.contains k = true)
    (h : EqvL env xs xs') : Eqv env (.obj [(k, .arr xs)]) (.obj [(k, .arr xs')]) :=
  (R.nil.tag hk h1 (fun e => absurd e h2) (payload_items hi h)).doc

include H hfl hq in
theorem sim_by (v : Val) : Sim dir (Eqv env) (Pickler.flattenBy w cfg fl v) (flattenBy w cfg px fl' v) := by
  cases v with
  | ref a =>
    unfold flattenBy
    dsimp only
    unfold Pickler.flattenBy
    dsimp only
    cases hx : w.heap[a]? with
    | none => exact Sim.throw _
    | some o =>
      cases o with
      | inst i => exact sim_refObj H (sim_inst H hfl hq hx)
      | list xs =>
        refine (Sim.mkref _).bind (fun x y e => ?_)
        subst e
        refine Sim.ite (fun _ => ?_) (fun _ => Sim.getref _)
        exact (Sim.mapM hfl xs).bind (fun js js' hj => Sim.pure (eqv_arr hj))
      | dict kvs =>
        refine (Sim.mkref _).bind (fun x y e => ?_)
        subst e
        refine Sim.ite (fun _ => ?_) (fun _ => Sim.getref _)
        exact (sim_entries H hfl R.nil).bind (fun d d' hd => Sim.pure hd.dict)
      | _ => exact Sim.throw _
  | module n => exact sim_refObj H (sim_module H hq n)
  | tuple k xs =>
    refine (Sim.mapM hfl xs).bind (fun js js' hj => Sim.pure ?_)
    rw [H.unpicklable]
    exact eqv_list (by decide) (by decide) (by decide) (by decide) hj
  | set k xs =>
    refine (Sim.mapM hfl xs).bind (fun js js' hj => Sim.pure ?_)
    rw [H.unpicklable]
    exact eqv_list (by decide) (by decide) (by decide) (by decide) hj
  | func n => exact Sim.pure rfl
  | type n => exact Sim.pure rfl
  | lambda n => exact Sim.pure rfl
  | _ => exact Sim.throw _

/-- outermost calls, too -/
def SimTop (dir : Bool) (env : UEnv) (x y : P Json) : Prop :=
  ∀ s s', St s s' → -1 ≤ s.depth → Ends dir (x s) (y s') →
    ∃ r t r' t', x s = some (r, t) ∧ y s' = some (r', t') ∧ St t t' ∧ s.depth ≤ t.depth ∧ Out (Eqv env) r r'

theorem SimTop.pure (j : Json) : SimTop dir env (Pure.pure j : P Json) (Pure.pure j : P Json) :=
  fun _ _ hs _ _ => ⟨_, _, _, _, rfl, rfl, hs, Int.le_refl _, rfl⟩

include H hfl hq in
theorem sim_step (v : Val) : SimTop dir env (Pickler.flattenStep w cfg fl v) (flattenStep w cfg px fl' v) := by
  have hobj : ∀ v, SimTop dir env (push >>= fun _ => Pickler.flattenObj w cfg fl v >>= fun j => pop j)
      (push >>= fun _ => flattenObj w cfg px fl' v >>= fun j => pop j) := by
    intro v s s' hs hd he
    exact wrap (sim_objWith H (sim_by H hfl hq v)) hs hd he
  unfold flattenStep Pickler.flattenStep
  cases v with
  | none => exact SimTop.pure _
  | bool b => exact SimTop.pure _
  | int b => exact SimTop.pure _
  | float b => exact SimTop.pure _
  | str b => exact SimTop.pure _
  | bytes k b => dsimp only; rw [cached_eq H, cached_eq H]; exact SimTop.pure _
  | bytearray k b => dsimp only; rw [cached_eq H, cached_eq H]; exact SimTop.pure _
  | _ => dsimp only; rw [cached_eq H, cached_eq H]; exact hobj _

include H in
theorem quiet_succ (n : Nat) : Quiet dir (flatten w cfg px (n + 1)) := by
  intro v s hv hd _
  have key : ∀ j, flattenBy w cfg px (flatten w cfg px n) v = pure j →
      ∃ j t, cached cfg v.ident (push >>= fun _ => flattenObj w cfg px (flatten w cfg px n) v >>= fun j => pop j) s = some (.ok j, t) ∧ St s t := by
    intro j hj
    rw [cached_eq H, bind_ok (a := ()) (s' := { s with depth := s.depth + 1 }) rfl]
    unfold flattenObj
    rw [hj]
    have hrun : flattenObjWith cfg v v.ident (isEnumV w v) (w.repr v) (pure j) { s with depth := s.depth + 1 } =
        some (.ok j, { s with depth := s.depth + 1, seen := s.seen ++ [v] }) := by
      unfold flattenObjWith
      rw [bind_ok (a := ()) (s' := { s with depth := s.depth + 1, seen := s.seen ++ [v] }) rfl]
      rw [bind_ok (a := false) (s' := { s with depth := s.depth + 1, seen := s.seen ++ [v] }) (by unfold maxReached; rw [H.depth]; rfl)]
      unfold PyM.tryCatch
      rw [bind_ok (a := false) (s' := { s with depth := s.depth + 1, seen := s.seen ++ [v] }) (by unfold inCycle; rw [H.makeRefs]; rfl)]
      rfl
    rw [bind_ok hrun]
    unfold pop
    refine ⟨_, _, rfl, ?_⟩
    dsimp only
    have : (s.depth + 1 - 1 == -1) = false := by
      rw [beq_eq_false_iff_ne]; omega
    rw [this]
    exact ⟨by show s.depth = s.depth + 1 - 1; omega, rfl⟩
  rcases hv with ⟨m, e⟩ | ⟨m, e⟩
  · subst e; exact key _ rfl
  · subst e; exact key _ rfl

include H in
theorem quiet (n : Nat) : Quiet true (flatten w cfg px n) := by
  cases n with
  | zero => intro v s _ _ h; exact absurd (h rfl) (by show ¬ (none : Option (Except Exc Json × PState)).isSome = true; decide)
  | succ n => exact quiet_succ H n

include H in
/-- if the run with properties ends, the other one does, with as much fuel -/
theorem sim_flatten (n : Nat) (v : Val) : SimTop true env (Pickler.flatten w cfg n v) (flatten w cfg px n v) := by
  induction n generalizing v with
  | zero =>
    intro s s' _ _ h
    unfold Ends at h
    exact absurd h (by show ¬ (none : Option (Except Exc Json × PState)).isSome = true; decide)
  | succ n ih => exact sim_step H (fun v s s' hs hd h => ih v s s' hs (by omega) h) (quiet H n) v

include H in
/-- if the run without properties ends, the other one does, with a little more fuel -/
theorem sim_flatten_succ (n : Nat) (v : Val) : SimTop false env (Pickler.flatten w cfg n v) (flatten w cfg px (n + 1) v) := by
  induction n generalizing v with
  | zero =>
    intro s s' _ _ h
    unfold Ends at h
    exact absurd h (by show ¬ (none : Option (Except Exc Json × PState)).isSome = true; decide)
  | succ n ih => exact sim_step H (fun v s s' hs hd h => ih v s s' hs (by omega) h) (quiet_succ H n) v

end JP.Pickler.WithProps
