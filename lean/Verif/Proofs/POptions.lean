import Verif.Proofs.PInv
import Verif.OptionsSpec
/-!
# Two runs of the encoder with different options

`same` and `refines` are two instances of the program logic: the first says that the encoder does the same
with two recursive calls that do the same on everything that is reached, the second that a run which
succeeds is a run with recursive calls that do more.  With them it is enough to compare one step of the encoder under
the two sets of options.
-/
namespace JP.Pickler.POptions
open JP PyM JP.Pickler

/-- the same computation, with a postcondition for its results -/
def Same {α : Type} (x x' : P α) (Q : α → Prop) : Prop := x = x' ∧ ∀ s a s', x s = some (.ok a, s') → Q a

theorem Same.bind {α β : Type} {x x' : P α} {f f' : α → P β} {Q : α → Prop} {R : β → Prop} (h : Same x x' Q)
    (hf : ∀ a, Q a → Same (f a) (f' a) R) : Same (x >>= f) (x' >>= f') R := by
  obtain ⟨rfl, h⟩ := h
  constructor
  · funext s
    rw [bind_run, bind_run]
    match hx : x s with
    | none => rfl
    | some (.error e, s') => rfl
    | some (.ok a, s') => exact congrFun (hf a (h s a s' hx)).1 s'
  · intro s b s' hb
    rw [bind_run] at hb
    match hx : x s with
    | none => rw [hx] at hb; cases hb
    | some (.error e, s1) => rw [hx] at hb; cases hb
    | some (.ok a, s1) =>
      rw [hx] at hb
      exact (hf a (h s a s1 hx)).2 s1 b s' hb

theorem Same.refl {α : Type} {x : P α} : Same x x (fun _ => True) := ⟨rfl, fun _ _ _ _ => trivial⟩

theorem Same.tryCatch {α : Type} {x x' : P α} {p : Exc → Bool} {h h' : Exc → P α} {Q : α → Prop} (hx : Same x x' Q)
    (hh : ∀ e, Same (h e) (h' e) Q) : Same (PyM.tryCatch x p h) (PyM.tryCatch x' p h') Q := by
  obtain ⟨rfl, hx⟩ := hx
  obtain rfl : h = h' := funext fun e => (hh e).1
  refine ⟨rfl, fun s a s' ha => ?_⟩
  unfold PyM.tryCatch at ha
  match hr : x s with
  | none => rw [hr] at ha; cases ha
  | some (.ok b, s1) => rw [hr] at ha; cases ha; exact hx s _ _ hr
  | some (.error e, s1) =>
    rw [hr] at ha
    simp only at ha
    split at ha
    · exact (hh e).2 _ _ _ ha
    · cases ha

/-- a run of the first that succeeds is a run of the second -/
def Ref {α : Type} (x x' : P α) (Q : α → Prop) : Prop := ∀ s a s', x s = some (.ok a, s') → x' s = some (.ok a, s') ∧ Q a

theorem Ref.bind {α β : Type} {x x' : P α} {f f' : α → P β} {Q : α → Prop} {R : β → Prop} (h : Ref x x' Q)
    (hf : ∀ a, Q a → Ref (f a) (f' a) R) : Ref (x >>= f) (x' >>= f') R := by
  intro s b s' hb
  obtain ⟨a, s1, h1, h2⟩ := bind_eq_ok.1 hb
  obtain ⟨h3, h4⟩ := h s a s1 h1
  obtain ⟨h5, h6⟩ := hf a h4 s1 b s' h2
  exact ⟨by rw [bind_ok h3]; exact h5, h6⟩

theorem Ref.refl {α : Type} {x : P α} : Ref x x (fun _ => True) := fun _ _ _ h => ⟨h, trivial⟩

theorem Ref.ofEq {α : Type} {x x' : P α} (h : x = x') : Ref x x' (fun _ => True) := h ▸ Ref.refl

theorem Ref.pure {α : Type} {a : α} {Q : α → Prop} (h : Q a) : Ref (Pure.pure a : P α) (Pure.pure a) Q := by
  intro s b s' hb
  cases hb
  exact ⟨rfl, h⟩

/-- `fail_safe` (absent or not) does not see runs that succeed -/
theorem Ref.caught {α : Type} {x x' : P α} {p p' : Exc → Bool} {h h' : Exc → P α} {Q : α → Prop} (hx : Ref x x' Q)
    (hp : ∀ e, p e = false) : Ref (PyM.tryCatch x p h) (PyM.tryCatch x' p' h') Q := by
  intro s a s' ha
  unfold PyM.tryCatch at ha ⊢
  match hr : x s with
  | none => rw [hr] at ha; cases ha
  | some (.ok b, s1) =>
    rw [hr] at ha
    cases ha
    obtain ⟨h1, h2⟩ := hx s _ _ hr
    rw [h1]
    exact ⟨rfl, h2⟩
  | some (.error e, s1) =>
    rw [hr] at ha
    simp only [hp e] at ha
    cases ha

theorem Ref.cached {cfg cfg' : PCfg} {id : Ident} {x x' : P Json} (hu : cfg.unpicklable = cfg'.unpicklable)
    (hm : cfg.makeRefs = cfg'.makeRefs) (hx : Ref x x' (fun _ => True)) :
    Ref (cached cfg id x) (cached cfg' id x') (fun _ => True) := by
  unfold Pickler.cached
  rw [hu, hm]
  split
  · exact hx
  · refine Ref.bind (Q := fun _ => True) Ref.refl (fun s _ => ?_)
    split
    · exact Ref.refl
    · exact Ref.bind hx (fun j _ => Ref.refl)

theorem Ref.obj {cfg cfg' : PCfg} {v : Val} {id : Ident} {e : Bool} {rep : Except Exc Str} {x x' : P Json} (hd : cfg.maxDepth = cfg'.maxDepth)
    (hm : cfg.makeRefs = cfg'.makeRefs) (hf : cfg.failSafe = none) (hx : Ref x x' (fun _ => True)) :
    Ref (flattenObjWith cfg v id e rep x) (flattenObjWith cfg' v id e rep x') (fun _ => True) := by
  unfold flattenObjWith
  refine Ref.bind (Q := fun _ => True) Ref.refl (fun _ _ => ?_)
  refine Ref.bind (Q := fun _ => True) (Ref.ofEq (by unfold maxReached; rw [hd])) (fun m _ => ?_)
  refine Ref.caught ?_ (fun e => by rw [hf]; simp)
  rw [hm]
  refine Ref.bind (Q := fun _ => True) Ref.refl (fun c _ => ?_)
  split
  · exact Ref.refl
  · exact hx

theorem Ref.level {cfg cfg' : PCfg} {v : Val} {id : Ident} {e : Bool} {rep : Except Exc Str} {x x' : P Json}
    (hu : cfg.unpicklable = cfg'.unpicklable) (hd : cfg.maxDepth = cfg'.maxDepth)
    (hm : cfg.makeRefs = cfg'.makeRefs) (hf : cfg.failSafe = none) (hx : Ref x x' (fun _ => True)) :
    Ref (level cfg v id e rep x) (level cfg' v id e rep x') (fun _ => True) := by
  unfold Pickler.level
  refine Ref.cached hu hm ?_
  refine Ref.bind (Q := fun _ => True) Ref.refl (fun _ _ => ?_)
  exact Ref.bind (Ref.obj hd hm hf hx) (fun j _ => Ref.refl)

/-- a logic without predicates on results -/
def plainLogic (w : World) (cfg : PCfg) (V : Val → Prop) (h1 : V .none) (h2 : V (.str Tags.NEWOBJ))
    (T : {α : Type} → P α → P α → (α → Prop) → Prop)
    (weaken : ∀ {α : Type} {x x' : P α} {Q R : α → Prop}, T x x' Q → (∀ a, Q a → R a) → T x x' R)
    (refl : ∀ {α : Type} {x : P α}, T x x (fun _ => True))
    (pure : ∀ {α : Type} {Q : α → Prop} {a : α}, Q a → T (Pure.pure a) (Pure.pure a) Q)
    (bind : ∀ {α β : Type} {x x' : P α} {f f' : α → P β} {Q : α → Prop} {R : β → Prop},
      T x x' Q → (∀ a, Q a → T (f a) (f' a) R) → T (x >>= f) (x' >>= f') R)
    (ofExcept : ∀ {α : Type} {r : Except Exc α} {Q : α → Prop},
      (∀ a, r = .ok a → Q a) → T (PyM.ofExcept r) (PyM.ofExcept r) Q)
    (tryCatch : Catches w V → ∀ {α : Type} {x x' : P α} {p : Exc → Bool} {h h' : Exc → P α} {Q : α → Prop},
      T x x' Q → (∀ e, T (h e) (h' e) Q) → T (PyM.tryCatch x p h) (PyM.tryCatch x' p h') Q)
    (level : ∀ {v : Val} {id : Ident} {e : Bool} {rep : Except Exc Str} {body body' : P Json}, T body body' (fun _ => True) →
      T (level cfg v id e rep body) (level cfg v id e rep body') (fun _ => True)) : Logic w cfg where
  T _ _ x x' Q := T x x' Q
  JC _ _ := True
  JD _ _ := True
  JB _ _ := True
  K _ := True
  RefOk := True
  V := V
  R := V
  rv := id
  S _ := True
  pure := pure
  bind := bind
  ofExcept := ofExcept
  tryCatch h := tryCatch h
  mkref _ := weaken refl (fun _ _ => .inr trivial)
  refOr _ hx hg := bind (refl (x := Pickler.mkref cfg _)) (fun b _ => by
    cases b with
    | true => exact hx
    | false => exact bind (refl (x := getref _)) (fun j _ => hg j ⟨trivial, trivial⟩))
  maxReached := refl
  inCycle := refl
  level _ _ _ _ hb := level hb
  leafBytes := refl
  leafBytearray := refl
  jNull := trivial
  jBool := trivial
  jInt := trivial
  jFloat _ := trivial
  jStr _ := trivial
  jCD _ := trivial
  jCB _ := trivial
  jArrD _ := trivial
  jArrB _ := trivial
  jObjD _ _ := trivial
  jObjB _ _ := trivial
  jDate _ _ _ _ _ _ := trivial
  vNone := h1
  vNewobj := h2
  sVal _ := trivial
  sType _ := trivial
  sFunc _ := trivial
  sModule _ := trivial
  sClass _ _ := trivial
  sClone := trivial
  sRepr _ _ := trivial
  sPystr _ _ := trivial
  kUser _ _ := trivial
  kName _ _ := trivial
  kRepr _ _ _ := trivial
  kEsc _ := trivial
  kField _ _ _ := trivial
  kObject _ := trivial
  kFunction _ := trivial
  kModule _ := trivial
  kReduce _ := trivial
  kSeq _ := trivial
  kSet _ := trivial
  kTuple _ := trivial
  kState _ := trivial
  kType := trivial
  kNewargs := trivial
  kNewargsex := trivial
  kInitargs := trivial
  kIterator := trivial
  kDefault := trivial

def same (w : World) (cfg : PCfg) (V : Val → Prop) (h1 : V .none) (h2 : V (.str Tags.NEWOBJ)) : Logic w cfg :=
  plainLogic w cfg V h1 h2 (fun x x' Q => Same x x' Q)
    (fun h hq => ⟨h.1, fun s a s' ha => hq a (h.2 s a s' ha)⟩)
    Same.refl
    (fun h => ⟨rfl, fun s a s' ha => by cases ha; exact h⟩)
    Same.bind
    (fun {α r Q} h => ⟨rfl, fun s a s' ha => by
      cases r with
      | ok b => cases ha; exact h _ rfl
      | error e => cases ha⟩)
    (fun _ => Same.tryCatch)
    (fun h => ⟨by rw [h.1], fun _ _ _ _ => trivial⟩)

def refines (w : World) (cfg : PCfg) (hf : cfg.failSafe = none) (V : Val → Prop) (hc : ¬ Catches w V) (h1 : V .none) (h2 : V (.str Tags.NEWOBJ)) :
    Logic w cfg :=
  plainLogic w cfg V h1 h2 (fun x x' Q => Ref x x' Q)
    (fun h hq s a s' ha => ⟨(h s a s' ha).1, hq a (h s a s' ha).2⟩)
    Ref.refl
    Ref.pure
    Ref.bind
    (fun {α r Q} h s a s' ha => by
      cases r with
      | ok b => cases ha; exact ⟨rfl, h _ rfl⟩
      | error e => cases ha)
    (fun h => (hc h).elim)
    (fun h => Ref.level rfl rfl rfl hf h)

variable {w : World} {root : Val}

/-- one step depends only on what the recursive call does with what is reached -/
theorem step_congr {cfg : PCfg} {fl fl' : Val → P Json} (h : ∀ x, From w root x → fl x = fl' x) {v : Val} (hv : From w root v) :
    flattenStep w cfg fl v = flattenStep w cfg fl' v :=
  ((same w cfg (From w root) (.inr (.inl rfl)) (.inr (.inr rfl))).step (d := ⟨0, []⟩)
    (fun _ x hx => ⟨h x hx, fun _ _ _ _ => trivial⟩) hv (fun _ hx => (Scope.ofRoot w root).touch hv hx)).1

/-- Two sets of options that agree in every step agree altogether. -/
theorem flatten_congr {c c' : PCfg} (h : ∀ fl v, From w root v → flattenStep w c fl v = flattenStep w c' fl v) :
    ∀ (n : Nat) (v : Val), From w root v → flatten w c n v = flatten w c' n v
  | 0, _, _ => rfl
  | n + 1, v, hv => by
    show flattenStep w c _ v = flattenStep w c' _ v
    rw [h _ v hv]
    exact step_congr (fun x hx => flatten_congr h n x hx) hv

end JP.Pickler.POptions
