import Verif.Properties
/-! # Without the option the encoder is the one of `Verif/Pickler.lean` -/
namespace JP.Pickler.WithProps
open JP PyM Pickler

variable {w : World} {cfg : PCfg} {px : PropCfg} {fl : Val → P Json}

theorem putProps_off (h : px.inc = false) (ps : List (Str × PropVal)) (d : List (Str × Json)) : putProps px fl ps d = pure d := by
  unfold putProps; rw [h]; rfl

theorem flattenClone_off (h : px.inc = false) (x : Val) : flattenClone w cfg px fl x = Pickler.flattenClone w cfg fl x := by
  unfold flattenClone Pickler.flattenClone
  rw [putProps_off h]
  cases cfg.unpicklable <;> rfl

theorem flattenFactory_off (h : px.inc = false) (f : Val) (x : Except Exc Val) :
    flattenFactory w cfg px fl f x = Pickler.flattenFactory w cfg fl f x := by
  unfold flattenFactory Pickler.flattenFactory
  simp only [flattenClone_off h]
  rfl

theorem flattenRest_off (h : px.inc = false) (a : Addr) (i : Inst) (d : List (Str × Json)) :
    flattenRest w cfg px fl a i d = Pickler.flattenRest w cfg fl a i d := by
  unfold flattenRest Pickler.flattenRest flattenDictSub Pickler.flattenDictSub flattenDefault Pickler.flattenDefault flattenSlots
  simp only [flattenFactory_off h, putProps_off h]
  rfl

theorem flattenGetstate_off (h : px.inc = false) (a : Addr) (i : Inst) (d : List (Str × Json)) :
    flattenGetstate w cfg px fl a i d = Pickler.flattenGetstate w cfg fl a i d := by
  unfold flattenGetstate Pickler.flattenGetstate
  simp only [flattenRest_off h]
  rfl

theorem flattenBody_off (h : px.inc = false) (a : Addr) (i : Inst) :
    flattenBody w cfg px fl a i [] = Pickler.flattenBody w cfg fl a i := by
  unfold flattenBody Pickler.flattenBody objTag Pickler.objTag
  simp only [flattenGetstate_off h]
  rfl

theorem flattenInst_off (h : px.inc = false) (a : Addr) (i : Inst) :
    flattenInst w cfg px fl a i = Pickler.flattenInst w cfg fl a i := by
  unfold flattenInst
  cases hh : w.handler i.cls with
  | some k => rfl
  | none =>
    unfold Pickler.flattenInst
    rw [hh, putProps_off h]
    show flattenReduce w cfg px fl a i [] = Pickler.flattenReduce w cfg fl a i
    unfold flattenReduce Pickler.flattenReduce
    simp only [flattenBody_off h]
    rfl

theorem flattenBy_off (h : px.inc = false) (v : Val) : flattenBy w cfg px fl v = Pickler.flattenBy w cfg fl v := by
  cases v with
  | ref a =>
    unfold flattenBy
    dsimp only
    cases hx : w.heap[a]? with
    | none => rfl
    | some o => cases o with
      | inst i => dsimp only; rw [flattenInst_off h]; unfold Pickler.flattenBy; dsimp only; rw [hx]
      | _ => rfl
  | module n =>
    unfold flattenBy Pickler.flattenBy flattenModule Pickler.flattenModule
    dsimp only
    rw [putProps_off h]
    rfl
  | _ => rfl

theorem flatten_off (h : px.inc = false) (n : Nat) : flatten w cfg px n = Pickler.flatten w cfg n := by
  induction n with
  | zero => rfl
  | succ n ih =>
    funext v
    show flattenStep w cfg px (flatten w cfg px n) v = Pickler.flattenStep w cfg (Pickler.flatten w cfg n) v
    rw [ih]
    have : flattenImpl w cfg px (Pickler.flatten w cfg n) v = Pickler.flattenImpl w cfg (Pickler.flatten w cfg n) v := by
      unfold flattenImpl Pickler.flattenImpl flattenObj Pickler.flattenObj
      simp only [flattenBy_off h]
      rfl
    unfold flattenStep Pickler.flattenStep
    cases v <;> simp only [this]

end JP.Pickler.WithProps
