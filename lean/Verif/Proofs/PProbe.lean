import Verif.Probe
/-! # When every `repr` of a callable answers, and none begins with `<cyfunction `, the encoder is the one of `Verif/Pickler.lean` -/
namespace JP.Pickler.WithProbe
open JP PyM Pickler

/-- Every callable has a `repr` that returns a text other than that of a Cython function, and there are no bound methods. -/
structure Quiet (q : Probe) (w : World) : Prop where
  method : ∀ v, q.method v = false
  repr : ∀ v, q.calls v = true → ∃ s, w.repr v = .ok s ∧ startsWith s p!"<cyfunction " = false

variable {q : Probe} {w : World} {cfg : PCfg} {fl : Val → P Json}

theorem isCython_off (h : Quiet q w) (v : Val) : isCython q w v = .ok false := by
  unfold isCython
  cases hc : q.calls v with
  | false => rfl
  | true =>
    obtain ⟨s, hs, hn⟩ := h.repr v hc
    rw [if_pos rfl, hs]; dsimp only; rw [hn]

theorem isModuleFunction_off (h : Quiet q w) (v : Val) : isModuleFunction q w v = .ok (match v with | .func _ => true | _ => false) := by
  unfold isModuleFunction
  simp only [isCython_off h]
  cases v with
  | ref a =>
    dsimp only
    cases w.heap[a]? with
    | none => rfl
    | some o => cases o <;> rfl
  | _ => rfl

theorem isPicklable_off (h : Quiet q w) (k v : Val) : isPicklable q w k v = .ok (Pickler.isPicklable k v) := by
  unfold isPicklable Pickler.isPicklable isFunction
  rw [isModuleFunction_off h]
  simp only [h.method]
  cases k with
  | str s => cases hs : Tags.isReserved s <;> cases v <;> simp [hs]
  | _ => cases v <;> rfl

theorem flattenKeyValuePair_off (h : Quiet q w) : flattenKeyValuePair q w fl = Pickler.flattenKeyValuePair w fl := by
  funext k v d
  unfold flattenKeyValuePair Pickler.flattenKeyValuePair
  rw [isPicklable_off h]
  rfl

theorem flattenNonString_off (h : Quiet q w) : flattenNonString q w cfg fl = Pickler.flattenNonString w cfg fl := by
  funext k v d
  unfold flattenNonString Pickler.flattenNonString
  rw [isPicklable_off h]
  rfl

theorem flattenStringTail_off (h : Quiet q w) : flattenStringTail q w cfg fl = Pickler.flattenStringTail w cfg fl := by
  funext k v d
  unfold flattenStringTail Pickler.flattenStringTail
  rw [isPicklable_off h]
  rfl

theorem flattenString_off (h : Quiet q w) : flattenString q w cfg fl = Pickler.flattenString w cfg fl := by
  funext k v d
  unfold flattenString Pickler.flattenString
  rw [flattenStringTail_off h]
  rfl

theorem flattenEntries_off (h : Quiet q w) : flattenEntries q w cfg fl = Pickler.flattenEntries w cfg fl := by
  funext kvs ex d
  unfold flattenEntries Pickler.flattenEntries
  rw [flattenString_off h, flattenNonString_off h, flattenKeyValuePair_off h]

theorem flattenFactory_off (h : Quiet q w) : flattenFactory q w cfg fl = Pickler.flattenFactory w cfg fl := by
  funext f x
  unfold flattenFactory Pickler.flattenFactory flattenClone Pickler.flattenClone
  rw [flattenEntries_off h]
  rfl

theorem flattenDictSub_off (h : Quiet q w) : flattenDictSub q w cfg fl = Pickler.flattenDictSub w cfg fl := by
  funext a i d
  unfold flattenDictSub Pickler.flattenDictSub flattenDefault Pickler.flattenDefault flattenOwnDict Pickler.flattenOwnDict
  rw [flattenEntries_off h, flattenFactory_off h]
  rfl

theorem flattenObjAttrs_off (h : Quiet q w) : flattenObjAttrs q w fl = Pickler.flattenObjAttrs w fl := by
  funext i l ns d
  unfold flattenObjAttrs Pickler.flattenObjAttrs
  rw [flattenKeyValuePair_off h]
  rfl

theorem flattenSlots_off (h : Quiet q w) : flattenSlots q w fl = Pickler.flattenSlots w fl := by
  funext i d
  unfold flattenSlots Pickler.flattenSlots
  rw [flattenObjAttrs_off h]

theorem flattenSequence_off (h : Quiet q w) : flattenSequence q w cfg fl = Pickler.flattenSequence w cfg fl := by
  funext a i d
  unfold flattenSequence Pickler.flattenSequence flattenSeqAttrs Pickler.flattenSeqAttrs
  rw [flattenEntries_off h]

theorem flattenFilteredState_off (h : Quiet q w) : flattenFilteredState q w cfg fl = Pickler.flattenFilteredState w cfg fl := by
  funext a kvs ex
  unfold flattenFilteredState Pickler.flattenFilteredState
  rw [flattenEntries_off h]

theorem flattenRest_off (h : Quiet q w) : flattenRest q w cfg fl = Pickler.flattenRest w cfg fl := by
  funext a i d
  unfold flattenRest Pickler.flattenRest
  rw [flattenDictSub_off h, flattenSlots_off h, flattenSequence_off h, flattenEntries_off h]
  rfl

theorem flattenGetstate_off (h : Quiet q w) : flattenGetstate q w cfg fl = Pickler.flattenGetstate w cfg fl := by
  funext a i d
  unfold flattenGetstate Pickler.flattenGetstate
  rw [flattenRest_off h, flattenFilteredState_off h]
  rfl

theorem flattenInst_off (h : Quiet q w) : flattenInst q w cfg fl = Pickler.flattenInst w cfg fl := by
  funext a i
  unfold flattenInst Pickler.flattenInst flattenReduce Pickler.flattenReduce flattenBody Pickler.flattenBody
  rw [flattenGetstate_off h]
  rfl

theorem flattenBy_off (h : Quiet q w) (v : Val) : flattenBy q w cfg fl v = Pickler.flattenBy w cfg fl v := by
  cases v with
  | ref a =>
    unfold flattenBy Pickler.flattenBy
    dsimp only
    rw [flattenEntries_off h, flattenInst_off h, isCython_off h]
    rfl
  | type n =>
    unfold flattenBy Pickler.flattenBy
    dsimp only
    rw [isCython_off h]
    rfl
  | _ => rfl

theorem flatten_off (h : Quiet q w) (n : Nat) : flatten q w cfg n = Pickler.flatten w cfg n := by
  induction n with
  | zero => rfl
  | succ n ih =>
    funext v
    show flattenStep q w cfg (flatten q w cfg n) v = Pickler.flattenStep w cfg (Pickler.flatten w cfg n) v
    rw [ih]
    have : flattenImpl q w cfg (Pickler.flatten w cfg n) v = Pickler.flattenImpl w cfg (Pickler.flatten w cfg n) v := by
      unfold flattenImpl Pickler.flattenImpl flattenObj Pickler.flattenObj
      simp only [flattenBy_off h]
      rfl
    unfold flattenStep Pickler.flattenStep
    cases v <;> simp only [this]

end JP.Pickler.WithProbe
