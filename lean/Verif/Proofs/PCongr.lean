import Verif.Api
import Verif.Proofs.PLogic
/-!
# Heaps that the encoder cannot tell apart
-/
namespace JP.Pickler
open PyM

/-- the heaps are the same except for the contents of instances: what the encoder learns without looking at these agrees -/
structure Outside (h h' : Heap) : Prop where
  cell : ∀ a : Nat, h[a]? = h'[a]? ∨ ∃ i i', h[a]? = some (.inst i) ∧ h'[a]? = some (.inst i') ∧ i'.info.isEnum = i.info.isEnum
  truth : ∀ v, truthy h' v = truthy h v

namespace Outside
variable {w : World} {h' : Heap} {cfg : PCfg} {fl : Val → P Json}

/-- the dict in a cell -/
theorem dict (ho : Outside w.heap h') (d : Nat) : (match h'[d]? with
    | some (.dict kvs) => some kvs
    | _ => none) = (match w.heap[d]? with
    | some (.dict kvs) => some kvs
    | _ => none) := by
  rcases ho.cell d with h | ⟨i, i', h1, h2, _⟩
  · rw [h]
  · rw [h1, h2]

theorem dictItems (ho : Outside w.heap h') (i : Inst) : Pickler.dictItems { w with heap := h' } i = Pickler.dictItems w i := by
  unfold Pickler.dictItems
  cases i.dictCell with
  | none => rfl
  | some d =>
    have h := ho.dict d
    revert h
    simp only []
    rcases ho.cell d with h | ⟨i, i', h1, h2, _⟩
    · rw [h]; exact fun _ => rfl
    · rw [h1, h2]; exact fun _ => rfl

theorem isEnumV (ho : Outside w.heap h') (v : Val) : Pickler.isEnumV { w with heap := h' } v = Pickler.isEnumV w v := by
  cases v <;> try rfl
  case ref a =>
    simp only [Pickler.isEnumV]
    rcases ho.cell a with h | ⟨i, i', h1, h2, h3⟩
    · rw [h]
    · rw [h1, h2]; exact h3

theorem rest (ho : Outside w.heap h') (a : Addr) (i : Inst) (d : List (Str × Json)) : flattenRest { w with heap := h' } cfg fl a i d = flattenRest w cfg fl a i d := by
  unfold flattenRest flattenDictSub flattenOwnDict flattenSequence flattenSeqAttrs
  simp only [ho.dictItems, ho.truth]
  rfl

/-- the dict that a state is, if there is something to exclude from it -/
def excludable (h : Heap) (ex : List Str) (st : Val) : Option (List (Val × Val)) :=
  match st with
  | .ref d => (match h[d]? with
    | some (.dict kvs) => if ex.isEmpty then none else some kvs
    | _ => none)
  | _ => none

theorem excl (ho : Outside w.heap h') (ex : List Str) (st : Val) : excludable h' ex st = excludable w.heap ex st := by
  cases st <;> try rfl
  case ref d =>
    simp only [excludable]
    rcases ho.cell d with h | ⟨i, i', h1, h2, _⟩
    · rw [h]
    · rw [h1, h2]

theorem getstate_eq (w : World) (cfg : PCfg) (fl : Val → P Json) (a : Addr) (i : Inst) (data : List (Str × Json)) :
    flattenGetstate w cfg fl a i data = if i.info.ownGetstate then
      match i.state with
      | .error e => if e == .typeError then pure .null else PyM.throw e
      | .ok st => match excludable w.heap i.exclude st with
        | some kvs =>
          if (itemsExcl i.exclude kvs).isEmpty then flattenRest w cfg fl a i data
          else do
            let j ← flattenFilteredState w cfg fl a kvs i.exclude
            pure (putState cfg j data)
        | none =>
          if truthy w.heap st then do
            let j ← fl st
            pure (putState cfg j data)
          else flattenRest w cfg fl a i data
    else flattenRest w cfg fl a i data := by
  unfold flattenGetstate excludable
  rfl

theorem getstate (ho : Outside w.heap h') (a : Addr) (i : Inst) (d : List (Str × Json)) :
    flattenGetstate { w with heap := h' } cfg fl a i d = flattenGetstate w cfg fl a i d := by
  rw [getstate_eq, getstate_eq]
  simp only [ho.rest, ho.excl, ho.truth]
  rfl

theorem inst (ho : Outside w.heap h') (a : Addr) (i : Inst) : flattenInst { w with heap := h' } cfg fl a i = flattenInst w cfg fl a i := by
  unfold flattenInst flattenReduce reduceSane flattenBody flattenDate
  simp only [ho.getstate, ho.truth]

theorem flatten (ho : Outside w.heap h')
    (hi : ∀ (a : Nat) (i i' : Inst), w.heap[a]? = some (.inst i) → h'[a]? = some (.inst i') → ∀ fl, flattenInst { w with heap := h' } cfg fl a i' = flattenInst w cfg fl a i) :
    ∀ (n : Nat) (v : Val), Pickler.flatten { w with heap := h' } cfg n v = Pickler.flatten w cfg n v
  | 0, _ => rfl
  | n + 1, v => by
    have ih : Pickler.flatten { w with heap := h' } cfg n = Pickler.flatten w cfg n := funext (flatten ho hi n)
    have hby : ∀ v, flattenBy { w with heap := h' } cfg (Pickler.flatten w cfg n) v = flattenBy w cfg (Pickler.flatten w cfg n) v := by
      intro v
      cases v <;> try rfl
      case ref a =>
        simp only [flattenBy]
        rcases ho.cell a with h | ⟨i, i', h1, h2, h3⟩
        · rw [← h]
          cases hc : w.heap[a]? with
          | none => rfl
          | some o =>
            cases o with
            | inst i => simp only [hi a i i hc (by rw [← h, hc])]
            | _ => rfl
        · rw [h1, h2]
          simp only [h3, hi a i i' h1 h2]
    have hobj : ∀ v, flattenObj { w with heap := h' } cfg (Pickler.flatten w cfg n) v = flattenObj w cfg (Pickler.flatten w cfg n) v := by
      intro v
      unfold flattenObj
      rw [hby, ho.isEnumV]
    simp only [Pickler.flatten, flattenStep, flattenImpl, ih, hobj]

theorem encode (ho : Outside w.heap h')
    (hi : ∀ (a : Nat) (i i' : Inst), w.heap[a]? = some (.inst i) → h'[a]? = some (.inst i') → ∀ fl, flattenInst { w with heap := h' } cfg fl a i' = flattenInst w cfg fl a i)
    (n : Nat) (v : Val) (reset : Bool) : Api.encode { w with heap := h' } cfg n v reset = Api.encode w cfg n v reset := by
  unfold Api.encode flattenTop
  simp only [flatten ho hi]

end Outside
end JP.Pickler
