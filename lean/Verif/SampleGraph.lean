import Verif.Supported
import Verif.TextSpec
/-!
# Checking concrete graphs

Sufficient conditions, decidable by evaluation, for the hypotheses of the round-trip theorems.
-/
namespace JP.Sample
open JP

mutual
/-- cells mentioned in the value -/
def refs : Val → List Addr
  | .ref a => [a]
  | .tuple _ xs | .set _ xs => refsL xs
  | _ => []
def refsL : List Val → List Addr
  | [] => []
  | x :: xs => refs x ++ refsL xs
end

theorem mem_refsL {x : Val} {b : Addr} : ∀ {xs : List Val}, x ∈ xs → b ∈ refs x → b ∈ refsL xs
  | y :: ys, h, hb => by
    rcases List.mem_cons.1 h with rfl | h
    · exact List.mem_append_left _ hb
    · exact List.mem_append_right _ (mem_refsL h hb)

/-- the cells satisfying `S` refer only to such cells -/
def Closed (h : Heap) (S : Addr → Prop) : Prop :=
  ∀ a o, h[a]? = some o → S a → ∀ x ∈ o.parts, ∀ b ∈ refs x, S b

theorem reach_closed {h : Heap} {S : Addr → Prop} (hc : Closed h S) {v : Val} {b : Addr} (hr : Reach h v b) :
    (∀ a ∈ refs v, S a) → S b := by
  induction hr with
  | self a => exact fun hv => hv a (by simp [refs])
  | cell h1 h2 _ ih => exact fun hv => ih (hc _ _ h1 (hv _ (by simp [refs])) _ h2)
  | tuple h1 _ ih => exact fun hv => ih (fun a ha => hv a (by simp only [refs]; exact mem_refsL h1 ha))
  | set h1 _ ih => exact fun hv => ih (fun a ha => hv a (by simp only [refs]; exact mem_refsL h1 ha))

/-- all references lead to existing cells -/
def closedHeap (h : Heap) : Bool := h.all (fun o => o.parts.all (fun x => (refs x).all (fun b => b < h.length)))

theorem closedHeap_spec {h : Heap} (hc : closedHeap h = true) : Closed h (fun a => a < h.length) := by
  intro a o ho _ x hx b hb
  have := List.all_eq_true.1 (List.all_eq_true.1 (List.all_eq_true.1 hc o (List.mem_of_getElem? ho)) x hx) b hb
  simpa using this

/-- the state that is turned into attributes -/
def stateAddr (h : Heap) : Obj → Option Addr
  | .inst i => if i.info.hasSetstate || i.info.reduces then none else match savedState h i with
    | some (.ref d) => some d
    | _ => none
  | _ => none

def isRef (d : Addr) : Val → Bool
  | .ref e => e == d
  | _ => false

/-- states that are turned into attributes are not shared -/
def keepsHeap (h : Heap) (v : Val) : Bool := h.zipIdx.all (fun p => match stateAddr h p.1 with
  | none => true
  | some d => !(refs v).contains d &&
      h.zipIdx.all (fun q => q.1.parts.all (fun x => !(refs x).contains d || (q.2 == p.2 && isRef d x))))

theorem mentions_refs {v : Val} {d : Addr} (h : Mentions v d) : d ∈ refs v := by
  induction h with
  | self => simp [refs]
  | tuple h1 _ ih => simp only [refs]; exact mem_refsL h1 ih
  | set h1 _ ih => simp only [refs]; exact mem_refsL h1 ih

theorem keepsHeap_spec {h : Heap} {env : UEnv} {v : Val} (hk : keepsHeap h v = true) :
    (∀ a o, h[a]? = some o → Keeps h env a o) ∧ ∀ d, Mentions v d → ∀ a, ¬ StateOf h env a d := by
  have key : ∀ a d, StateOf h env a d → d ∉ refs v ∧ ∀ c o, h[c]? = some o → ∀ x ∈ o.parts, d ∈ refs x → c = a ∧ x = .ref d := by
    rintro a d ⟨i, h1, _, h3, h4, h5⟩
    have hm : (Obj.inst i, a) ∈ h.zipIdx := List.mem_zipIdx_iff_getElem?.2 h1
    have hs := List.all_eq_true.1 hk _ hm
    simp only [stateAddr, h3, h4, Bool.or_false, Bool.false_eq_true, if_false, h5, Bool.and_eq_true, Bool.not_eq_true',
      List.contains_eq_mem, decide_eq_false_iff_not] at hs
    refine ⟨hs.1, fun c o ho x hx hd => ?_⟩
    have := List.all_eq_true.1 (List.all_eq_true.1 hs.2 (o, c) (List.mem_zipIdx_iff_getElem?.2 ho)) x hx
    simp only [Bool.or_eq_true, Bool.not_eq_true', decide_eq_false_iff_not, Bool.and_eq_true, beq_iff_eq] at this
    rcases this with this | ⟨e1, e2⟩
    · exact absurd hd this
    · refine ⟨e1, ?_⟩
      cases x <;> simp only [isRef, Bool.false_eq_true] at e2
      simp only [beq_iff_eq] at e2
      rw [e2]
  refine ⟨fun c o ho x hx d hd a ha => ?_, fun d hd a ha => (key a d ha).1 (mentions_refs hd)⟩
  obtain ⟨e1, e2⟩ := (key a d ha).2 c o ho x hx (mentions_refs hd)
  exact ⟨e1.symm, e2⟩

theorem supported_of {h : Heap} {env : UEnv} {v : Val} (hv : ValOk h env v) (hr : (refs v).all (fun b => b < h.length) = true)
    (hc : closedHeap h = true) (hk : keepsHeap h v = true) (ho : ∀ a (ha : a < h.length), CellOk h env a h[a]) : Supported h env v := by
  obtain ⟨k1, k2⟩ := keepsHeap_spec (env := env) hk
  refine ⟨⟨hv, fun a ha => ?_⟩, k2⟩
  have : a < h.length := reach_closed (closedHeap_spec hc) ha (fun b hb => by simpa using List.all_eq_true.1 hr b hb)
  exact ⟨_, List.getElem?_eq_getElem this, ho a this, k1 _ _ (List.getElem?_eq_getElem this)⟩

/-! ### text -/

def asciiStr (s : Str) : Bool := s.all (· < 128)

theorem asciiStr_ok {s : Str} (h : asciiStr s = true) : StrOk s :=
  strOk_of_ascii (fun c hc => by simpa using List.all_eq_true.1 h c hc)

mutual
def asciiVal : Val → Bool
  | .str s | .type s | .func s | .module s => asciiStr s
  | .float f => !floatIsNan f
  | .tuple _ xs | .set _ xs => asciiVals xs
  | _ => true
def asciiVals : List Val → Bool
  | [] => true
  | x :: xs => asciiVal x && asciiVals xs
end

theorem asciiVals_mem {x : Val} : ∀ {xs : List Val}, asciiVals xs = true → x ∈ xs → asciiVal x = true
  | y :: ys, h, hx => by
    simp only [asciiVals, Bool.and_eq_true] at h
    rcases List.mem_cons.1 hx with rfl | hx
    · exact h.1
    · exact asciiVals_mem h.2 hx

/-- the values and names of an instance -/
def held (i : Inst) : List Val :=
  i.parts ++ i.attrs.map (fun kv => .str kv.1) ++ i.info.slots.map .str ++ i.dirAttrs.map (fun kv => .str kv.1)
    ++ i.hfields.map (fun kv => .str kv.1) ++ [.str i.cls]

def asciiHeap (h : Heap) : Bool := h.all (fun o => match o with
  | .inst i => asciiVals (held i)
  | o => asciiVals o.parts)

theorem asciiHeap_dict {h : Heap} (hh : asciiHeap h = true) {d : Addr} {kvs} (hd : h[d]? = some (.dict kvs)) {k v}
    (hkv : (k, v) ∈ kvs) : asciiVal k = true ∧ asciiVal v = true := by
  have := List.all_eq_true.1 hh _ (List.mem_of_getElem? hd)
  simp only [Obj.parts] at this
  refine ⟨asciiVals_mem this (List.mem_append_left _ (List.mem_map_of_mem (f := (·.1)) hkv)),
    asciiVals_mem this (List.mem_append_right _ (List.mem_map_of_mem (f := (·.2)) hkv))⟩

theorem holds_ascii {h : Heap} (hh : asciiHeap h = true) {i : Inst} (hi : asciiVals (held i) = true) {x : Val}
    (hx : Holds h i x) : asciiVal x = true := by
  have key : ∀ x, x ∈ held i → asciiVal x = true := fun x hx => asciiVals_mem hi hx
  have part : ∀ x, x ∈ i.parts → asciiVal x = true := fun x hx => key x (by simp [held, hx])
  cases hx with
  | attrName h1 => exact key _ (by simp only [held, List.mem_append, List.mem_map]; grind)
  | attr h1 => exact part _ (by simp only [Inst.parts, List.mem_append, List.mem_map]; grind)
  | slotName h1 => exact key _ (by simp only [held, List.mem_append, List.mem_map]; grind)
  | dictKey _ h1 h2 => exact (asciiHeap_dict hh h1 h2).1
  | dictVal _ h1 h2 => exact (asciiHeap_dict hh h1 h2).2
  | itemKey h1 => exact part _ (by simp only [Inst.parts, List.mem_append, List.mem_map]; grind)
  | itemVal h1 => exact part _ (by simp only [Inst.parts, List.mem_append, List.mem_map]; grind)
  | elem h1 => exact part _ (by simp [Inst.parts, h1])
  | newargs => exact part _ (by simp [Inst.parts])
  | newargsEx1 => exact part _ (by simp [Inst.parts])
  | newargsEx2 => exact part _ (by simp [Inst.parts])
  | initargs => exact part _ (by simp [Inst.parts])
  | exemplar => exact part _ (by simp [Inst.parts])
  | state h1 => exact part _ (by simp [Inst.parts, h1])
  | stateKey _ h1 h2 => exact (asciiHeap_dict hh h1 h2).1
  | stateVal _ h1 h2 => exact (asciiHeap_dict hh h1 h2).2
  | reduceElem h1 h2 => exact part _ (by simp [Inst.parts, h1, h2])
  | reduceTarget h1 => exact part _ (by simp [Inst.parts, h1])
  | factory h1 => exact part _ (by simp [Inst.parts, h1])
  | dirName h1 => exact key _ (by simp only [held, List.mem_append, List.mem_map]; grind)
  | dirAttr h1 => exact part _ (by simp only [Inst.parts, List.mem_append, List.mem_map]; grind)
  | hfieldName h1 => exact key _ (by simp only [held, List.mem_append, List.mem_map]; grind)
  | hfield h1 => exact part _ (by simp only [Inst.parts, List.mem_append, List.mem_map]; grind)

theorem within_ascii {h : Heap} (hh : asciiHeap h = true) {v : Val} (hv : asciiVal v = true) {x : Val}
    (hx : Within h v x) : asciiVal x = true := by
  induction hx with
  | self => exact hv
  | step _ ht ih =>
    cases ht with
    | tuple h1 => exact asciiVals_mem ih h1
    | set h1 => exact asciiVals_mem ih h1
    | list h1 h2 =>
      have := List.all_eq_true.1 hh _ (List.mem_of_getElem? h1)
      exact asciiVals_mem this h2
    | dictKey h1 h2 => exact (asciiHeap_dict hh h1 h2).1
    | dictVal h1 h2 => exact (asciiHeap_dict hh h1 h2).2
    | inst h1 h2 => exact holds_ascii hh (List.all_eq_true.1 hh _ (List.mem_of_getElem? h1)) h2

theorem textOk_of {h : Heap} {v : Val} (hh : asciiHeap h = true) (hv : asciiVal v = true) : TextOk h v where
  str _ hs := asciiStr_ok (within_ascii hh hv hs)
  float f hs hn := by
    have := within_ascii hh hv hs
    simp [asciiVal, hn] at this
  type _ hs := asciiStr_ok (within_ascii hh hv hs)
  func _ hs := asciiStr_ok (within_ascii hh hv hs)
  module _ hs := asciiStr_ok (within_ascii hh hv hs)
  cls a i _ hi := by
    have := List.all_eq_true.1 hh _ (List.mem_of_getElem? hi)
    exact asciiStr_ok (asciiVals_mem (x := .str i.cls) this (by simp [held]))

end JP.Sample
