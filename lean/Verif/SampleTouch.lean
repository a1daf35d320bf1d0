import Verif.SampleGraph
import Verif.DecEq
import Verif.ExpandSpec
/-!
# Sample graphs: what they reach, by evaluation
-/
namespace JP.Sample
open JP Expand

def dictParts (h : Heap) (a : Addr) : List Val :=
  match h[a]? with
  | some (.dict kvs) => kvs.map (·.1) ++ kvs.map (·.2)
  | _ => []

/-- everything a value directly refers to (and possibly more) -/
def touched (h : Heap) : Val → List Val
  | .tuple _ xs | .set _ xs => xs
  | .ref a => match h[a]? with
    | some (.list xs) => xs
    | some (.dict kvs) => kvs.map (·.1) ++ kvs.map (·.2)
    | some (.inst i) => held i ++ (match i.dictCell with | some d => dictParts h d | none => []) ++ (match i.state with | .ok (.ref d) => dictParts h d | _ => [])
    | _ => []
  | _ => []

theorem mem_dictParts {h : Heap} {d : Addr} {kvs k v} (hd : h[d]? = some (.dict kvs)) (hkv : (k, v) ∈ kvs) : k ∈ dictParts h d ∧ v ∈ dictParts h d := by
  unfold dictParts
  rw [hd]
  exact ⟨List.mem_append_left _ (List.mem_map_of_mem (f := (·.1)) hkv), List.mem_append_right _ (List.mem_map_of_mem (f := (·.2)) hkv)⟩

theorem touched_spec {h : Heap} {v x : Val} (ht : Touches h v x) : x ∈ touched h v := by
  cases ht with
  | tuple h1 => exact h1
  | set h1 => exact h1
  | list h1 h2 => unfold touched; simp only [h1]; exact h2
  | dictKey h1 h2 => unfold touched; simp only [h1]; exact List.mem_append_left _ (List.mem_map_of_mem (f := (·.1)) h2)
  | dictVal h1 h2 => unfold touched; simp only [h1]; exact List.mem_append_right _ (List.mem_map_of_mem (f := (·.2)) h2)
  | @inst a i x h1 hx =>
    unfold touched
    simp only [h1]
    have key : ∀ x, x ∈ held i → x ∈ held i ++ (match i.dictCell with | some d => dictParts h d | none => []) ++ (match i.state with | .ok (.ref d) => dictParts h d | _ => []) :=
      fun x hx => List.mem_append_left _ (List.mem_append_left _ hx)
    have part : ∀ x, x ∈ i.parts → x ∈ held i ++ (match i.dictCell with | some d => dictParts h d | none => []) ++ (match i.state with | .ok (.ref d) => dictParts h d | _ => []) :=
      fun x hx => key x (by simp [held, hx])
    cases hx with
    | attrName h1 => exact key _ (by simp only [held, List.mem_append, List.mem_map]; grind)
    | attr h1 => exact part _ (by simp only [Inst.parts, List.mem_append, List.mem_map]; grind)
    | slotName h1 => exact key _ (by simp only [held, List.mem_append, List.mem_map]; grind)
    | dictKey hd h1 h2 => exact List.mem_append_left _ (List.mem_append_right _ (by rw [hd]; exact (mem_dictParts h1 h2).1))
    | dictVal hd h1 h2 => exact List.mem_append_left _ (List.mem_append_right _ (by rw [hd]; exact (mem_dictParts h1 h2).2))
    | itemKey h1 => exact part _ (by simp only [Inst.parts, List.mem_append, List.mem_map]; grind)
    | itemVal h1 => exact part _ (by simp only [Inst.parts, List.mem_append, List.mem_map]; grind)
    | elem h1 => exact part _ (by simp [Inst.parts, h1])
    | newargs => exact part _ (by simp [Inst.parts])
    | newargsEx1 => exact part _ (by simp [Inst.parts])
    | newargsEx2 => exact part _ (by simp [Inst.parts])
    | initargs => exact part _ (by simp [Inst.parts])
    | exemplar => exact part _ (by simp [Inst.parts])
    | state h1 => exact part _ (by simp [Inst.parts, h1])
    | stateKey hd h1 h2 => exact List.mem_append_right _ (by rw [hd]; exact (mem_dictParts h1 h2).1)
    | stateVal hd h1 h2 => exact List.mem_append_right _ (by rw [hd]; exact (mem_dictParts h1 h2).2)
    | reduceElem h1 h2 => exact part _ (by simp [Inst.parts, h1, h2])
    | reduceTarget h1 => exact part _ (by simp [Inst.parts, h1])
    | factory h1 => exact part _ (by simp [Inst.parts, h1])
    | dirName h1 => exact key _ (by simp only [held, List.mem_append, List.mem_map]; grind)
    | dirAttr h1 => exact part _ (by simp only [Inst.parts, List.mem_append, List.mem_map]; grind)
    | hfieldName h1 => exact key _ (by simp only [held, List.mem_append, List.mem_map]; grind)
    | hfield h1 => exact part _ (by simp only [Inst.parts, List.mem_append, List.mem_map]; grind)

def belowB (h : Heap) : Nat → Val → Bool
  | 0, _ => false
  | n + 1, v => (touched h v).all (belowB h n)

theorem belowB_spec {h : Heap} : ∀ {n : Nat} {v : Val}, belowB h n v = true → Below h n v
  | n + 1, v, hb => fun x hx => belowB_spec (List.all_eq_true.1 hb x (touched_spec hx))

/-- the list contains the value and everything it reaches -/
def closedList (h : Heap) (v : Val) (l : List Val) : Bool := l.contains v && l.all (fun x => (touched h x).all l.contains)

theorem closedList_spec {h : Heap} {v : Val} {l : List Val} (hc : closedList h v l = true) {x : Val} (hx : Within h v x) : x ∈ l := by
  simp only [closedList, Bool.and_eq_true, List.contains_iff_mem] at hc
  induction hx with
  | self => exact hc.1
  | step _ ht ih => exact List.contains_iff_mem.1 (List.all_eq_true.1 (List.all_eq_true.1 hc.2 _ ih) _ (touched_spec ht))

def scalarB : Val → Bool
  | .none | .bool _ | .int _ | .float _ | .str _ => true
  | _ => false

theorem scalarB_spec {v : Val} : Scalar v ↔ scalarB v = true := by
  cases v <;> simp [Scalar, scalarB]

def calmB (cfg : PCfg) (i : Inst) : Bool :=
  (match i.state with | .error e => e == .typeError | _ => true) && (match i.reduce with | .raise e => e == .typeError | _ => true) &&
  (i.exclude.isEmpty || !i.info.ownGetstate) && (match i.factory with | none => true | some (.type _) => true | _ => false) &&
  (i.info.base != .dict || !cfg.unpicklable || i.dictCell.isNone)

theorem calmB_spec {cfg : PCfg} {i : Inst} (h : calmB cfg i = true) (he : i.errs = {}) : Calm cfg i := by
  simp only [calmB, Bool.and_eq_true, Bool.or_eq_true] at h
  obtain ⟨⟨⟨⟨h1, h2⟩, h3⟩, h4⟩, h5⟩ := h
  refine ⟨he, ?_, ?_, ?_, ?_, ?_⟩
  · intro e hh; rw [hh] at h1; simpa using h1
  · intro e hh; rw [hh] at h2; simpa using h2
  · simpa using h3
  · intro f hh
    rw [hh] at h4
    cases f <;> simp at h4
    exact ⟨_, rfl⟩
  · intro hb hu
    rw [hb, hu] at h5
    simpa using h5

/-- sufficient conditions for `Shape` -/
theorem shape_of {w : World} {cfg : PCfg} {root : Val} (l : List Val) (hc : closedList w.heap root l = true)
    (hk : l.all (fun v => match v with
      | .ref a => match w.heap[a]? with
        | some (.list _) => true
        | some (.dict _) => true
        | some (.inst i) => calmB cfg i
        | _ => false
      | _ => true) = true)
    (he : w.heap.all (fun o => match o with | .inst i => i.errs == {} | _ => true) = true)
    (hi : l.all (fun x => l.all (fun y => scalarB x || x.ident != y.ident || x == y)) = true)
    (hr : ∀ v, ∃ s, w.repr v = .ok s) (hp : ∀ v, ∃ s, w.pystr v = .ok s) : Shape w cfg root where
  calm a i hx ho := by
    have h1 := List.all_eq_true.1 hk _ (closedList_spec hc hx)
    simp only [ho] at h1
    have h2 := List.all_eq_true.1 he _ (List.mem_of_getElem? ho)
    simp only [beq_iff_eq] at h2
    exact calmB_spec h1 h2
  cells a hx := by
    have h1 := List.all_eq_true.1 hk _ (closedList_spec hc hx)
    simp only at h1
    cases ho : w.heap[a]? with
    | none => rw [ho] at h1; cases h1
    | some o =>
      refine ⟨o, rfl, ?_⟩
      rw [ho] at h1
      cases o with
      | list xs => exact .inl ⟨_, rfl⟩
      | dict kvs => exact .inr (.inl ⟨_, rfl⟩)
      | inst i => exact .inr (.inr ⟨_, rfl⟩)
      | _ => cases h1
  ids x y hx hy hns hid := by
    have h1 := List.all_eq_true.1 (List.all_eq_true.1 hi _ (closedList_spec hc hx)) _ (closedList_spec hc hy)
    rw [scalarB_spec] at hns
    simp only [hns, Bool.false_or, Bool.or_eq_true, hid, bne_self_eq_false] at h1
    simpa using h1
  repr := hr
  pystr := hp

/-- sufficient conditions for `Graph` -/
theorem graph_of {w : World} {cfg : PCfg} {root : Val} {n : Nat} (l : List Val) (hb : belowB w.heap n root = true) (hc : closedList w.heap root l = true)
    (hk : l.all (fun v => match v with
      | .ref a => match w.heap[a]? with
        | some (.list _) => true
        | some (.dict _) => true
        | some (.inst i) => calmB cfg i
        | _ => false
      | _ => true) = true)
    (he : w.heap.all (fun o => match o with | .inst i => i.errs == {} | _ => true) = true)
    (hi : l.all (fun x => l.all (fun y => scalarB x || x.ident != y.ident || x == y)) = true)
    (hr : ∀ v, ∃ s, w.repr v = .ok s) (hp : ∀ v, ∃ s, w.pystr v = .ok s) : Graph w cfg root where
  toShape := shape_of l hc hk he hi hr hp
  finite := ⟨n, belowB_spec hb⟩

end JP.Sample
