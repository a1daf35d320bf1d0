import Verif.Unpickler
/-!
# Which classes and functions reach the decoder

`Flow x P`: if the objects made so far hold only permitted classes and functions and only permitted events happened, this is still so
after a run of `x`, and its result satisfies `P`.  Established for the whole of `restore`.
-/
namespace JP.Unpickler
open JP PyM

/-- The string `s` is the value of a `py/object`, `py/type`, `py/function`, `py/module` or `py/repr` entry of the document, or (with
`keys=True`) of a document inside one of its `json://` keys. -/
inductive Named (env : UEnv) : Json → Str → Prop
  | here {kvs t s} : (t, .str s) ∈ kvs → t ∈ [Tags.OBJECT, Tags.TYPE, Tags.FUNCTION, Tags.MODULE, Tags.REPR] → Named env (.obj kvs) s
  | elem {xs x s} : x ∈ xs → Named env x s → Named env (.arr xs) s
  | value {kvs k x s} : (k, x) ∈ kvs → Named env x s → Named env (.obj kvs) s
  | key {kvs k x j s} : env.keys = true → (k, x) ∈ kvs → startsWith k Tags.JSON_KEY = true →
      env.loads (k.drop Tags.JSON_KEY.length) = some j → Named env j s → Named env (.obj kvs) s

mutual
/-- every class and function in `v` is permitted by `C`; references are to cells from `N` on -/
def Fit (C : Str → Prop) (N : Nat) : Val → Prop
  | .type n | .func n => C n
  | .ref a => N ≤ a
  | .tuple _ xs | .set _ xs => FitL C N xs
  | _ => True
def FitL (C : Str → Prop) (N : Nat) : List Val → Prop
  | [] => True
  | x :: xs => Fit C N x ∧ FitL C N xs
end

variable {env : UEnv} {C D : Str → Prop} {N : Nat} {l0 : List Event}

theorem fitL_iff : ∀ {xs : List Val}, FitL C N xs ↔ ∀ x ∈ xs, Fit C N x
  | [] => by simp [FitL]
  | x :: xs => by simp [FitL, fitL_iff (xs := xs)]

/-- keys and values -/
def FitKvs (C : Str → Prop) (N : Nat) (kvs : List (Val × Val)) : Prop := ∀ kv ∈ kvs, Fit C N kv.1 ∧ Fit C N kv.2

/-- in a cell -/
def FitObj (C : Str → Prop) (N : Nat) : Obj → Prop
  | .list xs => ∀ x ∈ xs, Fit C N x
  | .dict kvs => FitKvs C N kvs
  | .inst i => FitKvs C N i.items ∧ ∀ x ∈ i.elems, Fit C N x
  | .proxy (some v) => Fit C N v
  | _ => True

def FitSlot (C : Str → Prop) (N : Nat) : Slot → Prop
  | .key k => Fit C N k
  | _ => True

/-- what may happen: lookups of names in `D`, calls of what is in `C` -/
def EvOk (C D : Str → Prop) : Event → Prop
  | .imp s | .missing s | .obj s => D s
  | .call n => C n
  | .eval _ => False

/-- the state during decoding -/
structure NInv (C D : Str → Prop) (N : Nat) (l0 : List Event) (s : UState) : Prop where
  len : N ≤ s.heap.length
  heap : ∀ a o, N ≤ a → s.heap[a]? = some o → FitObj C N o
  objs : ∀ v ∈ s.objs, Fit C N v
  proxies : ∀ e ∈ s.proxies, FitSlot C N e.2.1 ∧ N ≤ e.2.2
  log : ∃ evs, s.log = l0 ++ evs ∧ ∀ e ∈ evs, EvOk C D e

/-- what the surroundings provide for the names in `D` -/
structure NRules (env : UEnv) (C D : Str → Prop) (N : Nat) : Prop where
  safe : env.safe = true
  named : ∀ s, D s → C s
  cls : ∀ s v, D s → env.loadclass s = some v → Fit C N v
  mod : ∀ s v, D s → env.loadmodule s = .ok (some v) → Fit C N v

/-- the names in the document are in `D` -/
def DocOk (env : UEnv) (D : Str → Prop) (j : Json) : Prop := ∀ s, Named env j s → D s

theorem DocOk.arr {xs : List Json} (h : DocOk env D (.arr xs)) {x : Json} (hx : x ∈ xs) : DocOk env D x := fun s hs => h s (.elem hx hs)
theorem DocOk.value {kvs : List (Str × Json)} (h : DocOk env D (.obj kvs)) {k : Str} {x : Json} (hx : (k, x) ∈ kvs) : DocOk env D x :=
  fun s hs => h s (.value hx hs)
theorem dget_mem' {α : Type} {k : Str} : ∀ {kvs : List (Str × α)} {x : α}, dget k kvs = some x → (k, x) ∈ kvs
  | (k', v) :: r, x, h => by
    rw [dget_cons] at h
    split at h
    · next e => cases h; subst e; exact List.mem_cons_self
    · exact List.mem_cons_of_mem _ (dget_mem' h)
theorem DocOk.get {kvs : List (Str × Json)} (h : DocOk env D (.obj kvs)) {k : Str} {x : Json} (hx : dget k kvs = some x) : DocOk env D x :=
  h.value (dget_mem' hx)
theorem DocOk.item {kvs : List (Str × Json)} (h : DocOk env D (.obj kvs)) {k : Str} {x : Json} (hx : Unpickler.item k kvs = .ok x) : DocOk env D x := by
  unfold Unpickler.item at hx
  split at hx
  · next e => cases hx; exact h.get e
  · cases hx
theorem DocOk.name {kvs : List (Str × Json)} (h : DocOk env D (.obj kvs)) {t s : Str} (hx : Unpickler.item t kvs = .ok (.str s))
    (ht : t ∈ [Tags.OBJECT, Tags.TYPE, Tags.FUNCTION, Tags.MODULE, Tags.REPR]) : D s := by
  unfold Unpickler.item at hx
  split at hx
  · next e => cases hx; exact h s (.here (dget_mem' e) ht)
  · cases hx
theorem DocOk.sub {kvs kvs' : List (Str × Json)} (h : DocOk env D (.obj kvs)) (hs : ∀ e ∈ kvs', e ∈ kvs) : DocOk env D (.obj kvs') := by
  intro s hn
  cases hn with
  | here h1 h2 => exact h s (.here (hs _ h1) h2)
  | value h1 h2 => exact h s (.value (hs _ h1) h2)
  | key h0 h1 h2 h3 h4 => exact h s (.key h0 (hs _ h1) h2 h3 h4)
theorem DocOk.ddel {kvs : List (Str × Json)} (h : DocOk env D (.obj kvs)) (k : Str) : DocOk env D (.obj (ddel k kvs)) :=
  h.sub (fun _ he => (List.mem_filter.1 he).1)
theorem docOk_str (s : Str) : DocOk env D (.str s) := fun _ h => by cases h
theorem docOk_null : DocOk env D .null := fun _ h => by cases h
theorem docOk_nil : DocOk env D (.arr []) := fun _ h => by cases h with | elem h _ => cases h
theorem docOk_empty : DocOk env D (.obj []) := fun _ h => by
  cases h with
  | here h _ => cases h
  | value h _ => cases h
  | key _ h _ _ _ => cases h
theorem DocOk.iter {j : Json} (h : DocOk env D j) {xs : List Json} (hx : jsonIter j = .ok xs) : ∀ x ∈ xs, DocOk env D x := by
  intro x hm
  unfold jsonIter at hx
  split at hx
  · cases hx; exact h.arr hm
  · cases hx
    obtain ⟨kv, _, rfl⟩ := List.mem_map.1 hm
    exact docOk_str _
  · cases hx
    obtain ⟨kv, _, rfl⟩ := List.mem_map.1 hm
    exact docOk_str _
  · cases hx

theorem NInv.setHeap {s : UState} (h : NInv C D N l0 s) {a : Addr} {o : Obj} (ho : N ≤ a → FitObj C N o) :
    NInv C D N l0 { s with heap := s.heap.set a o } := by
  refine ⟨by simpa using h.len, fun b o' hb hi => ?_, h.objs, h.proxies, h.log⟩
  change (s.heap.set a o)[b]? = some o' at hi
  rw [List.getElem?_set] at hi
  split at hi
  · next e =>
    subst e
    split at hi
    · cases hi; exact ho hb
    · cases hi
  · exact h.heap b o' hb hi

theorem NInv.get {s : UState} (h : NInv C D N l0 s) {a : Addr} {o : Obj} (ha : N ≤ a) (ho : s.heap[a]? = some o) : FitObj C N o := h.heap a o ha ho

theorem fit_vset {k v : Val} (hk : Fit C N k) (hv : Fit C N v) : ∀ {kvs}, FitKvs C N kvs → FitKvs C N (vset k v kvs)
  | [], _ => fun kv hm => by
    rw [vset, List.mem_singleton] at hm
    subst hm
    exact ⟨hk, hv⟩
  | (k', v') :: r, h => by
    have h1 := h (k', v') List.mem_cons_self
    have h2 : FitKvs C N r := fun kv hm => h kv (List.mem_cons_of_mem _ hm)
    intro kv hm
    rw [vset] at hm
    split at hm
    · rcases List.mem_cons.1 hm with rfl | hm
      · exact ⟨h1.1, hv⟩
      · exact h2 kv hm
    · rcases List.mem_cons.1 hm with rfl | hm
      · exact h1
      · exact fit_vset hk hv h2 kv hm

theorem fit_sadd {v : Val} (hv : Fit C N v) {xs : List Val} (h : ∀ x ∈ xs, Fit C N x) : ∀ x ∈ sadd v xs, Fit C N x := by
  intro x hx
  unfold sadd at hx
  split at hx
  · exact h x hx
  · rcases List.mem_append.1 hx with hx | hx
    · exact h x hx
    · rw [List.mem_singleton] at hx; subst hx; exact hv

theorem fit_str (s : Str) : Fit C N (.str s) := trivial
theorem fit_none : Fit C N .none := trivial

theorem fit_pyIndex {l : List Val} (h : ∀ v ∈ l, Fit C N v) {i : Int} {v : Val} (hi : pyIndex l i = some v) : Fit C N v := by
  unfold pyIndex at hi
  split at hi
  · exact h v (List.mem_of_getElem? hi)
  · split at hi
    · exact h v (List.mem_of_getElem? hi)
    · cases hi

theorem NInv.proxyGet {s : UState} (h : NInv C D N l0 s) {p : Addr} (hp : N ≤ p) : Fit C N (proxyGet s p) := by
  unfold Unpickler.proxyGet
  split
  · next v e => exact h.get hp e
  · next i e =>
    cases hq : pyIndex s.objs i with
    | none => exact trivial
    | some v => exact fit_pyIndex h.objs hq
  · exact trivial

theorem NInv.starArgs {s : UState} (h : NInv C D N l0 s) {v : Val} (hv : Fit C N v) {xs : List Val} (hx : starArgs s.heap v = some xs) :
    ∀ x ∈ xs, Fit C N x := by
  cases v with
  | tuple _ ys => cases hx; exact fitL_iff.1 hv
  | set _ ys => cases hx; exact fitL_iff.1 hv
  | str t =>
    cases hx
    intro x hm
    obtain ⟨c, _, rfl⟩ := List.mem_map.1 hm
    exact trivial
  | bytes _ t =>
    cases hx
    intro x hm
    obtain ⟨c, _, rfl⟩ := List.mem_map.1 hm
    exact trivial
  | bytearray _ t =>
    cases hx
    intro x hm
    obtain ⟨c, _, rfl⟩ := List.mem_map.1 hm
    exact trivial
  | ref a =>
    have hx : (match s.heap[a]? with
      | some (.list xs) => some xs
      | some (.dict kvs) => some (kvs.map (·.1))
      | some (.inst i) => match i.info.base with
        | .dict => some (i.items.map (·.1))
        | .plain => none
        | _ => some i.elems
      | _ => none) = some xs := hx
    have hg := fun o => h.get (o := o) hv
    generalize s.heap[a]? = q at hx hg
    cases q with
    | none => cases hx
    | some o =>
      have ho := hg o rfl
      cases o with
      | list ys => cases hx; exact ho
      | dict kvs =>
        cases hx
        intro x hm
        obtain ⟨kv, hkv, rfl⟩ := List.mem_map.1 hm
        exact (ho kv hkv).1
      | inst i =>
        simp only [] at hx
        cases hb : i.info.base <;> rw [hb] at hx <;> simp only [] at hx <;> cases hx
        · intro x hm
          obtain ⟨kv, hkv, rfl⟩ := List.mem_map.1 hm
          exact (ho.1 kv hkv).1
        all_goals exact ho.2
      | _ => cases hx
  | _ => cases hx

theorem NInv.dictEntries {s : UState} (h : NInv C D N l0 s) {v : Val} (hv : Fit C N v) {kvs : List (Val × Val)} (hx : dictEntries s.heap v = some kvs) :
    FitKvs C N kvs := by
  cases v with
  | ref a =>
    have hx : (match s.heap[a]? with
      | some (.dict kvs) => some kvs
      | some (.inst i) => if i.info.base == .dict then some i.items else none
      | _ => none) = some kvs := hx
    have hg := fun o => h.get (o := o) hv
    generalize s.heap[a]? = q at hx hg
    cases q with
    | none => cases hx
    | some o =>
      have ho := hg o rfl
      cases o with
      | dict kvs => cases hx; exact ho
      | inst i =>
        simp only [] at hx
        split at hx
        · cases hx; exact ho.1
        · cases hx
      | _ => cases hx
  | _ => cases hx

def Flow {α : Type} (C D : Str → Prop) (N : Nat) (l0 : List Event) (x : U α) (P : α → Prop) : Prop :=
  ∀ s r s', x s = some (r, s') → NInv C D N l0 s → NInv C D N l0 s' ∧ ∀ a, r = .ok a → P a

namespace Flow

theorem pure {α : Type} {P : α → Prop} {a : α} (h : P a) : Flow C D N l0 (pure a : U α) P := fun s r s' hx hs => by cases hx; exact ⟨hs, fun b hb => by cases hb; exact h⟩
theorem throw {α : Type} {P : α → Prop} (e : Exc) : Flow C D N l0 (PyM.throw e : U α) P := fun s r s' hx hs => by cases hx; exact ⟨hs, fun b hb => by cases hb⟩
theorem get : Flow C D N l0 (PyM.get : U UState) (NInv C D N l0) := fun s r s' hx hs => by cases hx; exact ⟨hs, fun b hb => by cases hb; exact hs⟩
theorem ofExcept {α : Type} (e : Except Exc α) : Flow C D N l0 (PyM.ofExcept e : U α) (fun a => e = .ok a) :=
  fun s r s' hx hs => by cases hx; exact ⟨hs, fun b hb => hb⟩
theorem weaken {α : Type} {P Q : α → Prop} {x : U α} (h : Flow C D N l0 x P) (hpq : ∀ a, P a → Q a) : Flow C D N l0 x Q :=
  fun s r s' hx hs => ⟨(h s r s' hx hs).1, fun a ha => hpq a ((h s r s' hx hs).2 a ha)⟩

theorem bind {α β : Type} {P : α → Prop} {Q : β → Prop} {x : U α} {f : α → U β} (hx : Flow C D N l0 x P) (hf : ∀ a, P a → Flow C D N l0 (f a) Q) :
    Flow C D N l0 (x >>= f) Q := by
  intro s r s' h hs
  rw [bind_run] at h
  cases he : x s with
  | none => rw [he] at h; cases h
  | some p =>
    obtain ⟨q, s1⟩ := p
    rw [he] at h
    have k := hx s q s1 he hs
    cases q with
    | error e => cases h; exact ⟨k.1, fun a ha => by cases ha⟩
    | ok a => exact hf a (k.2 a rfl) s1 r s' h k.1

theorem tryCatch {α : Type} {P : α → Prop} {x : U α} {c : Exc → Bool} {f : Exc → U α} (hx : Flow C D N l0 x P) (hf : ∀ e, Flow C D N l0 (f e) P) :
    Flow C D N l0 (PyM.tryCatch x c f) P := by
  intro s r s' h hs
  unfold PyM.tryCatch at h
  cases he : x s with
  | none => rw [he] at h; cases h
  | some p =>
    obtain ⟨q, s1⟩ := p
    rw [he] at h
    have k := hx s q s1 he hs
    cases q with
    | ok a => cases h; exact k
    | error e =>
      simp only [] at h
      split at h
      · exact hf _ s1 r s' h k.1
      · cases h; exact k

theorem mapM {α β : Type} {P : β → Prop} {f : α → U β} : ∀ {xs : List α}, (∀ a ∈ xs, Flow C D N l0 (f a) P) → Flow C D N l0 (PyM.mapM f xs) (fun ys => ∀ y ∈ ys, P y)
  | [], _ => pure (P := fun ys => ∀ y ∈ ys, P y) (fun y hy => by cases hy)
  | x :: xs, h => by
    rw [mapM_cons]
    refine bind (h x List.mem_cons_self) (fun y hy => bind (mapM (xs := xs) (fun a ha => h a (List.mem_cons_of_mem _ ha))) (fun ys hys => pure (fun z hz => ?_)))
    rcases List.mem_cons.1 hz with rfl | hz
    · exact hy
    · exact hys z hz

theorem foldM {α β : Type} {P : β → Prop} {f : β → α → U β} : ∀ {xs : List α} {b : β}, (∀ a ∈ xs, ∀ b, P b → Flow C D N l0 (f b a) P) → P b →
    Flow C D N l0 (PyM.foldM f b xs) P
  | [], _, _, hb => pure hb
  | x :: xs, b, h, hb => by
    rw [foldM_cons]
    exact bind (h x List.mem_cons_self b hb) (fun b' hb' => foldM (fun a ha => h a (List.mem_cons_of_mem _ ha)) hb')

theorem ite {α : Type} {P : α → Prop} {c : Prop} [Decidable c] {x y : U α} (hx : Flow C D N l0 x P) (hy : Flow C D N l0 y P) : Flow C D N l0 (if c then x else y) P := by
  split
  · exact hx
  · exact hy

/-- `x` keeps the invariant -/
theorem quiet {x : U Unit} (h : ∀ s r s', x s = some (r, s') → NInv C D N l0 s → NInv C D N l0 s') : Flow C D N l0 x (fun _ => True) :=
  fun s r s' hx hs => ⟨h s r s' hx hs, fun _ _ => trivial⟩

theorem emit {e : Event} (he : EvOk C D e) : Flow C D N l0 (emit e) (fun _ => True) := quiet (fun s r s' h hs => by
  cases h
  obtain ⟨evs, h1, h2⟩ := hs.log
  refine ⟨hs.len, hs.heap, hs.objs, hs.proxies, evs ++ [e], by simp [h1], fun e' he' => ?_⟩
  rcases List.mem_append.1 he' with q | q
  · exact h2 e' q
  · rw [List.mem_singleton] at q; subst q; exact he)

theorem alloc {o : Obj} (ho : FitObj C N o) : Flow C D N l0 (alloc o) (fun a => N ≤ a) := fun s r s' h hs => by
  cases h
  refine ⟨⟨by simp; exact Nat.le_trans hs.len (Nat.le_succ _), fun b o' hb hi => ?_, hs.objs, hs.proxies, hs.log⟩, fun a ha => by cases ha; exact hs.len⟩
  have hi : (s.heap ++ [o])[b]? = some o' := hi
  by_cases hl : b < s.heap.length
  · rw [List.getElem?_append_left hl] at hi
    exact hs.heap b o' hb hi
  · rw [List.getElem?_append_right (Nat.le_of_not_lt hl)] at hi
    cases hk : b - s.heap.length with
    | zero => rw [hk] at hi; cases hi; exact ho
    | succ k => rw [hk] at hi; cases hi

theorem setCell (a : Addr) {o : Obj} (ho : FitObj C N o) : Flow C D N l0 (setCell a o) (fun _ => True) := quiet (fun s r s' h hs => by
  cases h
  exact hs.setHeap (fun _ => ho))

theorem modInst (a : Addr) {f : Inst → Inst} (hf : ∀ i, FitObj C N (.inst i) → FitObj C N (.inst (f i))) : Flow C D N l0 (modInst a f) (fun _ => True) :=
  quiet (fun s r s' h hs => by
    unfold Unpickler.modInst at h
    rw [modify_run] at h
    cases h
    split
    · next i hi => exact hs.setHeap (fun hn => hf i (hs.heap a _ hn hi))
    · exact hs)

theorem fresh : Flow C D N l0 fresh (fun _ => True) := fun s r s' h hs => by cases h; exact ⟨⟨hs.len, hs.heap, hs.objs, hs.proxies, hs.log⟩, fun _ _ => trivial⟩

theorem mkref {v : Val} (hv : Fit C N v) : Flow C D N l0 (mkref v) (Fit C N) := fun s r s' h hs => by
  unfold Unpickler.mkref at h
  split at h
  · cases h; exact ⟨hs, fun a ha => by cases ha; exact hv⟩
  · cases h
    refine ⟨⟨hs.len, hs.heap, fun w hw => ?_, hs.proxies, hs.log⟩, fun a ha => by cases ha; exact hv⟩
    rcases List.mem_append.1 hw with q | q
    · exact hs.objs w q
    · rw [List.mem_singleton] at q; subst q; exact hv

theorem swapref (p : Addr) {v : Val} (hv : Fit C N v) : Flow C D N l0 (swapref p v) (fun _ => True) := quiet (fun s r s' h hs => by
  unfold Unpickler.swapref at h
  split at h
  · cases h; exact hs
  · cases h
    refine ⟨hs.len, hs.heap, fun w hw => ?_, hs.proxies, hs.log⟩
    rcases List.mem_or_eq_of_mem_set hw with q | q
    · exact hs.objs w q
    · subst q; exact hv)

theorem noteProxy (a : Addr) {sl : Slot} {v : Val} (hsl : FitSlot C N sl) (hv : Fit C N v) : Flow C D N l0 (noteProxy a sl v) (fun _ => True) :=
  quiet (fun s r s' h hs => by
    unfold Unpickler.noteProxy at h
    rw [modify_run] at h
    cases h
    split
    · next p hp =>
      refine ⟨hs.len, hs.heap, hs.objs, fun e he => ?_, hs.log⟩
      rcases List.mem_append.1 he with q | q
      · exact hs.proxies e q
      · rw [List.mem_singleton] at q
        subst q
        refine ⟨hsl, ?_⟩
        unfold proxyAddr at hp
        split at hp
        · split at hp
          · cases hp; exact hv
          · cases hp; exact hv
          · cases hp
        · cases hp
    · exact hs)

theorem noteEntry (a : Addr) (k : Val) {v : Val} (hv : Fit C N v) : Flow C D N l0 (noteEntry a k v) (fun _ => True) := quiet (fun s r s' h hs => by
  unfold Unpickler.noteEntry at h
  split at h
  · cases h; exact hs
  · exact (noteProxy a (sl := .attr k) trivial hv s r s' h hs).1)

theorem setattr (a : Addr) (k : Str) {v : Val} (hv : Fit C N v) : Flow C D N l0 (setattr a k v) (fun _ => True) := quiet (fun s r s' h hs => by
  unfold Unpickler.setattr at h
  split at h
  · next i hi =>
    split at h
    · split at h
      · cases h
        exact hs.setHeap (fun hn => (hs.heap a _ hn hi : FitObj C N (.inst i)))
      · split at h
        · next hd =>
          cases h
          exact hs.setHeap (fun hn => fit_vset (fit_str _) hv (hs.heap _ _ hn hd))
        · cases h; exact hs
    · cases h; exact hs
  · cases h; exact hs)

theorem setAttrMangled (a : Addr) (k : Val) {v : Val} (hv : Fit C N v) : Flow C D N l0 (setAttrMangled a k v) (fun _ => True) := quiet (fun s r s' h hs => by
  unfold Unpickler.setAttrMangled at h
  repeat' split at h
  all_goals first
    | exact (setattr _ _ hv s r s' h hs).1
    | (cases h; exact hs))

theorem setItem (a : Addr) {k v : Val} (hk : Fit C N k) (hv : Fit C N v) : Flow C D N l0 (setItem a k v) (fun _ => True) := quiet (fun s r s' h hs => by
  unfold Unpickler.setItem at h
  split at h
  · next i hi =>
    have h0 : ∀ (i' : Inst), i'.items = i.items → i'.elems = i.elems → NInv C D N l0 { s with heap := s.heap.set a (.inst i') } := by
      intro i' e1 e2
      refine hs.setHeap (fun hn => ?_)
      have := hs.heap a _ hn hi
      exact ⟨by rw [e1]; exact this.1, by rw [e2]; exact this.2⟩
    have h1 : ∀ (i' : Inst), i'.items = vset k v i.items → i'.elems = i.elems → NInv C D N l0 { s with heap := s.heap.set a (.inst i') } := by
      intro i' e1 e2
      refine hs.setHeap (fun hn => ?_)
      have := hs.heap a _ hn hi
      exact ⟨by rw [e1]; exact fit_vset hk hv this.1, by rw [e2]; exact this.2⟩
    repeat' split at h
    all_goals cases h
    all_goals first
      | exact hs
      | exact h0 _ rfl rfl
      | exact h1 _ rfl rfl
  · cases h; exact hs)

theorem storeRaw (a : Addr) {k v : Val} (hk : Fit C N k) (hv : Fit C N v) : Flow C D N l0 (storeRaw a k v) (fun _ => True) := quiet (fun s r s' h hs => by
  unfold Unpickler.storeRaw at h
  split at h
  · exact (setItem a hk hv s r s' h hs).1
  · exact (setAttrMangled a k hv s r s' h hs).1)

theorem dictSet (a : Addr) {k v : Val} (hk : Fit C N k) (hv : Fit C N v) : Flow C D N l0 (dictSet a k v) (fun _ => True) := quiet (fun s r s' h hs => by
  unfold Unpickler.dictSet at h
  split at h
  · split at h
    · next hd => cases h; exact hs.setHeap (fun hn => fit_vset hk hv (hs.heap _ _ hn hd))
    · cases h; exact hs
  · cases h; exact hs)

theorem fixFactory (v : Val) : Flow C D N l0 (fixFactory v) (fun _ => True) := quiet (fun s r s' h hs => by
  unfold Unpickler.fixFactory at h
  rw [modify_run] at h
  cases h
  split
  · next a =>
    split
    · next i hi =>
      have hg : ∀ (i' : Inst), i'.items = i.items → i'.elems = i.elems → NInv C D N l0 { s with heap := s.heap.set a (.inst i') } := by
        intro i' e1 e2
        refine hs.setHeap (fun hn => ?_)
        have := hs.heap a _ hn hi
        exact ⟨by rw [e1]; exact this.1, by rw [e2]; exact this.2⟩
      repeat' split
      all_goals first
        | exact hs
        | exact hg _ rfl rfl
    · exact hs
  · exact hs)

theorem swapOne {e : Addr × Slot × Addr} (he : FitSlot C N e.2.1 ∧ N ≤ e.2.2) : Flow C D N l0 (swapOne e) (fun _ => True) := quiet (fun s r s' h hs => by
  have hv := hs.proxyGet he.2
  unfold Unpickler.swapOne at h
  simp only [] at h
  split at h
  · next n xs h1 h2 =>
    cases h
    refine hs.setHeap (fun hn x hx => ?_)
    rcases List.mem_or_eq_of_mem_set hx with q | q
    · exact hs.heap _ _ hn h2 x q
    · subst q; exact hv
  · next k kvs h1 h2 =>
    cases h
    have hk : FitSlot C N (.key k) := h1 ▸ he.1
    exact hs.setHeap (fun hn => fit_vset hk hv (hs.heap _ _ hn h2))
  · exact (setattr _ _ hv s r s' h hs).1
  · cases h; exact hs
  · cases h; exact hs)

theorem swapProxies : Flow C D N l0 swapProxies (fun _ => True) := by
  unfold Unpickler.swapProxies
  refine bind get (fun s hs => bind (mapM (fun e he => swapOne (hs.proxies e he))) (fun _ _ => quiet (fun s r s' h hs => ?_)))
  cases h
  exact ⟨hs.len, hs.heap, hs.objs, fun e he => (by cases he), hs.log⟩

end Flow

section
variable {rs : Json → U Val} (R : NRules env C D N)

mutual
theorem fl_raw : ∀ j, Flow C D N l0 (raw j) (Fit C N)
  | .null | .bool _ | .int _ | .float _ | .str _ => by unfold raw; exact Flow.pure trivial
  | .arr xs => by
    unfold raw
    exact Flow.bind (fl_raws xs) (fun _ h => Flow.bind (Flow.alloc h) (fun _ ha => Flow.pure ha))
  | .obj kvs => by
    unfold raw
    exact Flow.bind (fl_rawKvs kvs) (fun _ h => Flow.bind (Flow.alloc h) (fun _ ha => Flow.pure ha))
theorem fl_raws : ∀ xs, Flow C D N l0 (raws xs) (fun vs => ∀ v ∈ vs, Fit C N v)
  | [] => by unfold raws; exact Flow.pure (fun v hv => by cases hv)
  | x :: xs => by
    unfold raws
    refine Flow.bind (fl_raw x) (fun v hv => Flow.bind (fl_raws xs) (fun vs hvs => Flow.pure (fun w hw => ?_)))
    rcases List.mem_cons.1 hw with rfl | hw
    · exact hv
    · exact hvs w hw
theorem fl_rawKvs : ∀ xs, Flow C D N l0 (rawKvs xs) (FitKvs C N)
  | [] => by unfold rawKvs; exact Flow.pure (fun v hv => by cases hv)
  | (k, x) :: xs => by
    unfold rawKvs
    refine Flow.bind (fl_raw x) (fun v hv => Flow.bind (fl_rawKvs xs) (fun vs hvs => Flow.pure (fun w hw => ?_)))
    rcases List.mem_cons.1 hw with rfl | hw
    · exact ⟨trivial, hv⟩
    · exact hvs w hw
end

theorem fl_noteList (a) : ∀ n {vs : List Val}, (∀ v ∈ vs, Fit C N v) → Flow C D N l0 (noteList a n vs) (fun _ => True)
  | _, [], _ => by unfold noteList; exact Flow.pure trivial
  | n, v :: vs, h => by
    unfold noteList
    exact Flow.bind (Flow.noteProxy _ trivial (h v List.mem_cons_self)) (fun _ _ => fl_noteList a _ (fun w hw => h w (List.mem_cons_of_mem _ hw)))

theorem fl_restoreList (h : ∀ j, DocOk env D j → Flow C D N l0 (rs j) (Fit C N)) {xs : Except Exc (List Json)}
    (hx : ∀ l, xs = .ok l → ∀ x ∈ l, DocOk env D x) : Flow C D N l0 (restoreList rs xs) (fun a => N ≤ a) := by
  unfold restoreList
  refine Flow.bind (Flow.alloc (fun x hx => by cases hx)) (fun a ha => Flow.bind (Flow.mkref (v := .ref a) ha) (fun _ _ => Flow.bind (Flow.ofExcept _) (fun l hl =>
    Flow.bind (Flow.mapM (fun x hm => h x (hx l hl x hm))) (fun vs hvs => Flow.bind (Flow.setCell _ hvs) (fun _ _ =>
      Flow.bind (fl_noteList _ _ hvs) (fun _ _ => Flow.pure ha))))))

theorem fl_restoreIterator (h : ∀ j, DocOk env D j → Flow C D N l0 (rs j) (Fit C N)) {kvs} (hd : DocOk env D (.obj kvs)) :
    Flow C D N l0 (restoreIterator rs kvs) (Fit C N) := by
  unfold restoreIterator
  refine Flow.bind (P := fun a => N ≤ a) (Flow.tryCatch (Flow.bind (Flow.ofExcept _) (fun j hj => fl_restoreList h (fun l hl => (hd.item hj).iter hl)))
    (fun _ => Flow.alloc (fun x hx => by cases hx))) (fun a ha => Flow.bind (Flow.alloc ⟨(fun x hx => by cases hx), (fun x hx => by cases hx)⟩) (fun _ hb => Flow.pure hb))

include R in
theorem fl_loadclassJ {j : Json} (hj : ∀ s, j = .str s → D s) : Flow C D N l0 (loadclassJ env j) (fun c => ∀ v, c = some v → Fit C N v) := by
  unfold loadclassJ
  split
  · next s =>
    have hd := hj s rfl
    exact Flow.bind (Flow.emit hd) (fun _ _ => Flow.pure (fun v hv => R.cls s v hd hv))
  · exact Flow.throw _

theorem fl_reduceFallback {p : Addr} : Flow C D N l0 (reduceFallback p) (Fit C N) := by
  unfold reduceFallback
  exact Flow.bind (Flow.alloc (fun x hx => by cases hx)) (fun a ha => Flow.bind (Flow.setCell p (o := .proxy (some (.ref a))) ha) (fun _ _ =>
    Flow.bind (Flow.swapref p (v := .ref a) ha) (fun _ _ => Flow.pure ha)))

theorem setattrs_setter {info : ClassInfo} : ∀ {kvs : List (Val × Val)} {f x r}, (setattrs info kvs).1 ≠ Op.setter f x :: r
  | [], _, _, _ => by simp [setattrs]
  | (k, v) :: kvs, f, x, r => by
    cases k with
    | str s =>
      rw [setattrs]
      split
      · intro h; cases h
      · intro h; cases h
    | _ => intro h; cases h

theorem pairState_setter {h : Heap} {info : ClassInfo} {st : Val} {ops : List Op} (hp : pairState h info st = .ok ops) {f x r} : ops ≠ Op.setter f x :: r := by
  unfold pairState at hp
  split at hp
  · cases hp
  · next d sl _ =>
    split at hp
    · cases hp
    · split at hp
      · split at hp
        · cases hp
        · next kvs _ =>
          have := setattrs_setter (info := info) (kvs := kvs) (f := f) (x := x) (r := r)
          split at hp
          · next e => cases hp; rw [e] at this; exact this
          · cases hp
      · cases hp; intro h; cases h
  · cases hp

theorem stateOps_setter {h : Heap} {info : ClassInfo} {st g : Val} {ops : List Op} (hp : stateOps h info st g = .ok ops) {f x r} (ho : ops = Op.setter f x :: r) : f = g := by
  unfold stateOps at hp
  split at hp
  · split at hp
    · split at hp
      · cases hp; cases ho
      · split at hp
        · split at hp
          · cases hp; cases ho
          · cases hp
        · split at hp
          · next kvs _ =>
            have hs := fun r => setattrs_setter (info := info) (kvs := kvs) (f := f) (x := x) (r := r)
            split at hp
            · next e => cases hp; rw [e] at hs; exact absurd ho (hs _)
            · next ops' ex e =>
              rw [e] at hs
              cases hq : pairState h info st with
              | error e => rw [hq] at hp; cases hp
              | ok ops2 =>
                rw [hq] at hp
                cases hp
                cases ops' with
                | nil => exact absurd ho (pairState_setter hq)
                | cons o ops' =>
                  change o :: (ops' ++ ops2) = _ at ho
                  injection ho with h1 h2
                  subst h1
                  exact absurd rfl (hs _)
          · exact absurd ho (pairState_setter hp)
    · cases hp; cases ho; rfl
    · cases hp; cases ho; rfl
    · cases hp
  · cases hp; cases ho

theorem fl_emitSetter {ops : List Op} (ho : ∀ f x r, ops = .setter f x :: r → Fit C N f) : Flow C D N l0 (emitSetter ops) (fun _ => True) := by
  unfold emitSetter
  split
  · exact Flow.emit (e := .call _) (ho _ _ _ rfl)
  · exact Flow.emit (e := .call _) (ho _ _ _ rfl)
  · exact Flow.pure trivial

theorem fl_reduceFinish {p : Addr} (cls vals c d e) {g : Val} (hg : Fit C N g) : Flow C D N l0 (reduceFinish env p cls vals c d e g) (Fit C N) := by
  unfold reduceFinish
  refine Flow.bind Flow.get (fun _ _ => Flow.bind (Flow.ofExcept _) (fun st hst => Flow.bind (fl_emitSetter (fun f x r h => by rw [stateOps_setter hst h]; exact hg)) (fun _ _ =>
    Flow.bind (Flow.ofExcept _) (fun _ _ => Flow.bind (Flow.ofExcept _) (fun _ _ => ?_)))))
  exact Flow.bind (Flow.alloc ⟨(fun x hx => by cases hx), (fun x hx => by cases hx)⟩) (fun a ha => Flow.bind (Flow.setCell p (o := .proxy (some (.ref a))) ha) (fun _ _ =>
    Flow.bind (Flow.swapref p (v := .ref a) ha) (fun _ _ => Flow.pure ha)))

theorem newobj_fit {s : UState} (hs : NInv C D N l0 s) {args : Val} (ha : Fit C N args) {c : Val × List Val} (hc : newobjArgs s.heap args = .ok c) : Fit C N c.1 := by
  have key : ∀ {c}, headArgs (starArgs s.heap args) = .ok c → Fit C N c.1 := by
    intro c h
    cases hq : starArgs s.heap args with
    | none => rw [hq] at h; cases h
    | some xs =>
      rw [hq] at h
      cases xs with
      | nil => cases h
      | cons x xs => cases h; exact hs.starArgs ha hq x List.mem_cons_self
  unfold newobjArgs at hc
  split at hc
  · cases hc
  · split at hc
    · cases hc
    · split at hc
      · cases hc
      · cases hc
      · exact key hc
    · exact key hc
  · exact key hc

theorem fl_reduceBuild {p : Addr} {vals : List Val} (hv : ∀ v ∈ vals, Fit C N v) : Flow C D N l0 (reduceBuild env p vals) (Fit C N) := by
  unfold reduceBuild
  split
  · next f args c d e g =>
    have hf : Fit C N f := hv f (by simp)
    have ha : Fit C N args := hv args (by simp)
    have hg : Fit C N g := hv g (by simp)
    refine Flow.bind Flow.get (fun s0 hs0 => ?_)
    have fin : ∀ (n vals), C n → Flow C D N l0 (emit (.call n) >>= fun _ => reduceFinish env p n vals c d e g) (Fit C N) := fun n vals hn =>
      Flow.bind (Flow.emit (e := .call n) hn) (fun _ _ => fl_reduceFinish _ _ _ _ _ hg)
    split
    · refine Flow.bind (Flow.ofExcept _) (fun a hq => ?_)
      have h1 := newobj_fit hs0 ha hq
      obtain ⟨a1, a2⟩ := a
      cases a1 with
      | type n =>
        dsimp only
        split
        · exact fin _ _ h1
        · exact Flow.throw _
      | _ => exact Flow.throw _
    · split
      · generalize starArgs _ _ = q
        cases q with
        | none => exact Flow.throw _
        | some l =>
          dsimp only
          split
          · exact fin _ _ hf
          · exact Flow.throw _
      · generalize starArgs _ _ = q
        cases q with
        | none => exact Flow.throw _
        | some l =>
          dsimp only
          split
          · exact fin _ _ hf
          · exact Flow.throw _
      · exact fl_reduceFallback
  · exact Flow.throw _

theorem fl_restoreReduce (h : ∀ j, DocOk env D j → Flow C D N l0 (rs j) (Fit C N)) {kvs} (hd : DocOk env D (.obj kvs)) :
    Flow C D N l0 (restoreReduce env rs kvs) (Fit C N) := by
  unfold restoreReduce
  refine Flow.bind (Flow.alloc (o := .proxy none) trivial) (fun p hp => Flow.bind (Flow.mkref (v := .ref p) hp) (fun _ _ =>
    Flow.bind (P := fun r => ∀ vs, r = some vs → ∀ v ∈ vs, Fit C N v) (Flow.tryCatch (Flow.bind (Flow.ofExcept _) (fun j hj => Flow.bind (Flow.ofExcept _) (fun xs hxs =>
      Flow.bind (Flow.mapM (fun x hx => h x ((hd.item hj).iter hxs x hx))) (fun vs hvs => Flow.pure (fun ws hw => by cases hw; exact hvs)))))
      (fun _ => Flow.pure (fun ws hw => by cases hw))) (fun r hr => ?_)))
  split
  · exact fl_reduceFallback
  · next vs =>
    refine fl_reduceBuild (fun v hv => ?_)
    unfold padVals at hv
    rcases List.mem_append.1 hv with q | q
    · exact hr vs rfl v q
    · rw [(List.mem_replicate.1 q).2]; exact trivial

theorem fl_idLookup (n) : Flow C D N l0 (idLookup n) (Fit C N) := by
  unfold idLookup
  refine Flow.bind Flow.get (fun s hs => ?_)
  cases hq : pyIndex s.objs n with
  | some v => exact Flow.pure (fit_pyIndex hs.objs hq)
  | none => exact Flow.bind (Flow.alloc (o := .idproxy n) trivial) (fun a ha => Flow.pure ha)

theorem fl_restoreId (kvs) : Flow C D N l0 (restoreId kvs) (Fit C N) := by
  unfold restoreId
  refine Flow.bind (Flow.ofExcept _) (fun j _ => ?_)
  split
  · exact fl_idLookup _
  · exact fl_idLookup _
  · exact Flow.pure trivial

include R in
theorem fl_restoreType {kvs} (hd : DocOk env D (.obj kvs)) : Flow C D N l0 (restoreType env kvs) (Fit C N) := by
  unfold restoreType
  refine Flow.bind (Flow.ofExcept _) (fun j hj => Flow.bind (fl_loadclassJ R (fun s hs => hd.name (hs ▸ hj) (by simp))) (fun c hc => ?_))
  split
  · exact Flow.pure (hc _ rfl)
  · exact fl_raw _

include R in
theorem fl_restoreModule {j : Json} (hj : ∀ s, j = .str s → D s) : Flow C D N l0 (restoreModule env j) (Fit C N) := by
  unfold restoreModule
  split
  · next s =>
    have hd := hj s rfl
    refine Flow.bind (Flow.emit hd) (fun _ _ => Flow.bind (Flow.ofExcept _) (fun r hr => Flow.mkref ?_))
    cases r with
    | none => exact trivial
    | some v => exact R.mod s v hd hr
  · exact Flow.throw _

theorem fl_processMissing {n : Str} (hn : D n) : Flow C D N l0 (processMissing env n) (fun _ => True) := by
  unfold processMissing
  split
  · exact Flow.pure trivial
  · exact Flow.emit hn
  · exact Flow.emit hn
  · exact Flow.bind (Flow.emit hn) (fun _ _ => Flow.throw _)

theorem fl_loadFactory (h : ∀ j, DocOk env D j → Flow C D N l0 (rs j) (Fit C N)) {kvs} (hd : DocOk env D (.obj kvs)) :
    Flow C D N l0 (loadFactory rs kvs) (fun p => Fit C N p.1 ∧ DocOk env D (.obj p.2)) := by
  unfold loadFactory
  split
  · exact Flow.pure ⟨trivial, hd⟩
  · next k _ =>
    split
    · exact Flow.pure ⟨trivial, hd.ddel k⟩
    · exact Flow.pure ⟨trivial, hd.ddel k⟩
    · next j _ hj => exact Flow.bind (h j (hd.get hj)) (fun v hv => Flow.pure ⟨hv, hd.ddel k⟩)

theorem fl_restorePickledKey (h : ∀ j, DocOk env D j → Flow C D N l0 (rs j) (Fit C N)) {kvs} (hd : DocOk env D (.obj kvs)) (hk : env.keys = true) {k : Str} {x : Json}
    (hm : (k, x) ∈ kvs) : Flow C D N l0 (restorePickledKey env rs k) (Fit C N) := by
  unfold restorePickledKey
  split
  · next hj =>
    split
    · exact Flow.throw _
    · next j hl => exact h j (fun s hs => hd s (.key hk hm hj hl hs))
  · exact Flow.pure trivial

theorem fl_restoreKey (h : ∀ j, DocOk env D j → Flow C D N l0 (rs j) (Fit C N)) {kvs} (hd : DocOk env D (.obj kvs)) {k : Str} {x : Json}
    (hm : (k, x) ∈ kvs) : Flow C D N l0 (restoreKey env rs k) (Fit C N) := by
  unfold restoreKey
  split
  · next hk => exact fl_restorePickledKey h hd hk hm
  · exact Flow.pure trivial

theorem fl_storeEntry (a : Addr) {k v : Val} (hk : Fit C N k) (hv : Fit C N v) : Flow C D N l0 (storeEntry a k v) (fun _ => True) := by
  unfold storeEntry
  exact Flow.bind (Flow.storeRaw a hk hv) (fun _ _ => Flow.noteEntry a k hv)

theorem fl_restoreFromJson (h : ∀ j, DocOk env D j → Flow C D N l0 (rs j) (Fit C N)) (a : Addr) {kvs} (hd : DocOk env D (.obj kvs)) :
    Flow C D N l0 (restoreFromJson env rs a kvs) (fun _ => True) := by
  unfold restoreFromJson
  refine Flow.bind (P := fun _ => True) (Flow.weaken (Flow.mapM (P := fun _ => True) (fun kv hm => ?_)) (fun _ _ => trivial)) (fun _ _ => Flow.pure trivial)
  split
  · exact Flow.pure trivial
  · exact Flow.bind (fl_restoreKey h hd (k := kv.1) (x := kv.2) hm) (fun _ hk => Flow.bind (h _ (hd.value (k := kv.1) hm)) (fun _ hv => fl_storeEntry a hk hv))

theorem fl_restoreFromVals (a : Addr) {kvs} (hk : FitKvs C N kvs) : Flow C D N l0 (restoreFromVals a kvs) (fun _ => True) := by
  unfold restoreFromVals
  exact Flow.bind (Flow.mapM (P := fun _ => True) (fun kv hm => fl_storeEntry a (hk kv hm).1 (hk kv hm).2)) (fun _ _ => Flow.pure trivial)

theorem fl_applyOtherState {a : Addr} (ha : N ≤ a) {st : Val} (hst : Fit C N st) : Flow C D N l0 (applyOtherState a st) (Fit C N) := by
  have fin : ∀ (b : Bool), Flow C D N l0 (if b then Pure.pure (.ref a) else Pure.pure st : U Val) (Fit C N) := fun b => by
    cases b
    · exact Flow.pure hst
    · exact Flow.pure (P := Fit C N) (a := .ref a) ha
  unfold applyOtherState
  refine Flow.bind Flow.get (fun s hs => ?_)
  split
  · next x y =>
    have hxy := fitL_iff.1 hst
    split
    · next kvs hk =>
      refine Flow.bind (fl_restoreFromVals a (hs.dictEntries (hxy y (by simp)) hk)) (fun _ _ => ?_)
      split
      · next kvs0 hk0 => exact Flow.bind (fl_restoreFromVals a (hs.dictEntries (hxy x (by simp)) hk0)) (fun _ _ => Flow.pure ha)
      · exact Flow.pure ha
    · exact fin _
  · exact fin _

theorem fl_restoreState (h : ∀ j, DocOk env D j → Flow C D N l0 (rs j) (Fit C N)) {a : Addr} (ha : N ≤ a) {j} (hd : DocOk env D j) :
    Flow C D N l0 (restoreState rs a j) (Fit C N) := by
  unfold restoreState
  refine Flow.bind (h j hd) (fun st hst => Flow.bind Flow.get (fun s hs => ?_))
  split
  · exact Flow.bind (Flow.modInst a (fun i hi => hi)) (fun _ _ => Flow.pure ha)
  · split
    · next kvs hk => exact Flow.bind (fl_restoreFromVals a (hs.dictEntries hst hk)) (fun _ _ => Flow.pure ha)
    · exact fl_applyOtherState ha hst

theorem fl_restoreSeq (h : ∀ j, DocOk env D j → Flow C D N l0 (rs j) (Fit C N)) (a : Addr) {j} (hd : DocOk env D j) :
    Flow C D N l0 (restoreSeq rs a j) (fun _ => True) := by
  unfold restoreSeq
  refine Flow.bind Flow.get (fun s0 hs0 => ?_)
  split
  · refine Flow.bind (Flow.ofExcept _) (fun xs hxs => Flow.bind (Flow.mapM (P := fun _ => True) (fun x hx =>
      Flow.bind (h x (hd.iter hxs x hx)) (fun v hv => Flow.modInst a (fun i hi => ⟨hi.1, fun w hw => ?_⟩)))) (fun _ _ => Flow.pure trivial))
    rcases List.mem_append.1 hw with q | q
    · exact hi.2 w q
    · rw [List.mem_singleton] at q; subst q; exact hv
  · refine Flow.bind (Flow.ofExcept _) (fun xs hxs => Flow.bind (Flow.mapM (P := fun _ => True) (fun x hx =>
      Flow.bind (h x (hd.iter hxs x hx)) (fun v hv => Flow.bind Flow.get (fun s hs => ?_)))) (fun _ _ => Flow.pure trivial))
    split
    · exact Flow.modInst a (fun i hi => ⟨hi.1, fit_sadd hv hi.2⟩)
    · exact Flow.throw _
  · exact Flow.pure trivial

theorem fl_restoreSeqTag (h : ∀ j, DocOk env D j → Flow C D N l0 (rs j) (Fit C N)) (a : Addr) {kvs} (hd : DocOk env D (.obj kvs)) :
    Flow C D N l0 (restoreSeqTag rs a kvs) (fun _ => True) := by
  unfold restoreSeqTag
  split
  · exact Flow.pure trivial
  · next j hj => exact fl_restoreSeq h a (hd.get hj)

theorem fl_restoreVariables (h : ∀ j, DocOk env D j → Flow C D N l0 (rs j) (Fit C N)) {a : Addr} (ha : N ≤ a) {kvs} (hd : DocOk env D (.obj kvs)) :
    Flow C D N l0 (restoreVariables env rs a kvs) (Fit C N) := by
  unfold restoreVariables
  refine Flow.bind (fl_restoreFromJson h a hd) (fun _ _ => Flow.bind (fl_restoreSeqTag h a hd) (fun _ _ => ?_))
  split
  · exact Flow.pure ha
  · next j hj => exact fl_restoreState h ha (hd.get hj)

include R in
theorem fl_getargs {kvs} (hd : DocOk env D (.obj kvs)) : Flow C D N l0 (getargs env kvs) (DocOk env D) := by
  unfold getargs
  split
  · next j hj => exact Flow.pure (hd.get hj)
  · split
    · next j hj => exact Flow.pure (hd.get hj)
    · split
      · next sq o hsq ho =>
        refine Flow.bind (fl_loadclassJ R (fun s hs => hd s (.here (t := Tags.OBJECT) (hs ▸ dget_mem' ho) (by simp)))) (fun c hc => ?_)
        split
        · split
          · exact Flow.pure docOk_nil
          · split
            · exact Flow.throw _
            · refine Flow.pure ?_
              split
              · exact hd.get hsq
              · exact docOk_nil
        · exact Flow.pure docOk_nil
      · exact Flow.pure docOk_nil

include R in
theorem fl_ctorArgs {kvs} (hd : DocOk env D (.obj kvs)) : Flow C D N l0 (ctorArgs env kvs) (fun p => DocOk env D p.1 ∧ DocOk env D p.2) := by
  unfold ctorArgs
  split
  · next j hj =>
    refine Flow.bind (Flow.ofExcept _) (fun xs hxs => ?_)
    have hi := (hd.get hj).iter hxs
    split
    · next a k =>
      refine Flow.pure ⟨hi a (by simp), ?_⟩
      show DocOk env D (kwArg k)
      have := hi k (by simp)
      unfold kwArg
      split
      · exact docOk_null
      · exact this
    · exact Flow.throw _
  · exact Flow.bind (fl_getargs R hd) (fun a ha => Flow.pure ⟨ha, docOk_empty⟩)

theorem fl_restoreArg (h : ∀ j, DocOk env D j → Flow C D N l0 (rs j) (Fit C N)) {j} (hd : DocOk env D j) : Flow C D N l0 (restoreArg rs j) (Fit C N) := by
  unfold restoreArg
  split
  · exact h j hd
  · split <;> exact Flow.pure trivial

theorem fl_missingRaw {n : Str} (hn : D n) (kvs) : Flow C D N l0 (do processMissing env n; let r ← raw (.obj kvs); mkref r) (Fit C N) :=
  Flow.bind (fl_processMissing hn) (fun _ _ => Flow.bind (fl_raw _) (fun _ hr => Flow.mkref hr))

theorem fit_construct {s : UState} (hs : NInv C D N l0 s) {n : Str} {info : ClassInfo} {fac args kw : Val} (ha : Fit C N args) {i : Inst}
    (hc : construct s.heap n info fac args kw = some i) : FitObj C N (.inst i) := by
  have nil : ∀ x ∈ ([] : List Val), Fit C N x := fun x hx => by cases hx
  have nilk : FitKvs C N [] := fun x hx => by cases hx
  unfold construct at hc
  dsimp only at hc
  cases hq : starArgs s.heap args with
  | none =>
    rw [hq] at hc
    simp only [] at hc
    split at hc
    · cases hc; exact ⟨nilk, nil⟩
    · cases hc
  | some xs =>
    rw [hq] at hc
    simp only [] at hc
    have hx := hs.starArgs ha hq
    have he : ∀ x ∈ (if info.base == Base.tuple then tupleElems s.heap info xs else []), Fit C N x := by
      split
      · unfold tupleElems
        split
        · exact hx
        · split
          · next x _ =>
            cases hw : starArgs s.heap x with
            | none => exact nil
            | some ys => exact hs.starArgs (hx x List.mem_cons_self) hw
          · exact nil
      · exact nil
    generalize (if truthy s.heap fac = true then xs.length + 1 else xs.length) = na at hc
    split at hc
    · split at hc
      · split at hc
        · cases hc; exact ⟨nilk, he⟩
        · cases hc; exact ⟨nilk, he⟩
      · cases hc; exact ⟨nilk, he⟩
    · split at hc
      · cases hc; exact ⟨nilk, nil⟩
      · split at hc
        · cases hc; exact ⟨nilk, nil⟩
        · cases hc

include R in
theorem fl_restoreInstance (h : ∀ j, DocOk env D j → Flow C D N l0 (rs j) (Fit C N)) {n : Str} (hn : D n) {kvs} (hd : DocOk env D (.obj kvs)) :
    Flow C D N l0 (restoreInstance env rs n kvs) (Fit C N) := by
  unfold restoreInstance
  refine Flow.bind (Flow.alloc (o := .proxy none) trivial) (fun p hp => Flow.bind (Flow.mkref (v := .ref p) hp) (fun _ _ => Flow.bind (fl_loadFactory h hd) (fun fk hfk => ?_)))
  obtain ⟨fac, kvs⟩ := fk
  obtain ⟨hfac, hd⟩ := hfk
  refine Flow.bind (fl_ctorArgs R hd) (fun aj haj => ?_)
  obtain ⟨ja, jk⟩ := aj
  refine Flow.bind (fl_restoreArg h haj.1) (fun args hargs => Flow.bind (fl_restoreArg h haj.2) (fun _ _ => Flow.bind Flow.get (fun s hs =>
    Flow.bind (Flow.emit (e := .call n) (R.named n hn)) (fun _ _ => ?_))))
  split
  · exact fl_missingRaw hn _
  · next inst hi =>
    refine Flow.bind (Flow.alloc (fit_construct hs hargs hi)) (fun a ha => Flow.bind (Flow.setCell p (o := .proxy (some (.ref a))) ha) (fun _ _ =>
      Flow.bind (Flow.swapref p (v := .ref a) ha) (fun _ _ => ?_)))
    split
    · exact Flow.pure ha
    · exact Flow.bind (fl_restoreVariables h ha hd) (fun v hv => Flow.bind (Flow.fixFactory v) (fun _ _ => Flow.pure hv))

theorem docOk_dateArgs {a : Json} (ha : DocOk env D a) {q : Json × List Json} (hq : dateArgs a = .ok q) : ∀ x ∈ q.2, DocOk env D x := by
  unfold dateArgs at hq
  split at hq
  · cases hq; exact fun x hx => ha.arr (List.mem_cons_of_mem _ hx)
  · cases hq
  · cases hq
    intro x hx
    obtain ⟨c, _, rfl⟩ := List.mem_map.1 hx
    exact docOk_str _
  · cases hq
  · cases hq
  · cases hq

theorem fl_restoreDate (h : ∀ j, DocOk env D j → Flow C D N l0 (rs j) (Fit C N)) {kvs} (hd : DocOk env D (.obj kvs)) :
    Flow C D N l0 (restoreDate env rs kvs) (Fit C N) := by
  unfold restoreDate
  refine Flow.bind (Flow.ofExcept _) (fun r hr => Flow.bind (Flow.ofExcept _) (fun ps hps => ?_))
  have hi := (hd.item hr).iter hps
  split
  · next c a =>
    refine Flow.bind (h c (hi c (by simp))) (fun cls hcls => Flow.bind (Flow.ofExcept _) (fun pa hpa => Flow.bind (Flow.ofExcept _) (fun b _ =>
      Flow.bind (Flow.mapM (fun x hx => h x (docOk_dateArgs (hi a (by simp)) hpa x hx))) (fun params hparams => ?_))))
    split
    · next m => exact Flow.bind (Flow.emit (e := .call m) hcls) (fun _ _ => Flow.bind (Flow.alloc ⟨(fun x hx => by cases hx), (fun x hx => by cases hx)⟩) (fun _ ha => Flow.pure ha))
    · exact Flow.throw _
  · exact Flow.throw _

theorem fl_handlerRestore (h : ∀ j, DocOk env D j → Flow C D N l0 (rs j) (Fit C N)) (k n) {kvs} (hd : DocOk env D (.obj kvs)) :
    Flow C D N l0 (handlerRestore env rs k n kvs) (Fit C N) := by
  unfold handlerRestore
  split
  · refine Flow.bind (Flow.mapM (P := fun _ => True) (fun kv hm => Flow.bind (h kv.2 ((hd.ddel Tags.OBJECT).value (k := kv.1) hm)) (fun _ _ => Flow.pure trivial))) (fun fs _ =>
      Flow.bind (Flow.alloc ⟨(fun x hx => by cases hx), (fun x hx => by cases hx)⟩) (fun _ ha => Flow.pure ha))
  · exact fl_restoreDate h hd
  · exact Flow.bind (Flow.alloc ⟨(fun x hx => by cases hx), (fun x hx => by cases hx)⟩) (fun _ ha => Flow.pure ha)
  · exact Flow.throw _

theorem fl_restoreHandled (h : ∀ j, DocOk env D j → Flow C D N l0 (rs j) (Fit C N)) (k n) {kvs} (hd : DocOk env D (.obj kvs)) :
    Flow C D N l0 (restoreHandled env rs k n kvs) (Fit C N) := by
  unfold restoreHandled
  exact Flow.bind (Flow.alloc (o := .proxy none) trivial) (fun p hp => Flow.bind (Flow.mkref (v := .ref p) hp) (fun _ _ => Flow.bind (fl_handlerRestore h k n hd) (fun v hv =>
    Flow.bind (Flow.setCell p (o := .proxy (some v)) hv) (fun _ _ => Flow.bind (Flow.swapref p hv) (fun _ _ => Flow.pure hv)))))

include R in
theorem fl_restoreObject (h : ∀ j, DocOk env D j → Flow C D N l0 (rs j) (Fit C N)) {kvs} (hd : DocOk env D (.obj kvs)) :
    Flow C D N l0 (restoreObject env rs kvs) (Fit C N) := by
  unfold restoreObject
  refine Flow.bind (Flow.ofExcept _) (fun j hj => ?_)
  have hn : ∀ s, j = .str s → D s := fun s hs => hd.name (t := Tags.OBJECT) (hs ▸ hj) (by simp)
  refine Flow.bind (fl_loadclassJ R hn) (fun c _ => ?_)
  cases j with
  | str n =>
    have hn := hn n rfl
    refine Flow.bind (Flow.emit (e := .obj n) hn) (fun _ _ => ?_)
    split
    · exact fl_restoreHandled h _ _ hd
    · split
      · exact fl_missingRaw hn _
      · exact fl_restoreInstance R h hn hd
  | _ => exact Flow.throw _

include R in
theorem fl_restoreFunction {kvs} (hd : DocOk env D (.obj kvs)) : Flow C D N l0 (restoreFunction env kvs) (Fit C N) := by
  unfold restoreFunction
  refine Flow.bind (Flow.ofExcept _) (fun j hj => Flow.bind (fl_loadclassJ R (fun s hs => hd.name (hs ▸ hj) (by simp))) (fun c hc => Flow.pure ?_))
  cases c with
  | none => exact trivial
  | some v => exact hc v rfl

theorem fl_restoreTuple (h : ∀ j, DocOk env D j → Flow C D N l0 (rs j) (Fit C N)) {kvs} (hd : DocOk env D (.obj kvs)) :
    Flow C D N l0 (restoreTuple rs kvs) (Fit C N) := by
  unfold restoreTuple
  exact Flow.bind (P := fun vs => ∀ v ∈ vs, Fit C N v) (Flow.tryCatch (Flow.bind (Flow.ofExcept _) (fun j hj => Flow.bind (Flow.ofExcept _) (fun xs hxs =>
    Flow.mapM (fun x hx => h x ((hd.item hj).iter hxs x hx))))) (fun _ => Flow.pure (fun v hv => by cases hv))) (fun vs hvs => Flow.bind Flow.fresh (fun _ _ => Flow.pure (fitL_iff.2 hvs)))

theorem fl_restoreSet (h : ∀ j, DocOk env D j → Flow C D N l0 (rs j) (Fit C N)) {kvs} (hd : DocOk env D (.obj kvs)) :
    Flow C D N l0 (restoreSet rs kvs) (Fit C N) := by
  unfold restoreSet
  refine Flow.bind (P := fun vs => ∀ v ∈ vs, Fit C N v) (Flow.tryCatch (Flow.bind (Flow.ofExcept _) (fun j hj => Flow.bind (Flow.ofExcept _) (fun xs hxs =>
    Flow.foldM (fun x hx acc hacc => Flow.bind (h x ((hd.item hj).iter hxs x hx)) (fun v hv => Flow.bind Flow.get (fun s _ => ?_))) (fun v hv => by cases hv))))
    (fun _ => Flow.pure (fun v hv => by cases hv))) (fun vs hvs => Flow.bind Flow.fresh (fun _ _ => Flow.pure (fitL_iff.2 hvs)))
  split
  · exact Flow.pure (fit_sadd hv hacc)
  · exact Flow.throw _

theorem fl_restoreDict (h : ∀ j, DocOk env D j → Flow C D N l0 (rs j) (Fit C N)) {kvs} (hd : DocOk env D (.obj kvs)) :
    Flow C D N l0 (restoreDict env rs kvs) (Fit C N) := by
  unfold restoreDict
  refine Flow.bind (Flow.alloc (fun x hx => by cases hx)) (fun a ha => Flow.bind (P := fun _ => True) ?_ (fun _ _ => ?_))
  · unfold mkrefUnlessV1
    exact Flow.ite (Flow.pure trivial) (Flow.bind (Flow.mkref (v := .ref a) ha) (fun _ _ => Flow.pure trivial))
  split
  · next hk =>
    refine Flow.bind (Flow.mapM (P := fun _ => True) (fun kv hm => ?_)) (fun _ _ => Flow.bind (Flow.mapM (P := fun _ => True) (fun kv hm => ?_)) (fun _ _ => Flow.pure ha))
    · unfold dictEntry1
      exact Flow.ite (Flow.pure trivial) (Flow.bind (h _ (hd.value (k := kv.1) hm)) (fun v hv => Flow.dictSet a (fit_str _) hv))
    · unfold dictEntry2
      exact Flow.ite (Flow.bind (fl_restorePickledKey h hd hk (k := kv.1) (x := kv.2) hm) (fun k hkk => Flow.bind (h _ (hd.value (k := kv.1) hm)) (fun v hv =>
        Flow.bind (Flow.dictSet a hkk hv) (fun _ _ => Flow.noteProxy a (sl := .key k) hkk hv)))) (Flow.pure trivial)
  · refine Flow.bind (Flow.mapM (P := fun _ => True) (fun kv hm => ?_)) (fun _ _ => Flow.pure ha)
    unfold dictEntry
    exact Flow.bind (h _ (hd.value (k := kv.1) hm)) (fun v hv => Flow.bind (Flow.dictSet a (fit_str _) hv) (fun _ _ => Flow.noteProxy a (sl := .key (.str kv.1)) trivial hv))

theorem fl_bytes (r : Except Exc Bytes) {f : Nat → Bytes → Val} (hf : ∀ n b, Fit C N (f n b)) :
    Flow C D N l0 (do let b ← PyM.ofExcept r; let n ← fresh; Pure.pure (f n b) : U Val) (Fit C N) :=
  Flow.bind (Flow.ofExcept _) (fun _ _ => Flow.bind (Flow.fresh) (fun _ _ => Flow.pure (hf _ _)))

include R in
theorem fl_restoreTags (h : ∀ j, DocOk env D j → Flow C D N l0 (rs j) (Fit C N)) {kvs} (hd : DocOk env D (.obj kvs)) :
    Flow C D N l0 (restoreTags env rs kvs) (Fit C N) := by
  unfold restoreTags
  refine Flow.ite (fl_restoreTuple h hd) ?_
  refine Flow.ite (fl_restoreSet h hd) ?_
  refine Flow.ite (fl_bytes _ (fun _ _ => trivial)) ?_
  refine Flow.ite (fl_bytes _ (fun _ _ => trivial)) ?_
  refine Flow.ite (fl_bytes _ (fun _ _ => trivial)) ?_
  refine Flow.ite (fl_restoreId _) ?_
  refine Flow.ite (fl_restoreIterator h hd) ?_
  refine Flow.ite (fl_restoreObject R h hd) ?_
  refine Flow.ite (fl_restoreType R hd) ?_
  refine Flow.ite (fl_restoreReduce h hd) ?_
  refine Flow.ite (fl_restoreFunction R hd) ?_
  refine Flow.ite (Flow.bind (Flow.ofExcept _) (fun j hj => fl_restoreModule R (fun s hs => hd.name (hs ▸ hj) (by simp)))) ?_
  refine Flow.ite (Flow.bind (Flow.ofExcept _) (fun j hj => ?_)) (fl_restoreDict h hd)
  rw [if_pos R.safe]
  exact fl_restoreModule R (fun s hs => hd.name (hs ▸ hj) (by simp))

include R in
theorem fl_restoreStep (h : ∀ j, DocOk env D j → Flow C D N l0 (rs j) (Fit C N)) {j} (hd : DocOk env D j) :
    Flow C D N l0 (restoreStep env rs j) (Fit C N) := by
  unfold restoreStep
  split
  · exact Flow.pure trivial
  · exact Flow.pure trivial
  · exact Flow.pure trivial
  · exact Flow.pure trivial
  · exact Flow.pure trivial
  · exact Flow.bind (fl_restoreList h (fun l hl x hx => by cases hl; exact hd.arr hx)) (fun _ ha => Flow.pure ha)
  · exact fl_restoreTags R h hd

include R in
theorem fl_restore : ∀ (n : Nat) (j), DocOk env D j → Flow C D N l0 (restore env n j) (Fit C N)
  | 0, _, _ => fun s r s' h => by cases h
  | n + 1, _, hd => fl_restoreStep R (fl_restore n) hd

end
end JP.Unpickler
