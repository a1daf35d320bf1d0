import Verif.RefDoc
import Verif.GraphSpec
import Verif.TreeSpec
import Verif.Proofs.UDispatch
import Verif.Proofs.UTolerant
import Verif.Proofs.SimDict
/-!
# Decoding a document with references

First the state after `_restore`, in which references to objects not yet seen are placeholders (`PDen`), then
the replacement of the placeholders.
-/
namespace JP.Unpickler
open JP PyM

mutual
/-- `v` is the data denoted by the document in cells from `b` on, except that references may be placeholders;
those are noted under `sl` -/
def PDen (b : Nat) (T : List Val) (h : Heap) (P : List (Addr × Slot × Addr)) (sl : Option (Addr × Slot)) (v : Val) : Json → Prop
  | .null => v = .none
  | .bool b => v = .bool b
  | .int i => v = .int i
  | .float f => v = .float f
  | .str s => v = .str s
  | .arr xs => ∃ (a : Addr) (vs : List Val), v = .ref a ∧ b ≤ a ∧ h[a]? = some (.list vs) ∧ PAll b T h P a 0 vs xs
  | .obj kvs => match tagOf kvs with
    | none => ∃ (a : Addr) (es : List (Str × Val)), v = .ref a ∧ b ≤ a ∧ h[a]? = some (.dict (Pickler.asItems es)) ∧ PEnts b T h P a es kvs
    | some (_, j) => match refNum j with
      | none => v = .none
      | some n => T[n]? = some v ∨ ∃ (p : Addr), v = .ref p ∧ b ≤ p ∧ h[p]? = some (.idproxy n) ∧ ∀ x, sl = some x → (x.1, x.2, p) ∈ P
def PAll (b : Nat) (T : List Val) (h : Heap) (P : List (Addr × Slot × Addr)) (a : Addr) (i : Nat) (vs : List Val) : List Json → Prop
  | [] => vs = []
  | x :: xs => ∃ v vs', vs = v :: vs' ∧ PDen b T h P (some (a, .idx i)) v x ∧ PAll b T h P a (i + 1) vs' xs
def PEnts (b : Nat) (T : List Val) (h : Heap) (P : List (Addr × Slot × Addr)) (a : Addr) (es : List (Str × Val)) : List (Str × Json) → Prop
  | [] => es = []
  | (k, x) :: xs => ∃ v es', es = (k, v) :: es' ∧ PDen b T h P (some (a, .key (.str k))) v x ∧ PEnts b T h P a es' xs
end

/-- how the interpreter may go on -/
structure Grows (b : Nat) (T T' : List Val) (h h' : Heap) (P P' : List (Addr × Slot × Addr)) : Prop where
  table : ∀ (n : Nat) v, T[n]? = some v → T'[n]? = some v
  heap : ∀ (a : Addr) o, b ≤ a → h[a]? = some o → h'[a]? = some o
  noted : ∀ e ∈ P, e ∈ P'

mutual
theorem PDen.mono {b b' : Nat} {T T' : List Val} {h h' : Heap} {P P' : List (Addr × Slot × Addr)} (hb : b' ≤ b) (g : Grows b T T' h h' P P')
    {sl : Option (Addr × Slot)} {v : Val} : ∀ {j : Json}, PDen b T h P sl v j → PDen b' T' h' P' sl v j
  | .null, hd => hd
  | .bool _, hd => hd
  | .int _, hd => hd
  | .float _, hd => hd
  | .str _, hd => hd
  | .arr xs, hd => by
    obtain ⟨a, vs, h1, h2, h3, h4⟩ := hd
    exact ⟨a, vs, h1, Nat.le_trans hb h2, g.heap a _ h2 h3, PAll.mono hb g h4⟩
  | .obj kvs, hd => by
    simp only [PDen] at hd ⊢
    cases ht : tagOf kvs with
    | none =>
      simp only [ht] at hd ⊢
      obtain ⟨a, vs, h1, h2, h3, h4⟩ := hd
      exact ⟨a, vs, h1, Nat.le_trans hb h2, g.heap a _ h2 h3, PEnts.mono hb g h4⟩
    | some tj =>
      simp only [ht] at hd ⊢
      cases hn : refNum tj.2 with
      | none => simpa only [hn] using hd
      | some n =>
        simp only [hn] at hd ⊢
        rcases hd with hd | ⟨p, h1, h2, h3, h4⟩
        · exact .inl (g.table n v hd)
        · exact .inr ⟨p, h1, Nat.le_trans hb h2, g.heap p _ h2 h3, fun x hx => g.noted _ (h4 x hx)⟩
theorem PAll.mono {b b' : Nat} {T T' : List Val} {h h' : Heap} {P P' : List (Addr × Slot × Addr)} (hb : b' ≤ b) (g : Grows b T T' h h' P P')
    {a : Addr} {i : Nat} {vs : List Val} : ∀ {xs : List Json}, PAll b T h P a i vs xs → PAll b' T' h' P' a i vs xs
  | [], hd => hd
  | x :: xs, hd => by
    obtain ⟨v, vs', h1, h2, h3⟩ := hd
    exact ⟨v, vs', h1, PDen.mono hb g h2, PAll.mono hb g h3⟩
theorem PEnts.mono {b b' : Nat} {T T' : List Val} {h h' : Heap} {P P' : List (Addr × Slot × Addr)} (hb : b' ≤ b) (g : Grows b T T' h h' P P')
    {a : Addr} {vs : List (Str × Val)} : ∀ {xs : List (Str × Json)}, PEnts b T h P a vs xs → PEnts b' T' h' P' a vs xs
  | [], hd => hd
  | (k, x) :: xs, hd => by
    obtain ⟨v, vs', h1, h2, h3⟩ := hd
    exact ⟨v, vs', h1, PDen.mono hb g h2, PEnts.mono hb g h3⟩
end

/-- a value that is not a pending placeholder, or is noted -/
theorem PDen.note {b : Nat} {T : List Val} {h : Heap} {P : List (Addr × Slot × Addr)} {v : Val} {x : Addr × Slot} {j : Json}
    (hd : PDen b T h P none v j) (hn : ∀ p, proxyAddr h v = some p → (x.1, x.2, p) ∈ P) : PDen b T h P (some x) v j := by
  cases j with
  | obj kvs =>
    simp only [PDen] at hd ⊢
    cases ht : tagOf kvs with
    | none => simpa only [ht] using hd
    | some tj =>
      simp only [ht] at hd ⊢
      cases hr : refNum tj.2 with
      | none => simpa only [hr] using hd
      | some n =>
        simp only [hr] at hd ⊢
        rcases hd with hd | ⟨p, h1, h2, h3, h4⟩
        · exact .inl hd
        · refine .inr ⟨p, h1, h2, h3, fun y hy => ?_⟩
          cases hy
          refine hn p ?_
          rw [h1]
          simp only [proxyAddr, h3]
  | _ => simpa only [PDen] using hd

/-- a noted placeholder is where the note says -/
def Sound (b : Nat) (h : Heap) (e : Addr × Slot × Addr) : Prop :=
  b ≤ e.1 ∧ b ≤ e.2.2 ∧ (∃ n : Nat, h[e.2.2]? = some (.idproxy n)) ∧
  match e.2.1 with
  | .idx i => ∃ vs, h[e.1]? = some (.list vs) ∧ vs[i]? = some (.ref e.2.2)
  | .key k => ∃ (es : List (Str × Val)) (k' : Str), k = .str k' ∧ h[e.1]? = some (.dict (Pickler.asItems es)) ∧ (es.map (·.1)).Nodup ∧ (k', .ref e.2.2) ∈ es
  | .attr _ => False

theorem Sound.mono {b b' : Nat} {h h' : Heap} (hb : b' ≤ b) (hh : ∀ (a : Addr) o, b ≤ a → h[a]? = some o → h'[a]? = some o)
    {e : Addr × Slot × Addr} (hs : Sound b h e) : Sound b' h' e := by
  obtain ⟨h1, h2, ⟨n, h3⟩, h4⟩ := hs
  refine ⟨Nat.le_trans hb h1, Nat.le_trans hb h2, ⟨n, hh _ _ h2 h3⟩, ?_⟩
  obtain ⟨a, sl, p⟩ := e
  cases sl with
  | idx i =>
    obtain ⟨vs, h5, h6⟩ := h4
    exact ⟨vs, hh _ _ h1 h5, h6⟩
  | key k =>
    obtain ⟨es, k', h5, h6, h7⟩ := h4
    exact ⟨es, k', h5, hh _ _ h1 h6, h7⟩
  | attr k => exact h4

/-- a list or a dict -/
def Container (h : Heap) (v : Val) : Prop := ∃ a : Addr, v = .ref a ∧ ((∃ vs, h[a]? = some (.list vs)) ∨ ∃ es, h[a]? = some (.dict es))

theorem Container.not_proxy {h : Heap} {v : Val} (hc : Container h v) : proxyAddr h v = none := by
  obtain ⟨a, h1, ⟨vs, h2⟩ | ⟨es, h2⟩⟩ := hc <;> simp only [h1, proxyAddr, h2]

theorem Container.mono {h h' : Heap} {v : Val} (hh : ∀ (a : Addr) o, h[a]? = some o → h'[a]? = some o) (hc : Container h v) : Container h' v := by
  obtain ⟨a, h1, ⟨vs, h2⟩ | ⟨es, h2⟩⟩ := hc
  · exact ⟨a, h1, .inl ⟨vs, hh _ _ h2⟩⟩
  · exact ⟨a, h1, .inr ⟨es, hh _ _ h2⟩⟩

/-- the table of ids knows no cell that does not exist, and the table of objects has only lists and dicts -/
structure IdxOk (s : UState) : Prop where
  idx : ∀ (i : Ident) n, (i, n) ∈ s.idx → ∀ a : Nat, i = .addr a → a < s.heap.length
  objs : ∀ v ∈ s.objs, Container s.heap v

/-- what a run of the decoder may do to the state, without touching older cells -/
structure Ran (s s' : UState) (N : List Val) (Q : List (Addr × Slot × Addr)) : Prop where
  len : s.heap.length ≤ s'.heap.length
  old : ∀ a : Addr, a < s.heap.length → s'.heap[a]? = s.heap[a]?
  objs : s'.objs = s.objs ++ N
  proxies : s'.proxies = s.proxies ++ Q
  idx : IdxOk s'

theorem Ran.refl {s : UState} (h : IdxOk s) : Ran s s [] [] := ⟨Nat.le_refl _, fun _ _ => rfl, by simp, by simp, h⟩

theorem Ran.trans {s s' s'' : UState} {N N' Q Q'} (h : Ran s s' N Q) (h' : Ran s' s'' N' Q') : Ran s s'' (N ++ N') (Q ++ Q') := by
  refine ⟨Nat.le_trans h.len h'.len, fun a ha => ?_, ?_, ?_, h'.idx⟩
  · rw [h'.old a (Nat.lt_of_lt_of_le ha h.len), h.old a ha]
  · rw [h'.objs, h.objs, List.append_assoc]
  · rw [h'.proxies, h.proxies, List.append_assoc]

theorem Ran.mono {s s' : UState} {N Q} (h : Ran s s' N Q) : ∀ (a : Addr) o, s.heap[a]? = some o → s'.heap[a]? = some o := by
  intro a o ho
  obtain ⟨hl, _⟩ := List.getElem?_eq_some_iff.1 ho
  rw [h.old a hl, ho]

theorem Ran.grows {s s' : UState} {N Q} (h : Ran s s' N Q) (b : Nat) : Grows b s.objs s'.objs s.heap s'.heap s.proxies s'.proxies where
  table n v hv := by
    rw [h.objs]
    obtain ⟨hl, _⟩ := List.getElem?_eq_some_iff.1 hv
    rw [List.getElem?_append_left hl]; exact hv
  heap a o _ ho := h.mono a o ho
  noted e he := by rw [h.proxies]; exact List.mem_append_left _ he

theorem ran_alloc {s : UState} (h : IdxOk s) (o : Obj) : Ran s { s with heap := s.heap ++ [o] } [] [] where
  len := by simp
  old a ha := List.getElem?_append_left ha
  objs := by simp
  proxies := by simp
  idx := {
    idx := fun i n hi a ha => by have := h.idx i n hi a ha; simp only [List.length_append]; omega
    objs := fun v hv => (h.objs v hv).mono (fun a o ho => append_mono _ _ a o ho) }

theorem ran_mkref {s : UState} (h : IdxOk s) (o : Obj) (ho : (∃ vs, o = .list vs) ∨ ∃ es, o = .dict es) :
    ∃ s', mkref (.ref s.heap.length) { s with heap := s.heap ++ [o] } = some (.ok (.ref s.heap.length), s') ∧
      Ran s s' [.ref s.heap.length] [] ∧ s'.heap = s.heap ++ [o] := by
  have hnone : idxGet (.addr s.heap.length) s.idx = none := by
    unfold idxGet
    cases hf : s.idx.find? (fun p => p.1 == .addr s.heap.length) with
    | none => rfl
    | some p =>
      have h1 := List.mem_of_find?_eq_some hf
      have h2 := List.find?_some hf
      have h3 : p.1 = .addr s.heap.length := by simpa using h2
      exact absurd (h.idx p.1 p.2 h1 s.heap.length h3) (Nat.lt_irrefl _)
  refine ⟨{ s with heap := s.heap ++ [o], idx := s.idx ++ [(.addr s.heap.length, s.objs.length)], objs := s.objs ++ [.ref s.heap.length] }, ?_, ?_, rfl⟩
  · unfold mkref
    simp only [Val.ident, hnone]
  · refine ⟨by simp, fun a ha => List.getElem?_append_left ha, by simp, by simp, ?_, ?_⟩
    · intro i n hi a ha
      simp only [List.mem_append, List.mem_singleton] at hi
      simp only [List.length_append, List.length_singleton]
      rcases hi with hi | hi
      · have := h.idx i n hi a ha; omega
      · cases hi; cases ha; omega
    · intro v hv
      simp only [List.mem_append, List.mem_singleton] at hv
      rcases hv with hv | hv
      · exact (h.objs v hv).mono (fun a o ho => append_mono _ _ a o ho)
      · refine ⟨s.heap.length, hv, ?_⟩
        simp only [List.getElem?_concat_length, Option.some.injEq]
        exact ho

/-- what one call of `_restore` does -/
structure Does (s s' : UState) (N : List Val) (Q : List (Addr × Slot × Addr)) (j : List Json) : Prop where
  ran : Ran s s' N Q
  sound : ∀ e ∈ Q, Sound s.heap.length s'.heap e
  table : All2 (PDen s.heap.length s'.objs s'.heap s'.proxies none) N j

theorem All2.imp {α β : Type} {p q : α → β → Prop} (h : ∀ x y, p x y → q x y) : ∀ {xs : List α} {ys : List β}, All2 p xs ys → All2 q xs ys
  | [], [], _ => trivial
  | x :: xs, y :: ys, ⟨h1, h2⟩ => ⟨h x y h1, All2.imp h h2⟩
  | [], _ :: _, h' => by cases h'
  | _ :: _, [], h' => by cases h'

theorem All2.append {α β : Type} {p : α → β → Prop} : ∀ {xs xs' : List α} {ys ys' : List β}, All2 p xs ys → All2 p xs' ys' → All2 p (xs ++ xs') (ys ++ ys')
  | [], _, [], _, _, h => h
  | x :: xs, _, y :: ys, _, ⟨h1, h2⟩, h => ⟨h1, All2.append h2 h⟩
  | [], _, _ :: _, _, h', _ => by cases h'
  | _ :: _, _, [], _, h', _ => by cases h'

theorem Does.trans {s s' s'' : UState} {N N' Q Q' j j'} (h : Does s s' N Q j) (h' : Does s' s'' N' Q' j') : Does s s'' (N ++ N') (Q ++ Q') (j ++ j') where
  ran := h.ran.trans h'.ran
  sound e he := by
    rcases List.mem_append.1 he with he | he
    · exact (h.sound e he).mono (Nat.le_refl _) (fun a o _ => h'.ran.mono a o)
    · exact (h'.sound e he).mono h.ran.len (fun _ _ _ h => h)
  table := All2.append (All2.imp (fun x y hx => PDen.mono (Nat.le_refl _) (h'.ran.grows _) hx) h.table)
    (All2.imp (fun x y hx => PDen.mono h.ran.len ⟨fun _ _ h => h, fun _ _ _ h => h, fun _ h => h⟩ hx) h'.table)

theorem Does.refl {s : UState} (h : IdxOk s) : Does s s [] [] [] := ⟨Ran.refl h, (fun _ h => by cases h), trivial⟩

/-- the values of a list of documents, none of them noted yet -/
def PVals (b : Nat) (T : List Val) (h : Heap) (P : List (Addr × Slot × Addr)) (vs : List Val) (xs : List Json) : Prop := All2 (PDen b T h P none) vs xs

section
variable {env : UEnv} {v1 : Bool} {rs : Json → U Val}

/-- `rs` decodes `j` -/
def Good (v1 : Bool) (rs : Json → U Val) (j : Json) : Prop := ∀ s, IdxOk s → ∃ v s' N Q, rs j s = some (.ok v, s') ∧ Does s s' N Q (j.containers v1) ∧
  PDen s.heap.length s'.objs s'.heap s'.proxies none v j

theorem good_all : ∀ (xs : List Json), (∀ x ∈ xs, Good v1 rs x) → ∀ s, IdxOk s → ∃ vs s' N Q, mapM rs xs s = some (.ok vs, s') ∧ Does s s' N Q (Json.containersL v1 xs) ∧
    PVals s.heap.length s'.objs s'.heap s'.proxies vs xs
  | [], _, s, hs => ⟨[], s, [], [], rfl, Does.refl hs, trivial⟩
  | x :: xs, h, s, hs => by
    obtain ⟨v, s1, N, Q, h1, h2, h3⟩ := h x (.head _) s hs
    obtain ⟨vs, s2, N', Q', h4, h5, h6⟩ := good_all xs (fun y hy => h y (.tail _ hy)) s1 h2.ran.idx
    refine ⟨v :: vs, s2, _, _, ?_, h2.trans h5, PDen.mono (Nat.le_refl _) (h5.ran.grows _) h3,
      All2.imp (fun x y hx => PDen.mono h2.ran.len ⟨fun _ _ h => h, fun _ _ _ h => h, fun _ h => h⟩ hx) h6⟩
    rw [mapM_cons, bind_ok h1, bind_ok h4]
    rfl

/-- the notes taken for the elements of a list -/
def notesOf (h : Heap) (a : Addr) : Nat → List Val → List (Addr × Slot × Addr)
  | _, [] => []
  | n, v :: vs => (match proxyAddr h v with | some p => [(a, .idx n, p)] | none => []) ++ notesOf h a (n + 1) vs

theorem noteList_eq (a : Addr) : ∀ (vs : List Val) (n : Nat) (s : UState),
    noteList a n vs s = some (.ok (), { s with proxies := s.proxies ++ notesOf s.heap a n vs })
  | [], n, s => by simp only [noteList, notesOf, List.append_nil]; rfl
  | v :: vs, n, s => by
    simp only [noteList, notesOf]
    cases hp : proxyAddr s.heap v with
    | none =>
      rw [bind_ok (a := ()) (s' := s) (by simp only [noteProxy, PyM.modify, hp])]
      exact noteList_eq a vs (n + 1) s
    | some p =>
      rw [bind_ok (a := ()) (s' := { s with proxies := s.proxies ++ [(a, .idx n, p)] }) (by simp only [noteProxy, PyM.modify, hp])]
      rw [noteList_eq a vs (n + 1)]
      simp

theorem notesOf_mem {h : Heap} {a : Addr} {e} : ∀ {vs : List Val} {n : Nat}, e ∈ notesOf h a n vs →
    ∃ i v p, e = (a, .idx (n + i), p) ∧ vs[i]? = some v ∧ proxyAddr h v = some p
  | v :: vs, n, he => by
    simp only [notesOf, List.mem_append] at he
    rcases he with he | he
    · cases hp : proxyAddr h v with
      | none => rw [hp] at he; cases he
      | some p =>
        rw [hp] at he
        exact ⟨0, v, p, by simpa using he, rfl, hp⟩
    · obtain ⟨i, v', p, h1, h2, h3⟩ := notesOf_mem he
      exact ⟨i + 1, v', p, by rw [h1]; congr 3; omega, by simpa using h2, h3⟩

theorem mem_notesOf {h : Heap} {a : Addr} {p} {v} : ∀ {vs : List Val} {n : Nat} {i : Nat}, vs[i]? = some v → proxyAddr h v = some p →
    (a, .idx (n + i), p) ∈ notesOf h a n vs
  | w :: vs, n, 0, hv, hp => by
    simp only [List.getElem?_cons_zero, Option.some.injEq] at hv
    simp [notesOf, hv, hp]
  | w :: vs, n, i + 1, hv, hp => by
    simp only [List.getElem?_cons_succ] at hv
    simp only [notesOf, List.mem_append]
    refine .inr ?_
    have := mem_notesOf (a := a) (n := n + 1) hv hp
    rwa [show n + 1 + i = n + (i + 1) by omega] at this

theorem PVals.note {b : Nat} {T : List Val} {h : Heap} {P : List (Addr × Slot × Addr)} {a : Addr} : ∀ {vs : List Val} {xs : List Json} {n : Nat},
    PVals b T h P vs xs → (∀ i v p, vs[i]? = some v → proxyAddr h v = some p → (a, .idx (n + i), p) ∈ P) → PAll b T h P a n vs xs
  | [], [], _, _, _ => rfl
  | v :: vs, x :: xs, n, ⟨h1, h2⟩, hn => by
    refine ⟨v, vs, rfl, PDen.note h1 (fun p hp => hn 0 v p rfl hp), PVals.note h2 (fun i w p hw hp => ?_)⟩
    have := hn (i + 1) w p (by simpa using hw) hp
    rwa [show n + 1 + i = n + (i + 1) by omega]
  | [], _ :: _, _, h', _ => by cases h'
  | _ :: _, [], _, h', _ => by cases h'

theorem PDen.proxy {b : Nat} {T : List Val} {h : Heap} {P : List (Addr × Slot × Addr)} {v : Val} {sl} {j : Json} (hT : ∀ v ∈ T, Container h v)
    (hd : PDen b T h P sl v j) {p : Addr} (hp : proxyAddr h v = some p) : v = .ref p ∧ b ≤ p ∧ ∃ n : Nat, h[p]? = some (.idproxy n) := by
  cases j with
  | obj kvs =>
    simp only [PDen] at hd
    cases ht : tagOf kvs with
    | none =>
      simp only [ht] at hd
      obtain ⟨a, es, h1, _, h2, _⟩ := hd
      rw [Container.not_proxy ⟨a, h1, .inr ⟨_, h2⟩⟩] at hp; cases hp
    | some tj =>
      simp only [ht] at hd
      cases hr : refNum tj.2 with
      | none => simp only [hr] at hd; rw [hd] at hp; cases hp
      | some n =>
        simp only [hr] at hd
        rcases hd with hd | ⟨q, h1, h2, h3, h4⟩
        · rw [(hT v (List.mem_of_getElem? hd)).not_proxy] at hp; cases hp
        · rw [h1] at hp
          simp only [proxyAddr, h3, Option.some.injEq] at hp
          subst hp
          exact ⟨h1, h2, n, h3⟩
  | arr xs =>
    simp only [PDen] at hd
    obtain ⟨a, es, h1, _, h2, _⟩ := hd
    rw [Container.not_proxy ⟨a, h1, .inl ⟨_, h2⟩⟩] at hp; cases hp
  | _ => simp only [PDen] at hd; rw [hd] at hp; cases hp

theorem Container.set {h : Heap} {a : Addr} {o : Obj} (ho : (∃ vs, o = .list vs) ∨ ∃ es, o = .dict es) {v : Val} (hc : Container h v) : Container (h.set a o) v := by
  obtain ⟨x, h1, h2⟩ := hc
  have hl : (x : Nat) < h.length := by
    rcases h2 with ⟨_, h2⟩ | ⟨_, h2⟩ <;> exact (List.getElem?_eq_some_iff.1 h2).1
  refine ⟨x, h1, ?_⟩
  rw [List.getElem?_set]
  split
  · next he =>
    subst he
    rw [if_pos hl]
    simpa using ho
  · exact h2

theorem set_above {h : Heap} {a : Nat} {o : Obj} : ∀ (x : Addr) o', a + 1 ≤ x → h[x]? = some o' → (h.set a o)[x]? = some o' := by
  intro x o' hx ho
  rw [List.getElem?_set, if_neg (by omega)]
  exact ho

theorem PVals.get {b : Nat} {T : List Val} {h : Heap} {P : List (Addr × Slot × Addr)} : ∀ {vs : List Val} {xs : List Json} {i : Nat} {v : Val},
    PVals b T h P vs xs → vs[i]? = some v → ∃ x, PDen b T h P none v x
  | w :: vs, x :: xs, 0, v, ⟨h1, _⟩, hv => by cases hv; exact ⟨x, h1⟩
  | w :: vs, x :: xs, i + 1, v, ⟨_, h2⟩, hv => PVals.get h2 (by simpa using hv)
  | [], _, _, _, _, hv => by cases hv
  | _ :: _, [], _, _, h', _ => by cases h'

theorem good_arr {xs : List Json} (h : ∀ x ∈ xs, Good v1 rs x) : Good v1 (restoreStep env rs) (.arr xs) := by
  intro s hs
  obtain ⟨s1, h1, r1, e1⟩ := ran_mkref hs (.list []) (.inl ⟨_, rfl⟩)
  obtain ⟨vs, s2, N, Q, h2, d2, p2⟩ := good_all xs h s1 r1.idx
  have hl1 : s1.heap.length = s.heap.length + 1 := by rw [e1]; simp
  rw [hl1] at p2
  have hT : ∀ v ∈ s2.objs, Container (s2.heap.set s.heap.length (.list vs)) v := fun v hv => (d2.ran.idx.objs v hv).set (.inl ⟨_, rfl⟩)
  have hlen := d2.ran.len
  have ha : (s2.heap.set s.heap.length (.list vs))[s.heap.length]? = some (.list vs) := by
    rw [List.getElem?_set, if_pos rfl, if_pos (by omega)]
  let nt := notesOf (s2.heap.set s.heap.length (.list vs)) s.heap.length 0 vs
  let s4 : UState := { s2 with heap := s2.heap.set s.heap.length (.list vs), proxies := s2.proxies ++ nt }
  have g : Grows (s.heap.length + 1) s2.objs s4.objs s2.heap s4.heap s2.proxies s4.proxies :=
    ⟨fun _ _ h => h, set_above, fun e he => List.mem_append_left _ he⟩
  have p4 : PVals (s.heap.length + 1) s4.objs s4.heap s4.proxies vs xs := All2.imp (fun x y hx => PDen.mono (Nat.le_refl _) g hx) p2
  have p5 : PDen s.heap.length s4.objs s4.heap s4.proxies none (.ref s.heap.length) (.arr xs) := by
    refine ⟨_, vs, rfl, Nat.le_refl _, ha, ?_⟩
    refine PAll.mono (Nat.le_succ _) ⟨fun _ _ h => h, fun _ _ _ h => h, fun _ h => h⟩ (PVals.note p4 (fun i v p hv hp => ?_))
    exact List.mem_append_right _ (mem_notesOf hv hp)
  refine ⟨.ref s.heap.length, s4, .ref s.heap.length :: N, Q ++ nt, ?_, ⟨⟨?_, ?_, ?_, ?_, ?_, hT⟩, ?_, ?_⟩, p5⟩
  · refine (bind_ok (x := restoreList rs (.ok xs)) (a := s.heap.length) (s' := s4) ?_).trans rfl
    unfold restoreList
    rw [bind_ok (a := s.heap.length) (s' := { s with heap := s.heap ++ [.list []] }) rfl, bind_ok h1, bind_ok (a := xs) (s' := s1) rfl, bind_ok h2,
      bind_ok (a := ()) (s' := { s2 with heap := s2.heap.set s.heap.length (.list vs) }) rfl, bind_ok (noteList_eq _ _ _ _)]
    rfl
  · show s.heap.length ≤ (s2.heap.set _ _).length
    rw [List.length_set]; omega
  · intro a ha
    show (s2.heap.set _ _)[a]? = _
    rw [List.getElem?_set, if_neg (Nat.ne_of_gt ha), d2.ran.old a (Nat.lt_of_lt_of_le ha (by rw [hl1]; exact Nat.le_succ _)), e1, List.getElem?_append_left ha]
  · show s2.objs = _
    rw [d2.ran.objs, r1.objs]; simp
  · show s2.proxies ++ nt = _
    rw [d2.ran.proxies, r1.proxies]; simp
  · intro i n hi a ha
    show a < (s2.heap.set _ _).length
    rw [List.length_set]
    exact d2.ran.idx.idx i n hi a ha
  · intro e he
    rcases List.mem_append.1 he with he | he
    · have := d2.sound e he
      rw [hl1] at this
      exact this.mono (Nat.le_succ _) set_above
    · obtain ⟨i, v, p, h3, h4, h5⟩ := notesOf_mem he
      obtain ⟨x, hx⟩ := p4.get h4
      obtain ⟨h6, h7, n, h8⟩ := hx.proxy hT h5
      subst h3
      refine ⟨Nat.le_refl _, Nat.le_of_succ_le h7, ⟨n, h8⟩, vs, ha, ?_⟩
      rw [Nat.zero_add, h4, h6]
  · refine ⟨p5, ?_⟩
    have := d2.table
    rw [hl1] at this
    exact All2.imp (fun x y hx => PDen.mono (Nat.le_succ _) g hx) this

/-- what filling the dict in cell `a` does -/
structure Fills (v1 : Bool) (a : Nat) (es0 es : List (Str × Val)) (s s' : UState) (N : List Val) (Q : List (Addr × Slot × Addr)) (kvs : List (Str × Json)) : Prop where
  len : s.heap.length ≤ s'.heap.length
  below : ∀ x : Addr, (x : Nat) < a → s'.heap[x]? = s.heap[x]?
  above : ∀ (x : Addr) o, a + 1 ≤ (x : Nat) → s.heap[x]? = some o → s'.heap[x]? = some o
  cell : s'.heap[a]? = some (.dict (Pickler.asItems (es0 ++ es)))
  objs : s'.objs = s.objs ++ N
  proxies : s'.proxies = s.proxies ++ Q
  idx : IdxOk s'
  sound : ∀ e ∈ Q, Sound a s'.heap e
  table : All2 (PDen (a + 1) s'.objs s'.heap s'.proxies none) N (Json.containersKv v1 kvs)
  ents : PEnts (a + 1) s'.objs s'.heap s'.proxies a es kvs
  keys : es.map (·.1) = kvs.map (·.1)

theorem good_entries {a : Nat} : ∀ (kvs : List (Str × Json)) (es0 : List (Str × Val)), (∀ kv ∈ kvs, Good v1 rs kv.2) →
    (es0.map (·.1) ++ kvs.map (·.1)).Nodup → ∀ s, IdxOk s → a < s.heap.length → s.heap[a]? = some (.dict (Pickler.asItems es0)) →
    ∃ us es s' N Q, mapM (dictEntry rs a) kvs s = some (.ok us, s') ∧ Fills v1 a es0 es s s' N Q kvs
  | [], es0, _, _, s, hs, _, hc => ⟨[], [], s, [], [], rfl, {
      len := Nat.le_refl _, below := fun _ _ => rfl, above := fun _ _ _ h => h, cell := by simpa using hc, objs := by simp, proxies := by simp,
      idx := hs, sound := fun _ h => by cases h
      table := trivial
      ents := rfl
      keys := rfl }⟩
  | (k, x) :: kvs, es0, hg, hn, s, hs, hl, hc => by
    obtain ⟨v, s1, N1, Q1, h1, d1, p1⟩ := hg (k, x) (.head _) s hs
    have hc1 : s1.heap[a]? = some (.dict (Pickler.asItems es0)) := by rw [d1.ran.old a hl]; exact hc
    have hkn : k ∉ es0.map (·.1) := by
      intro hk
      exact (List.nodup_append.1 hn).2.2 k hk k (by simp) rfl
    have hl1 : a < s1.heap.length := Nat.lt_of_lt_of_le hl d1.ran.len
    -- the state after the entry is stored
    let o : Obj := .dict (Pickler.asItems (es0 ++ [(k, v)]))
    let nt : List (Addr × Slot × Addr) := match proxyAddr (s1.heap.set a o) v with | some p => [(a, .key (.str k), p)] | none => []
    let s2 : UState := { s1 with heap := s1.heap.set a o, proxies := s1.proxies ++ nt }
    have hT : ∀ v ∈ s1.objs, Container (s1.heap.set a o) v := fun v hv => (d1.ran.idx.objs v hv).set (.inr ⟨_, rfl⟩)
    have hi2 : IdxOk s2 := ⟨fun i n hi b hb => by
      show b < (s1.heap.set a o).length
      rw [List.length_set]
      exact d1.ran.idx.idx i n hi b hb, hT⟩
    have hl2 : a < s2.heap.length := by show a < (s1.heap.set a o).length; rw [List.length_set]; exact hl1
    have hc2 : s2.heap[a]? = some (.dict (Pickler.asItems (es0 ++ [(k, v)]))) := by
      show (s1.heap.set a o)[a]? = _
      rw [List.getElem?_set, if_pos rfl, if_pos hl1]
    obtain ⟨us, es, s', N, Q, h3, f⟩ := good_entries kvs (es0 ++ [(k, v)]) (fun kv hkv => hg kv (.tail _ hkv)) (by simpa using hn) s2 hi2 hl2 hc2
    have hrun : dictEntry rs a (k, x) s = some (.ok (), s2) := by
      unfold dictEntry
      rw [bind_ok h1, bind_ok (Sim.dictSet_name hkn hc1)]
      show noteProxy a (.key (.str k)) v { s1 with heap := s1.heap.set a o } = _
      simp only [noteProxy, PyM.modify]
      show some (Except.ok (), (match proxyAddr (s1.heap.set a o) v with | some p => _ | none => _ : UState)) = _
      cases hp : proxyAddr (s1.heap.set a o) v with
      | none => simp only [s2, nt, hp, List.append_nil]
      | some p => simp only [s2, nt, hp]
    have g12 : Grows (a + 1) s1.objs s2.objs s1.heap s2.heap s1.proxies s2.proxies :=
      ⟨fun _ _ h => h, set_above, fun e he => List.mem_append_left _ he⟩
    have g23 : Grows (a + 1) s2.objs s'.objs s2.heap s'.heap s2.proxies s'.proxies := by
      refine ⟨fun n v hv => ?_, f.above, fun e he => ?_⟩
      · rw [f.objs]
        obtain ⟨hl, _⟩ := List.getElem?_eq_some_iff.1 hv
        rw [List.getElem?_append_left hl]; exact hv
      · rw [f.proxies]; exact List.mem_append_left _ he
    have pv2 : PDen (a + 1) s2.objs s2.heap s2.proxies (some (a, .key (.str k))) v x := by
      refine PDen.note (PDen.mono (Nat.le_refl _) g12 (PDen.mono hl ⟨fun _ _ h => h, fun _ _ _ h => h, fun _ h => h⟩ p1)) (fun p hp => ?_)
      have hp' : proxyAddr (s1.heap.set a o) v = some p := hp
      refine List.mem_append_right _ ?_
      simp only [nt, hp']
      exact List.mem_singleton.2 rfl
    refine ⟨() :: us, (k, v) :: es, s', N1 ++ N, Q1 ++ nt ++ Q, ?_, ?_⟩
    · rw [mapM_cons, bind_ok hrun, bind_ok h3]; rfl
    · exact {
        len := by have := d1.ran.len; have := f.len; have : s2.heap.length = s1.heap.length := List.length_set ..; omega
        below := fun x hx => by
          rw [f.below x hx]
          show (s1.heap.set a o)[x]? = _
          rw [List.getElem?_set, if_neg (Nat.ne_of_gt hx), d1.ran.old x (Nat.lt_trans hx hl)]
        above := fun x o' hx ho => f.above x o' hx (set_above x o' hx (d1.ran.mono x o' ho))
        cell := by rw [f.cell]; simp
        objs := by rw [f.objs]; show s1.objs ++ N = _; rw [d1.ran.objs]; simp
        proxies := by rw [f.proxies]; show s1.proxies ++ nt ++ Q = _; rw [d1.ran.proxies]; simp
        idx := f.idx
        sound := fun e he => by
          rcases List.mem_append.1 he with he | he
          · rcases List.mem_append.1 he with he | he
            · exact ((d1.sound e he).mono (b' := a + 1) hl (fun _ _ _ h => h)).mono (Nat.le_succ _) (fun x o hx ho => f.above x o hx (set_above x o hx ho))
            · simp only [nt] at he
              cases hp : proxyAddr (s1.heap.set a o) v with
              | none => rw [hp] at he; cases he
              | some p =>
                rw [hp] at he
                cases List.mem_singleton.1 he
                obtain ⟨h6, h7, n, h8⟩ := pv2.proxy hT hp
                refine ⟨Nat.le_refl _, Nat.le_of_succ_le h7, ⟨n, f.above p _ h7 h8⟩, _, k, rfl, f.cell, ?_, ?_⟩
                · rw [List.map_append, List.map_append, f.keys]
                  simpa using hn
                · rw [← h6]; simp
          · exact f.sound e he
        table := All2.append
          (All2.imp (fun _ _ hx => PDen.mono (Nat.le_refl _) g23 (PDen.mono (Nat.le_refl _) g12 (PDen.mono hl ⟨fun _ _ h => h, fun _ _ _ h => h, fun _ h => h⟩ hx))) d1.table) f.table
        ents := ⟨v, es, rfl, PDen.mono (Nat.le_refl _) g23 pv2, f.ents⟩
        keys := by simp [f.keys] }

/-- a new dict, entered into the table or not -/
theorem ran_unless {s : UState} (h : IdxOk s) (hv : env.v1 = v1) :
    ∃ s' N, mkrefUnlessV1 env s.heap.length { s with heap := s.heap ++ [.dict []] } = some (.ok (), s') ∧
      Ran s s' N [] ∧ s'.heap = s.heap ++ [.dict []] ∧ N = if v1 then [] else [.ref s.heap.length] := by
  unfold mkrefUnlessV1
  rw [hv]
  cases v1 with
  | true => exact ⟨{ s with heap := s.heap ++ [.dict []] }, [], rfl, ran_alloc h _, rfl, rfl⟩
  | false =>
    obtain ⟨s1, h1, r1, e1⟩ := ran_mkref h (.dict []) (.inr ⟨_, rfl⟩)
    exact ⟨s1, [.ref s.heap.length], (bind_ok h1).trans rfl, r1, e1, rfl⟩

theorem good_dict {kvs : List (Str × Json)} (hk : env.keys = false) (hv : env.v1 = v1) (ht : tagOf kvs = none) (hn : (kvs.map (·.1)).Nodup)
    (h : ∀ kv ∈ kvs, Good v1 rs kv.2) : Good v1 (restoreStep env rs) (.obj kvs) := by
  intro s hs
  obtain ⟨s1, M, h1, r1, e1, hM⟩ := ran_unless hs hv
  have hl1 : s1.heap.length = s.heap.length + 1 := by rw [e1]; simp
  obtain ⟨us, es, s', N, Q, h2, f⟩ := good_entries (a := s.heap.length) kvs [] h (by simpa using hn) s1 r1.idx (by omega) (by rw [e1]; simp [Pickler.asItems])
  have p5 : PDen s.heap.length s'.objs s'.heap s'.proxies none (.ref s.heap.length) (.obj kvs) := by
    simp only [PDen, ht]
    exact ⟨_, es, rfl, Nat.le_refl _, f.cell, PEnts.mono (Nat.le_succ _) ⟨fun _ _ h => h, fun _ _ _ h => h, fun _ h => h⟩ f.ents⟩
  refine ⟨.ref s.heap.length, s', M ++ N, Q, ?_, ⟨⟨?_, ?_, ?_, ?_, f.idx⟩, f.sound, ?_⟩, p5⟩
  · show restoreTags env rs kvs s = _
    rw [restoreTags_plain ht]
    unfold restoreDict
    rw [bind_ok (a := s.heap.length) (s' := { s with heap := s.heap ++ [.dict []] }) rfl, bind_ok h1, hk]
    simp only [Bool.false_eq_true, if_false]
    rw [bind_ok h2]
    rfl
  · have := f.len; omega
  · intro x hx
    rw [f.below x hx, e1, List.getElem?_append_left hx]
  · rw [f.objs, r1.objs]; simp
  · rw [f.proxies, r1.proxies]; simp
  · have ht2 := All2.imp (fun _ _ hx => PDen.mono (Nat.le_succ _) ⟨fun _ _ h => h, fun _ _ _ h => h, fun _ h => h⟩ hx) f.table
    simp only [Json.containers, ht]
    subst hM
    cases v1 with
    | true => exact ht2
    | false => exact ⟨p5, ht2⟩

theorem restoreTags_id {kvs : List (Str × Json)} {j : Json} (h : tagOf kvs = some (p!"py/id", j)) : restoreTags env rs kvs = restoreId kvs := by
  obtain ⟨h1, _, h3⟩ := tagOf_before h
  have hd : dhas Tags.ID kvs = true := by unfold dhas; rw [show Tags.ID = p!"py/id" from rfl, h1]; rfl
  unfold restoreTags
  rw [if_neg, if_neg, if_neg, if_neg, if_neg, if_pos hd]
  all_goals exact Bool.eq_false_iff.1 (h3 _ (by decide))

/-- the reference with that payload -/
def lookupOf : Json → U Val
  | .int n => idLookup n
  | .bool b => idLookup (if b then 1 else 0)
  | _ => pure .none

theorem restoreId_eq {kvs : List (Str × Json)} {j : Json} (hi : item Tags.ID kvs = .ok j) : restoreId kvs = lookupOf j := by
  unfold restoreId
  rw [hi]; cases j <;> rfl

theorem good_id {kvs : List (Str × Json)} {j : Json} (ht : tagOf kvs = some (p!"py/id", j)) (hj : ∀ n, j = .int n → 0 ≤ n) : Good v1 (restoreStep env rs) (.obj kvs) := by
  intro s hs
  have hi : item Tags.ID kvs = .ok j := by unfold item; rw [show Tags.ID = p!"py/id" from rfl, (tagOf_before ht).1]
  have hlook : ∀ n : Nat, refNum j = some n → restoreId kvs s = idLookup n s → ∃ v s' N Q, restoreStep env rs (.obj kvs) s = some (.ok v, s') ∧ Does s s' N Q ((Json.obj kvs).containers v1) ∧
      PDen s.heap.length s'.objs s'.heap s'.proxies none v (.obj kvs) := by
    intro n hn hr
    simp only [Json.containers, PDen, ht, hn]
    have he : restoreStep env rs (.obj kvs) s = idLookup n s := by
      show restoreTags env rs kvs s = _
      rw [restoreTags_id ht, hr]
    rw [he]
    unfold idLookup
    rw [bind_ok (a := s) (s' := s) rfl]
    have hp : pyIndex s.objs (n : Int) = s.objs[n]? := by
      unfold pyIndex
      rw [if_pos (Int.natCast_nonneg n)]
      rfl
    rw [hp]
    cases hg : s.objs[n]? with
    | some v => exact ⟨v, s, [], [], rfl, Does.refl hs, .inl hg⟩
    | none =>
      refine ⟨.ref s.heap.length, { s with heap := s.heap ++ [.idproxy n] }, [], [], rfl, ⟨ran_alloc hs _, (fun e he => by cases he), trivial⟩, .inr ⟨_, rfl, Nat.le_refl _, ?_, fun x hx => by cases hx⟩⟩
      simp
  have hid := restoreId_eq hi
  have hnone : refNum j = none → restoreId kvs s = some (.ok .none, s) → ∃ v s' N Q, restoreStep env rs (.obj kvs) s = some (.ok v, s') ∧ Does s s' N Q ((Json.obj kvs).containers v1) ∧
      PDen s.heap.length s'.objs s'.heap s'.proxies none v (.obj kvs) := by
    intro hn hr
    simp only [Json.containers, PDen, ht, hn]
    refine ⟨.none, s, [], [], ?_, Does.refl hs, rfl⟩
    show restoreTags env rs kvs s = _
    rw [restoreTags_id ht, hr]
  cases j with
  | int n =>
    have h0 := hj n rfl
    refine hlook n.toNat (by simp [refNum, h0]) ?_
    rw [hid, Int.toNat_of_nonneg h0]; rfl
  | bool b =>
    refine hlook b.toNat rfl ?_
    rw [hid]
    cases b <;> rfl
  | _ => exact hnone rfl (by rw [hid]; rfl)

end

theorem refDocL_mem : ∀ {xs : List Json}, Json.RefDocL xs → ∀ x ∈ xs, x.RefDoc
  | x :: _, ⟨h, _⟩, _, .head _ => h
  | _ :: _, ⟨_, h⟩, y, .tail _ hy => refDocL_mem h y hy

theorem refDocKv_mem : ∀ {xs : List (Str × Json)}, Json.RefDocKv xs → ∀ x ∈ xs, x.2.RefDoc
  | (_, x) :: _, ⟨h, _⟩, _, .head _ => h
  | _ :: _, ⟨_, h⟩, y, .tail _ hy => refDocKv_mem h y hy

theorem good_restore {env : UEnv} (hk : env.keys = false) : ∀ (n : Nat) (j : Json), j.RefDoc → j.depth ≤ n → Good env.v1 (restore env (n + 1)) j
  | n, .arr xs, hr, hd => by
    refine good_arr (rs := restore env n) (fun x hx => ?_)
    have h1 := Json.depthL_mem hx
    simp only [Json.depth] at hd
    cases n with
    | zero => omega
    | succ n => exact good_restore hk n x (refDocL_mem hr x hx) (by omega)
  | n, .obj kvs, hr, hd => by
    simp only [Json.RefDoc] at hr
    cases ht : tagOf kvs with
    | none =>
      simp only [ht] at hr
      refine good_dict (rs := restore env n) hk rfl ht hr.1 (fun x hx => ?_)
      have h1 := Json.depthKv_le.1 (Nat.le_refl _) x hx
      simp only [Json.depth] at hd
      cases n with
      | zero => omega
      | succ n => exact good_restore hk n x.2 (refDocKv_mem hr.2 x hx) (by omega)
    | some tj =>
      obtain ⟨t, j⟩ := tj
      simp only [ht] at hr
      rw [hr.1] at ht
      exact good_id (rs := restore env n) ht hr.2
  | n, .null, _, _ => fun s hs => ⟨_, s, [], [], rfl, Does.refl hs, rfl⟩
  | n, .bool _, _, _ => fun s hs => ⟨_, s, [], [], rfl, Does.refl hs, rfl⟩
  | n, .int _, _, _ => fun s hs => ⟨_, s, [], [], rfl, Does.refl hs, rfl⟩
  | n, .float _, _, _ => fun s hs => ⟨_, s, [], [], rfl, Does.refl hs, rfl⟩
  | n, .str _, _, _ => fun s hs => ⟨_, s, [], [], rfl, Does.refl hs, rfl⟩

/-! ### replacing the placeholders -/

/-- what a placeholder stands for -/
def final (T : List Val) (h : Heap) (v : Val) : Val :=
  match v with
  | .ref p => match h[p]? with
    | some (.idproxy n) => (pyIndex T n).getD .none
    | _ => v
  | _ => v

theorem final_eq {T : List Val} {h : Heap} {v : Val} (hp : proxyAddr h v = none) : final T h v = v := by
  unfold final
  cases v with
  | ref p =>
    simp only [proxyAddr] at hp ⊢
    cases ho : h[p]? with
    | none => rfl
    | some o => cases o <;> first | rfl | (simp only [ho] at hp; cases hp)
  | _ => rfl

/-- the heap after some placeholders have been replaced -/
structure Swapped (T : List Val) (h h' : Heap) (D : List (Addr × Slot × Addr)) : Prop where
  proxy : ∀ (p : Addr) n, h[p]? = some (.idproxy n) → h'[p]? = some (.idproxy n)
  list : ∀ (a : Addr) vs, h[a]? = some (.list vs) → ∃ vs', h'[a]? = some (.list vs') ∧ vs'.length = vs.length ∧
    ∀ (i : Nat) v, vs[i]? = some v → ∃ v', vs'[i]? = some v' ∧ (v' = v ∨ v' = final T h v) ∧ ∀ p, (a, .idx i, p) ∈ D → v' = final T h v
  dict : ∀ (a : Addr) (es : List (Str × Val)), h[a]? = some (.dict (Pickler.asItems es)) → ∃ es' : List (Str × Val), h'[a]? = some (.dict (Pickler.asItems es')) ∧ es'.length = es.length ∧
    ∀ (i : Nat) k v, es[i]? = some (k, v) → ∃ v', es'[i]? = some (k, v') ∧ (v' = v ∨ v' = final T h v) ∧ ∀ p, (a, .key (.str k), p) ∈ D → v' = final T h v

theorem Swapped.refl (T : List Val) (h : Heap) : Swapped T h h [] where
  proxy _ _ h := h
  list a vs h := ⟨vs, h, rfl, fun i v hv => ⟨v, hv, .inl rfl, fun p hp => by cases hp⟩⟩
  dict a vs h := ⟨vs, h, rfl, fun i k v hv => ⟨v, hv, .inl rfl, fun p hp => by cases hp⟩⟩

theorem asItems_inj : ∀ {xs ys : List (Str × Val)}, Pickler.asItems xs = Pickler.asItems ys → xs = ys
  | [], [], _ => rfl
  | (k, v) :: xs, (l, w) :: ys, h => by
    simp only [Pickler.asItems, List.map_cons, List.cons.injEq, Prod.mk.injEq, Val.str.injEq] at h
    obtain ⟨⟨rfl, rfl⟩, h⟩ := h
    rw [asItems_inj h]
  | [], _ :: _, h => by simp [Pickler.asItems] at h
  | _ :: _, [], h => by simp [Pickler.asItems] at h

theorem vset_at {k : Str} {w v : Val} : ∀ {es : List (Str × Val)} {i : Nat}, (es.map (·.1)).Nodup → es[i]? = some (k, v) →
    vset (.str k) w (Pickler.asItems es) = Pickler.asItems (es.set i (k, w))
  | (k', v') :: es, 0, _, h => by
    simp only [List.getElem?_cons_zero, Option.some.injEq, Prod.mk.injEq] at h
    obtain ⟨rfl, rfl⟩ := h
    simp [Pickler.asItems, vset, pyEq]
  | (k', v') :: es, i + 1, hn, h => by
    simp only [List.getElem?_cons_succ] at h
    simp only [List.map_cons, List.nodup_cons] at hn
    have hne : k' ≠ k := fun he => hn.1 (he ▸ List.mem_map.2 ⟨_, List.mem_of_getElem? h, rfl⟩)
    have ih := vset_at (w := w) hn.2 h
    simp only [Pickler.asItems] at ih
    simp only [Pickler.asItems, List.map_cons, vset, List.set_cons_succ, ih]
    rw [if_neg (by simpa [pyEq] using hne)]

theorem swapOne_step {s : UState} {h : Heap} {b : Nat} {D : List (Addr × Slot × Addr)} {e : Addr × Slot × Addr} (hs : Sound b h e)
    (hw : Swapped s.objs h s.heap D) : ∃ s', swapOne e s = some (.ok (), s') ∧ s'.objs = s.objs ∧ Swapped s.objs h s'.heap (D ++ [e]) := by
  obtain ⟨a, sl, p⟩ := e
  obtain ⟨_, _, ⟨n, h3⟩, h4⟩ := hs
  simp only at h3 h4
  have hget : proxyGet s p = final s.objs h (.ref p) := by
    simp only [proxyGet, hw.proxy p n h3, final, h3]
  unfold swapOne
  simp only [hget]
  cases sl with
  | idx i =>
    obtain ⟨vs, h5, h6⟩ := h4
    obtain ⟨vs', h7, h8, h9⟩ := hw.list a vs h5
    have hal := (List.getElem?_eq_some_iff.1 h7).1
    simp only [h7]
    refine ⟨_, rfl, rfl, ?_, ?_, ?_⟩
    · intro q m hq
      rw [List.getElem?_set]
      split
      · next he => subst he; rw [h5] at hq; cases hq
      · exact hw.proxy q m hq
    · intro x ws hx
      by_cases he : x = a
      · subst he
        rw [h5] at hx
        cases hx
        refine ⟨_, by rw [List.getElem?_set, if_pos rfl, if_pos hal], by rw [List.length_set, h8], fun k v hv => ?_⟩
        obtain ⟨v', h10, h11, h12⟩ := h9 k v hv
        rw [List.getElem?_set]
        by_cases hk : i = k
        · subst hk
          rw [h6] at hv
          cases hv
          rw [if_pos rfl, if_pos (List.getElem?_eq_some_iff.1 h10).1]
          exact ⟨_, rfl, .inr rfl, fun _ _ => rfl⟩
        · rw [if_neg hk]
          refine ⟨v', h10, h11, fun q hq => ?_⟩
          rcases List.mem_append.1 hq with hq | hq
          · exact h12 q hq
          · cases List.mem_singleton.1 hq; exact absurd rfl hk
      · obtain ⟨ws', h10, h11, h12⟩ := hw.list x ws hx
        refine ⟨ws', by rw [List.getElem?_set, if_neg (Ne.symm he)]; exact h10, h11, fun k v hv => ?_⟩
        obtain ⟨v', h13, h14, h15⟩ := h12 k v hv
        refine ⟨v', h13, h14, fun q hq => ?_⟩
        rcases List.mem_append.1 hq with hq | hq
        · exact h15 q hq
        · cases List.mem_singleton.1 hq; exact absurd rfl he
    · intro x ws hx
      have he : x ≠ a := fun he => by subst he; rw [h5] at hx; cases hx
      obtain ⟨ws', h10, h11, h12⟩ := hw.dict x ws hx
      refine ⟨ws', by rw [List.getElem?_set, if_neg (Ne.symm he)]; exact h10, h11, fun k l v hv => ?_⟩
      obtain ⟨v', h13, h14, h15⟩ := h12 k l v hv
      refine ⟨v', h13, h14, fun q hq => ?_⟩
      rcases List.mem_append.1 hq with hq | hq
      · exact h15 q hq
      · cases List.mem_singleton.1 hq
  | key kk =>
    obtain ⟨es, k, rfl, h5, hn, h6⟩ := h4
    obtain ⟨es', h7, h8, h9⟩ := hw.dict a es h5
    obtain ⟨i, h6⟩ := List.mem_iff_getElem?.1 h6
    have hal := (List.getElem?_eq_some_iff.1 h7).1
    have hn' : (es'.map (·.1)).Nodup := by
      have : es'.map (·.1) = es.map (·.1) := by
        refine List.ext_getElem? (fun i => ?_)
        rw [List.getElem?_map, List.getElem?_map]
        cases hi : es[i]? with
        | none =>
          have : es'[i]? = none := List.getElem?_eq_none (by rw [h8]; exact List.getElem?_eq_none_iff.1 hi)
          rw [this]
        | some kv =>
          obtain ⟨v', h10, _⟩ := h9 i kv.1 kv.2 hi
          rw [h10]; rfl
      rw [this]; exact hn
    obtain ⟨v0, h60, _⟩ := h9 i k _ h6
    simp only [h7]
    rw [vset_at hn' h60]
    refine ⟨_, rfl, rfl, ?_, ?_, ?_⟩
    · intro q m hq
      rw [List.getElem?_set]
      split
      · next he => subst he; rw [h5] at hq; cases hq
      · exact hw.proxy q m hq
    · intro x ws hx
      have he : x ≠ a := fun he => by subst he; rw [h5] at hx; cases hx
      obtain ⟨ws', h10, h11, h12⟩ := hw.list x ws hx
      refine ⟨ws', by rw [List.getElem?_set, if_neg (Ne.symm he)]; exact h10, h11, fun k v hv => ?_⟩
      obtain ⟨v', h13, h14, h15⟩ := h12 k v hv
      refine ⟨v', h13, h14, fun q hq => ?_⟩
      rcases List.mem_append.1 hq with hq | hq
      · exact h15 q hq
      · cases List.mem_singleton.1 hq
    · intro x ws hx
      by_cases he : x = a
      · subst he
        rw [h5] at hx
        have hws : ws = es := by
          have : Pickler.asItems ws = Pickler.asItems es := by injection hx with hx; injection hx with hx; exact hx.symm
          exact asItems_inj this
        subst hws
        refine ⟨_, by rw [List.getElem?_set, if_pos rfl, if_pos hal], by rw [List.length_set, h8], fun m l v hv => ?_⟩
        obtain ⟨v', h10, h11, h12⟩ := h9 m l v hv
        rw [List.getElem?_set]
        by_cases hk : i = m
        · subst hk
          rw [h6] at hv
          cases hv
          rw [if_pos rfl, if_pos (List.getElem?_eq_some_iff.1 h10).1]
          exact ⟨_, rfl, .inr rfl, fun _ _ => rfl⟩
        · rw [if_neg hk]
          refine ⟨v', h10, h11, fun q hq => ?_⟩
          rcases List.mem_append.1 hq with hq | hq
          · exact h12 q hq
          · cases List.mem_singleton.1 hq
            refine absurd ?_ hk
            have hm := (List.getElem?_eq_some_iff.1 h6).1
            exact (List.getElem?_inj (by simpa using hm) hn).1 (by simp [List.getElem?_map, h6, hv])
      · obtain ⟨ws', h10, h11, h12⟩ := hw.dict x ws hx
        refine ⟨ws', by rw [List.getElem?_set, if_neg (Ne.symm he)]; exact h10, h11, fun k l v hv => ?_⟩
        obtain ⟨v', h13, h14, h15⟩ := h12 k l v hv
        refine ⟨v', h13, h14, fun q hq => ?_⟩
        rcases List.mem_append.1 hq with hq | hq
        · exact h15 q hq
        · cases List.mem_singleton.1 hq; exact absurd rfl he
  | attr k => exact absurd h4 id

theorem swap_all {h : Heap} {b : Nat} : ∀ (P D : List (Addr × Slot × Addr)) (s : UState), (∀ e ∈ P, Sound b h e) → Swapped s.objs h s.heap D →
    ∃ us s', mapM swapOne P s = some (.ok us, s') ∧ s'.objs = s.objs ∧ Swapped s.objs h s'.heap (D ++ P)
  | [], D, s, _, hw => ⟨[], s, rfl, rfl, by simpa using hw⟩
  | e :: P, D, s, hs, hw => by
    obtain ⟨s1, h1, h2, h3⟩ := swapOne_step (hs e (.head _)) hw
    rw [← h2] at h3
    obtain ⟨us, s2, h4, h5, h6⟩ := swap_all P (D ++ [e]) s1 (fun e' he' => hs e' (.tail _ he')) h3
    refine ⟨() :: us, s2, ?_, h5.trans h2, ?_⟩
    · rw [mapM_cons, bind_ok h1, bind_ok h4]; rfl
    · rw [h2] at h6; simpa using h6

theorem pyIndex_nat {α : Type} (l : List α) (n : Nat) : pyIndex l (n : Int) = l[n]? := by
  unfold pyIndex
  rw [if_pos (Int.natCast_nonneg n)]
  rfl

theorem PDen.noted {b : Nat} {T : List Val} {h : Heap} {P : List (Addr × Slot × Addr)} {v : Val} {x : Addr × Slot} {j : Json} (hT : ∀ v ∈ T, Container h v)
    (hd : PDen b T h P (some x) v j) : final T h v = v ∨ ∃ p, (x.1, x.2, p) ∈ P := by
  cases hp : proxyAddr h v with
  | none => exact .inl (final_eq hp)
  | some q =>
    cases j with
    | obj kvs =>
      simp only [PDen] at hd
      cases ht : tagOf kvs with
      | none =>
        simp only [ht] at hd
        obtain ⟨a, es, h1, _, h2, _⟩ := hd
        rw [Container.not_proxy ⟨a, h1, .inr ⟨_, h2⟩⟩] at hp; cases hp
      | some tj =>
        simp only [ht] at hd
        cases hr : refNum tj.2 with
        | none => simp only [hr] at hd; rw [hd] at hp; cases hp
        | some n =>
          simp only [hr] at hd
          rcases hd with hd | ⟨q, h1, h2, h3, h4⟩
          · rw [(hT v (List.mem_of_getElem? hd)).not_proxy] at hp; cases hp
          · exact .inr ⟨q, h4 x rfl⟩
    | arr xs =>
      simp only [PDen] at hd
      obtain ⟨a, es, h1, _, h2, _⟩ := hd
      rw [Container.not_proxy ⟨a, h1, .inl ⟨_, h2⟩⟩] at hp; cases hp
    | _ => simp only [PDen] at hd; rw [hd] at hp; cases hp

theorem PAll.noted {b : Nat} {T : List Val} {h : Heap} {P : List (Addr × Slot × Addr)} {a : Addr} (hT : ∀ v ∈ T, Container h v) :
    ∀ {xs : List Json} {vs : List Val} {n : Nat}, PAll b T h P a n vs xs → ∀ (i : Nat) v, vs[i]? = some v → final T h v = v ∨ ∃ p, (a, .idx (n + i), p) ∈ P
  | [], vs, n, hd, i, v, hv => by cases hd; cases hv
  | x :: xs, _, n, ⟨w, vs, rfl, h1, h2⟩, 0, v, hv => by cases hv; exact h1.noted hT
  | x :: xs, _, n, ⟨w, vs, rfl, h1, h2⟩, i + 1, v, hv => by
    have := PAll.noted hT h2 i v (by simpa using hv)
    rwa [show n + 1 + i = n + (i + 1) by omega] at this

theorem PEnts.noted {b : Nat} {T : List Val} {h : Heap} {P : List (Addr × Slot × Addr)} {a : Addr} (hT : ∀ v ∈ T, Container h v) :
    ∀ {xs : List (Str × Json)} {es : List (Str × Val)}, PEnts b T h P a es xs → ∀ (i : Nat) k v, es[i]? = some (k, v) → final T h v = v ∨ ∃ p, (a, .key (.str k), p) ∈ P
  | [], es, hd, i, k, v, hv => by cases hd; cases hv
  | x :: xs, _, ⟨w, vs, rfl, h1, h2⟩, 0, k, v, hv => by cases hv; exact h1.noted hT
  | x :: xs, _, ⟨w, vs, rfl, h1, h2⟩, i + 1, k, v, hv => PEnts.noted hT h2 i k v (by simpa using hv)

section
variable {b : Nat} {T : List Val} {h h' : Heap} {P : List (Addr × Slot × Addr)} (hT : ∀ v ∈ T, Container h v) (hw : Swapped T h h' P)
include hT hw

theorem Swapped.all {a : Addr} {vs : List Val} {xs : List Json} (ha : h[a]? = some (.list vs)) (hp : PAll b T h P a 0 vs xs) :
    h'[a]? = some (.list (vs.map (final T h))) := by
  obtain ⟨vs', h1, h2, h3⟩ := hw.list a vs ha
  rw [h1]
  congr 2
  refine List.ext_getElem? (fun i => ?_)
  rw [List.getElem?_map]
  cases hi : vs[i]? with
  | none =>
    rw [List.getElem?_eq_none (by rw [h2]; exact List.getElem?_eq_none_iff.1 hi)]
    rfl
  | some v =>
    obtain ⟨v', h4, h5, h6⟩ := h3 i v hi
    rw [h4]
    rcases PAll.noted hT hp i v hi with hf | ⟨p, hn⟩
    · rcases h5 with h5 | h5 <;> simp [h5, hf]
    · rw [h6 p (by simpa using hn)]; rfl

theorem Swapped.ents {a : Addr} {es : List (Str × Val)} {xs : List (Str × Json)} (ha : h[a]? = some (.dict (Pickler.asItems es))) (hp : PEnts b T h P a es xs) :
    h'[a]? = some (.dict (Pickler.asItems (es.map (fun e => (e.1, final T h e.2))))) := by
  obtain ⟨vs', h1, h2, h3⟩ := hw.dict a es ha
  rw [h1]
  congr 3
  refine List.ext_getElem? (fun i => ?_)
  rw [List.getElem?_map]
  cases hi : es[i]? with
  | none =>
    rw [List.getElem?_eq_none (by rw [h2]; exact List.getElem?_eq_none_iff.1 hi)]
    rfl
  | some kv =>
    obtain ⟨v', h4, h5, h6⟩ := h3 i kv.1 kv.2 hi
    rw [h4]
    rcases PEnts.noted hT hp i kv.1 kv.2 hi with hf | ⟨p, hn⟩
    · rcases h5 with h5 | h5 <;> simp [h5, hf]
    · rw [h6 p hn]; rfl

mutual
theorem PDen.denotes {sl : Option (Addr × Slot)} {v : Val} : ∀ {j : Json}, PDen b T h P sl v j → Denotes T h' (final T h v) j
  | .null, hd => by cases hd; rfl
  | .bool _, hd => by cases hd; rfl
  | .int _, hd => by cases hd; rfl
  | .float _, hd => by cases hd; rfl
  | .str _, hd => by cases hd; rfl
  | .arr xs, hd => by
    obtain ⟨a, vs, h1, _, h3, h4⟩ := hd
    subst h1
    refine ⟨a, _, final_eq (Container.not_proxy ⟨a, rfl, .inl ⟨_, h3⟩⟩), Swapped.all hT hw h3 h4, PAll.denotes h4⟩
  | .obj kvs, hd => by
    simp only [PDen] at hd
    simp only [Denotes]
    cases ht : tagOf kvs with
    | none =>
      simp only [ht] at hd ⊢
      obtain ⟨a, es, h1, _, h3, h4⟩ := hd
      subst h1
      exact ⟨a, _, final_eq (Container.not_proxy ⟨a, rfl, .inr ⟨_, h3⟩⟩), Swapped.ents hT hw h3 h4, PEnts.denotes h4⟩
    | some tj =>
      simp only [ht] at hd ⊢
      cases hr : refNum tj.2 with
      | none =>
        simp only [hr] at hd
        rw [hd]; rfl
      | some n =>
        simp only [hr] at hd
        simp only [Option.bind_some]
        rcases hd with hd | ⟨p, h1, h2, h3, h4⟩
        · rw [hd, final_eq (hT v (List.mem_of_getElem? hd)).not_proxy]; rfl
        · rw [h1]
          simp only [final, h3, pyIndex_nat]
theorem PAll.denotes {a : Addr} {i : Nat} {vs : List Val} : ∀ {xs : List Json}, PAll b T h P a i vs xs → DenotesAll T h' (vs.map (final T h)) xs
  | [], hd => by cases hd; rfl
  | x :: xs, hd => by
    obtain ⟨v, vs', h1, h2, h3⟩ := hd
    subst h1
    exact ⟨_, _, rfl, PDen.denotes h2, PAll.denotes h3⟩
theorem PEnts.denotes {a : Addr} {es : List (Str × Val)} : ∀ {xs : List (Str × Json)}, PEnts b T h P a es xs →
    DenotesEntries T h' (Pickler.asItems (es.map (fun e => (e.1, final T h e.2)))) xs
  | [], hd => by cases hd; rfl
  | (k, x) :: xs, hd => by
    obtain ⟨v, vs', h1, h2, h3⟩ := hd
    subst h1
    exact ⟨_, _, rfl, PDen.denotes h2, PEnts.denotes h3⟩
end

end

theorem containers_kind {j : Json} (v : Val) {b : Nat} {T : List Val} {h : Heap} {P : List (Addr × Slot × Addr)} {sl} (hd : PDen b T h P sl v j) :
    (∀ kvs t, j = .obj kvs → tagOf kvs ≠ some t) → proxyAddr h v = none := by
  intro hj
  cases j with
  | obj kvs =>
    simp only [PDen] at hd
    cases ht : tagOf kvs with
    | some t => exact absurd ht (hj kvs t rfl)
    | none =>
      simp only [ht] at hd
      obtain ⟨a, es, h1, _, h2, _⟩ := hd
      exact Container.not_proxy ⟨a, h1, .inr ⟨_, h2⟩⟩
  | arr xs =>
    simp only [PDen] at hd
    obtain ⟨a, es, h1, _, h2, _⟩ := hd
    exact Container.not_proxy ⟨a, h1, .inl ⟨_, h2⟩⟩
  | _ => simp only [PDen] at hd; rw [hd]; rfl

/-- Decoding a document with references gives what the document denotes. -/
theorem restoreTop_denotes {env : UEnv} (hk : env.keys = false) (j : Json) (hr : j.RefDoc)
    (hroot : ∀ kvs t, j = .obj kvs → tagOf kvs ≠ some t) (u : UState) : ∃ x u' table, restoreTop env (j.depth + 1) j true u = some (.ok x, u') ∧
    Denotes table u'.heap x j ∧ All2 (Denotes table u'.heap) table (j.containers env.v1) := by
  obtain ⟨v, s, N, Q, h1, d, p⟩ := good_restore hk j.depth j hr (Nat.le_refl _) { u with objs := [], idx := [], proxies := [] }
    ⟨(fun _ _ h => by cases h), (fun _ h => by cases h)⟩
  have hP : s.proxies = Q := by rw [d.ran.proxies]; rfl
  have hN : s.objs = N := by rw [d.ran.objs]; rfl
  have hT := d.ran.idx.objs
  obtain ⟨us, s', h2, h3, h4⟩ := swap_all s.proxies [] s (fun e he => d.sound e (hP ▸ he)) (Swapped.refl _ _)
  have h5 : swapProxies s = some (.ok (), { s' with proxies := [] }) := by
    unfold swapProxies
    rw [bind_ok (a := s) (s' := s) rfl, bind_ok h2]
    rfl
  refine ⟨v, { s' with proxies := [] }, s.objs, ?_, ?_, ?_⟩
  · simp only [restoreTop, if_true]
    rw [bind_ok (a := ()) (s' := { u with objs := [], idx := [], proxies := [] }) rfl, bind_ok h1, bind_ok h5]
    rfl
  · have := PDen.denotes hT h4 p
    rwa [final_eq (containers_kind v p hroot)] at this
  · have ht := d.table
    rw [← hN] at ht
    have : ∀ {xs : List Val} {ys : List Json}, (∀ x ∈ xs, x ∈ s.objs) → All2 (PDen u.heap.length s.objs s.heap s.proxies none) xs ys → All2 (Denotes s.objs s'.heap) xs ys := by
      intro xs
      induction xs with
      | nil => intro ys _ h; cases ys <;> exact h
      | cons x xs ih =>
        intro ys hm h
        cases ys with
        | nil => cases h
        | cons y ys =>
          refine ⟨?_, ih (fun x hx => hm x (.tail _ hx)) h.2⟩
          have hd := PDen.denotes hT h4 h.1
          rwa [final_eq (hT x (hm x (.head _))).not_proxy] at hd
    exact this (fun _ h => h) ht

end JP.Unpickler
