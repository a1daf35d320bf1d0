import Verif.Props.C38
import Verif.Props.C08
import Verif.Proofs.UV1
import Verif.Proofs.RoundTrip
import Verif.SampleRound
/-!
# C82 — what `v1_decode` changes

The option only concerns the numbers in references: with it, dicts are not counted.  A document without references is decoded in the same way with and
without it (`same`, `decodes_iff`), in particular what `encode(make_refs=False)` writes (`no_refs`) and what `encode` writes for data in which no object occurs
twice (`round_trip`).  In a document made of scalars, lists, dicts and references, the number counts the lists (`numbering`), and no reference is to a dict
(`never_dict`).  For what this version writes the option is wrong as soon as there are references (`differs`).
-/
namespace JP.C82
open JP PyM Unpickler

/-- the document has an entry `py/id`, possibly (with `keys=True`) inside a key -/
abbrev HasRef := V1.HasRef

/-- no placeholder of an earlier, failed decoding is left over -/
def Clean (h : Heap) : Prop := ∀ (a : Addr) i, h[a]? ≠ some (.idproxy i)

theorem rel_reset {u : UState} (hu : Clean u.heap) :
    V1.Rel 0 { u with objs := [], idx := [], proxies := [] } { u with objs := [], idx := [], proxies := [] } := by
  refine ⟨Nat.zero_le _, rfl, rfl, rfl, rfl, fun a ha => ?_, fun _ _ _ => Iff.rfl⟩
  unfold V1.kindAt at ha
  cases hg : u.heap[a]? with
  | none => rw [show ({ u with objs := [], idx := [], proxies := [] } : UState).heap[a]? = none from hg] at ha; cases ha
  | some o =>
    rw [show ({ u with objs := [], idx := [], proxies := [] } : UState).heap[a]? = some o from hg] at ha
    cases o with
    | idproxy i => exact hu a i hg
    | _ => cases ha

theorem out_top (env : UEnv) (b : Bool) (n : Nat) (j : Json) (hj : ¬ HasRef env j) (u : UState) (hu : Clean u.heap) :
    V1.Out 0 [] (fun _ => True) (restoreTop env n j true u) (restoreTop { env with v1 := b } n j true u) := by
  unfold restoreTop
  rw [if_pos rfl, if_pos rfl, bind_run, bind_run]
  refine V1.Sim.bind (V1.sm_restore n [] j hj) (fun v _ => V1.Sim.bind V1.Sim.swapProxies (fun _ _ => V1.Sim.pure trivial)) _ _ (rel_reset hu) (fun _ h => by cases h)

/-- A document without references is decoded in the same way, whatever the option: the same result or exception, the same objects and the same calls. -/
theorem same (env : UEnv) (b : Bool) (n : Nat) (j : Json) (hj : ¬ HasRef env j) (u : UState) (hu : Clean u.heap) :
    (restoreTop env n j true u).map (fun p => (p.1, p.2.heap, p.2.log)) = (restoreTop { env with v1 := b } n j true u).map (fun p => (p.1, p.2.heap, p.2.log)) := by
  have k := out_top env b n j hj u hu
  revert k
  cases restoreTop env n j true u with
  | none => cases restoreTop { env with v1 := b } n j true u with
    | none => exact fun _ => rfl
    | some _ => exact fun k => k.elim
  | some p => cases restoreTop { env with v1 := b } n j true u with
    | none => exact fun k => k.elim
    | some p' =>
      rintro ⟨h1, h2, _⟩
      rw [Option.map_some, Option.map_some, h1, h2.heap, h2.log]

/-- The same for texts. -/
theorem decodes_iff (env : UEnv) (b : Bool) (text : Str) (hj : ∀ j, env.loads text = some j → ¬ HasRef env j) (u : UState) (hu : Clean u.heap) (x : Val) (u' : UState) :
    Decodes env text u x u' ↔ Decodes { env with v1 := b } text u x u' := by
  have h : ∀ m, Api.decode env m text true true u = some (.ok x, u') ↔ Api.decode { env with v1 := b } m text true true u = some (.ok x, u') := by
    intro m
    unfold Api.decode
    dsimp only
    cases hl : env.loads text with
    | none => exact Iff.rfl
    | some j =>
      have k := out_top env b m j (hj j hl) u hu
      dsimp only
      rw [bind_run, bind_run]
      revert k
      cases restoreTop env m j true u with
      | none => cases restoreTop { env with v1 := b } m j true u with
        | none => exact fun _ => Iff.rfl
        | some _ => exact fun k => k.elim
      | some p => cases restoreTop { env with v1 := b } m j true u with
        | none => exact fun k => k.elim
        | some p' =>
          obtain ⟨r, t⟩ := p
          obtain ⟨r', t'⟩ := p'
          rintro ⟨h1, h2, _⟩
          subst h1
          cases r with
          | error e => exact ⟨fun h => (by injection h with h; injection h with h; cases h), fun h => (by injection h with h; injection h with h; cases h)⟩
          | ok a =>
            have e : ({ t with objs := [], idx := [], proxies := [] } : UState) = { t' with objs := [], idx := [], proxies := [] } := by
              obtain ⟨a1, a2, a3, a4, a5, a6⟩ := t
              obtain ⟨b1, b2, b3, b4, b5, b6⟩ := t'
              have e1 : b1 = a1 := h2.heap
              have e2 : b5 = a5 := h2.nextId
              have e3 : b6 = a6 := h2.log
              subst e1 e2 e3
              rfl
            show some (Except.ok a, ({ t with objs := [], idx := [], proxies := [] } : UState)) = _ ↔ some (Except.ok a, ({ t' with objs := [], idx := [], proxies := [] } : UState)) = _
            rw [e]
  constructor
  · rintro ⟨n, hn⟩; exact ⟨n, fun m hm => (h m).1 (hn m hm)⟩
  · rintro ⟨n, hn⟩; exact ⟨n, fun m hm => (h m).2 (hn m hm)⟩

theorem keys_of_mem {env : UEnv} (hk : env.keys = false) {j : Json} (h : Tags.ID ∉ j.keys) : ¬ HasRef env j := by
  intro hr
  induction hr with
  | here hm => exact h (Json.mem_keysKv.2 ⟨_, hm, .inl rfl⟩)
  | elem hm _ ih => exact ih (fun h1 => h (Json.mem_keysL.2 ⟨_, hm, h1⟩))
  | value hm _ ih => exact ih (fun h1 => h (Json.mem_keysKv.2 ⟨_, hm, .inr h1⟩))
  | key h0 _ _ _ _ _ => rw [hk] at h0; cases h0

/-- What `encode(make_refs=False)` writes is decoded in the same way, unless user code writes `py/id` entries. -/
theorem no_refs (w : World) (cfg : PCfg) (env : UEnv) (b : Bool) (hm : cfg.makeRefs = false) (hu : ¬ C08.UserWrites w cfg) (hk : env.keys = false)
    (n : Nat) (v : Val) (s s1 : PState) (j : Json) (h : Pickler.flattenTop w cfg n v true s = some (.ok j, s1)) (m : Nat) (u : UState) (hc : Clean u.heap) :
    (restoreTop env m j true u).map (fun p => (p.1, p.2.heap, p.2.log)) = (restoreTop { env with v1 := b } m j true u).map (fun p => (p.1, p.2.heap, p.2.log)) :=
  same env b m j (keys_of_mem hk (fun hid => hu (C08.only_user_code w cfg hm n v s s1 j h hid))) u hc

/-- Values whose document has no references come back also with `v1_decode=True`. -/
theorem round_trip (w : World) (cfg : PCfg) (env : UEnv) (v : Val) (hm : Matching w cfg env) (hp : PlainText w)
    (hf : SafeOk cfg) (hs : Supported w.heap env v) (ht : TextOk w.heap v)
    (hj : ∀ text j, Encodes w cfg v text → env.loads text = some j → ¬ HasRef env j) :
    ∃ text, Encodes w cfg v text ∧ ∀ u, Clean u.heap → ∃ x u', Decodes { env with v1 := true } text u x u' ∧
      SameGraph (Sim.orderOf cfg) (Sim.handledOf w) w.heap v u'.heap x ∧ ∀ b < u.heap.length, u'.heap[b]? = u.heap[b]? := by
  obtain ⟨text, h1, h2⟩ := JP.round_trip hm hp hf hs ht
  refine ⟨text, h1, fun u hu => ?_⟩
  obtain ⟨x, u', h3, h4⟩ := h2 u
  exact ⟨x, u', (decodes_iff env true text (fun j => hj text j h1) u hu x u').1 h3, h4⟩

/-- With the option, the references in a document made of scalars, lists, dicts and references are numbered by the lists alone. -/
theorem numbering (env : UEnv) (hk : env.keys = false) (hv : env.v1 = true) (j : Json) (hr : j.RefDoc)
    (hroot : ∀ kvs t, j = .obj kvs → tagOf kvs ≠ some t) (u : UState) : ∃ x u' table,
    (∀ m, j.depth + 1 ≤ m → restoreTop env m j true u = some (.ok x, u')) ∧
    Denotes table u'.heap x j ∧ All2 (Denotes table u'.heap) table (j.containers true) := by
  have := C38.resolved_partial env hk j hr hroot u
  rwa [hv] at this

mutual
theorem lists_only : ∀ {j x : Json}, x ∈ j.containers true → ∃ xs, x = .arr xs
  | .arr xs, x, h => by
    rcases List.mem_cons.1 (show x ∈ Json.arr xs :: Json.containersL true xs from h) with rfl | h
    · exact ⟨_, rfl⟩
    · exact lists_onlyL h
  | .obj kvs, x, h => by
    simp only [Json.containers] at h
    cases ht : tagOf kvs with
    | none => rw [ht] at h; exact lists_onlyKv h
    | some t => rw [ht] at h; cases h
  | .null, _, h | .bool _, _, h | .int _, _, h | .float _, _, h | .str _, _, h => by cases h
theorem lists_onlyL : ∀ {xs : List Json} {x : Json}, x ∈ Json.containersL true xs → ∃ xs, x = .arr xs
  | y :: ys, x, h => by
    rcases List.mem_append.1 (show x ∈ y.containers true ++ Json.containersL true ys from h) with h | h
    · exact lists_only h
    · exact lists_onlyL h
theorem lists_onlyKv : ∀ {xs : List (Str × Json)} {x : Json}, x ∈ Json.containersKv true xs → ∃ xs, x = .arr xs
  | (_, y) :: ys, x, h => by
    rcases List.mem_append.1 (show x ∈ y.containers true ++ Json.containersKv true ys from h) with h | h
    · exact lists_only h
    · exact lists_onlyKv h
end

theorem all2_get {α β : Type} {R : α → β → Prop} : ∀ {xs : List α} {ys : List β}, All2 R xs ys → ∀ {n : Nat} {x : α}, xs[n]? = some x → ∃ y ∈ ys, R x y
  | _ :: _, y :: _, h, 0, _, e => by cases e; exact ⟨y, List.mem_cons_self, h.1⟩
  | _ :: _, _ :: _, h, n + 1, x, e => by
    obtain ⟨y, hy, hr⟩ := all2_get h.2 (n := n) (x := x) (by simpa using e)
    exact ⟨y, List.mem_cons_of_mem _ hy, hr⟩

/-- In such a document every reference becomes a list or `None`, and never a dict. -/
theorem never_dict (env : UEnv) (hk : env.keys = false) (hv : env.v1 = true) (j : Json) (hr : j.RefDoc)
    (hroot : ∀ kvs t, j = .obj kvs → tagOf kvs ≠ some t) (u : UState) : ∃ x u' table,
    (∀ m, j.depth + 1 ≤ m → restoreTop env m j true u = some (.ok x, u')) ∧ Denotes table u'.heap x j ∧
    ∀ v ∈ table, ∃ (a : Addr) (vs : List Val), v = .ref a ∧ u'.heap[a]? = some (.list vs) := by
  obtain ⟨x, u', table, h1, h2, h3⟩ := numbering env hk hv j hr hroot u
  refine ⟨x, u', table, h1, h2, fun v hm => ?_⟩
  obtain ⟨n, hn⟩ := List.mem_iff_getElem?.1 hm
  obtain ⟨y, hy, hd⟩ := all2_get h3 hn
  obtain ⟨xs, rfl⟩ := lists_only hy
  obtain ⟨a, vs, e1, e2, _⟩ := hd
  exact ⟨a, vs, e1, e2⟩

/-- `[{}, x, x]` with an empty list `x`, as this version writes it, is read with `v1_decode=True` as `[{}, [], None]`. -/
theorem differs : Sample.res (Pickler.flattenTop (Sample.world [.list [.ref 1, .ref 2, .ref 2], .dict [], .list []]) {} 9 (.ref 0) true {}) =
      some (.ok (.arr [.obj [], .arr [], C38.ref 2])) ∧
    (Sample.st (restoreTop C10.env 9 (.arr [.obj [], .arr [], C38.ref 2]) true {})).map (fun s => s.heap.map Sample.view) =
      some [.list [.ref 1, .ref 2, .ref 2], .dict [], .list []] ∧
    (Sample.st (restoreTop { C10.env with v1 := true } 9 (.arr [.obj [], .arr [], C38.ref 2]) true {})).map (fun s => s.heap.map Sample.view) =
      some [.list [.ref 1, .ref 2, .none], .dict [], .list [], .proxy] := by decide +kernel

/-! ### examples -/

/-- the document of version 1 for `[{"a": x}, x]`: the dict is not counted -/
def old : Json := .arr [.obj [(p!"a", .arr [])], C38.ref 1]

example : old.RefDoc ∧ (∀ kvs t, old = .obj kvs → tagOf kvs ≠ some t) ∧ HasRef C10.env old := by
  refine ⟨?_, (fun kvs t h => by cases h), .elem (List.mem_cons_of_mem _ List.mem_cons_self) (.here List.mem_cons_self)⟩
  simp [old, C38.ref, Json.RefDoc, Json.RefDocL, Json.RefDocKv, tagOf, wireTags, dget, List.findSome?]

example : (Sample.st (restoreTop { C10.env with v1 := true } 9 old true {})).map (fun s => s.heap.map Sample.view) =
    some [.list [.ref 1, .ref 2], .dict [(.str p!"a", .ref 2)], .list []] := by decide +kernel

/-- a document without references -/
example : ¬ HasRef C10.env (.arr [.obj [(p!"a", .arr [])], .obj [(p!"py/object", .str p!"m.C"), (p!"x", .int 1)]]) := keys_of_mem rfl (by decide +kernel)

example : Clean [.list [.ref 1], .dict []] := fun a i h => by
  match a with
  | 0 => cases h
  | 1 => cases h
  | n + 2 => cases h

/-- a graph without sharing meets the hypotheses of `round_trip` -/
def nested : Heap := [.list [.ref 1, .int 3], .dict [(.str p!"a", .ref 2)], .list [.str p!"b"]]

example : ∃ text, Encodes (Sample.program.world nested) {} (.ref 0) text ∧ ∀ u, Clean u.heap → ∃ x u',
    Decodes { Sample.program.env with v1 := true } text u x u' ∧
    SameGraph (Sim.orderOf {}) (Sim.handledOf (Sample.program.world nested)) nested (.ref 0) u'.heap x ∧ ∀ b < u.heap.length, u'.heap[b]? = u.heap[b]? := by
  refine round_trip (Sample.program.world nested) {} Sample.program.env (.ref 0) (Sample.program.matching nested {} rfl rfl rfl) (Sample.program.plain _) (Sample.safeOk_none rfl)
    (Sample.supported_of trivial (by decide) (by decide) (by decide) (fun a ha => ?_)) (Sample.textOk_of (by decide) (by decide)) (fun text j he hl => ?_)
  · have ha : a < 3 := ha
    match a, ha with
    | 0, _ => exact .list ⟨trivial, trivial, trivial⟩
    | 1, _ => exact .dict (Sample.entriesOk_of (by decide) (by decide))
    | 2, _ => exact .list ⟨trivial, trivial⟩
  · have hd : Sample.res (Pickler.flattenTop (Sample.program.world nested) {} 9 (.ref 0) true {}) = some (.ok (.arr [.obj [(p!"a", .arr [.str p!"b"])], .int 3])) := by decide +kernel
    have ht : Encodes (Sample.program.world nested) {} (.ref 0) ((Sample.program.world nested).dumps (.arr [.obj [(p!"a", .arr [.str p!"b"])], .int 3])) := by
      cases hf : Pickler.flattenTop (Sample.program.world nested) {} 9 (.ref 0) true {} with
      | none => rw [hf] at hd; cases hd
      | some p =>
        obtain ⟨r, s'⟩ := p
        rw [hf] at hd
        injection hd with hd
        subst hd
        exact ⟨9, s', fun m s hm => bind_ok (show Pickler.flatten _ _ m _ {} = _ from Pickler.flatten_mono hm hf)⟩
    rw [he.unique ht] at hl
    have hw : Sample.program.env.loads ((Sample.program.world nested).dumps (.arr [.obj [(p!"a", .arr [.str p!"b"])], .int 3])) = some (.arr [.obj [(p!"a", .arr [.str p!"b"])], .int 3]) :=
      (Sample.program.matching nested {} rfl rfl rfl).loads _ ⟨⟨by decide, strOk_of_ascii (by decide), ⟨strOk_of_ascii (by decide), trivial⟩, trivial⟩, trivial, trivial⟩
    rw [hw] at hl
    cases hl
    exact keys_of_mem rfl (by decide +kernel)

end JP.C82
