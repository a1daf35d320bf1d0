import Verif.Proofs.POptionSteps
import Verif.Proofs.RoundTrip
import Verif.GraphSpec
import Verif.SampleRound
/-!
# C86 — Options have an effect only on the objects they are about

`keys=True` changes nothing for a graph in which all keys of dictionaries and all attribute names are ordinary
strings, `use_base85=True` nothing without byte strings, `max_iter=n` nothing unless there is an iterator with
more than `n` items, and `fail_safe` nothing if `encode` succeeds without it and swallows no exception.  The last
condition is needed: objects with slots skip an attribute if encoding its value raises `AttributeError`, and
`fail_safe` sees that exception first.
-/
namespace JP.C86
open JP PyM Pickler Options

/-- everything that is reached from `v` -/
theorem from_ {w : World} {v x : Val} {p : Val → Prop} (h : ∀ x, Within w.heap v x → p x) (h1 : p .none) (h2 : p (.str Tags.NEWOBJ))
    (hx : From w v x) : p x := by
  rcases hx with hx | rfl | rfl
  · exact h x hx
  · exact h1
  · exact h2

theorem encode_eq {w : World} {c c' : PCfg} {v : Val} (h : ∀ n, flatten w c n v = flatten w c' n v) (n : Nat) (reset : Bool) :
    Api.encode w c n v reset = Api.encode w c' n v reset := by
  unfold Api.encode flattenTop
  rw [h n]

/-- `keys=True` has no effect if all keys are ordinary strings: the same text, or the same exception, whatever the
other options are. -/
theorem keys_irrelevant (w : World) (c : PCfg) (v : Val)
    (h : ∀ x, Within w.heap v x → ∀ k, KeyOf w.heap x k → Ordinary k) (n : Nat) (reset : Bool) (s : PState) :
    Api.encode w { c with keys := true } n v reset s = Api.encode w { c with keys := false } n v reset s := by
  refine congrFun (encode_eq (fun n => POptions.flatten_congr (root := v) (fun fl x hx => ?_) n v (.inl .self)) n reset) s
  exact POptions.step_keys c (fun x hx => from_ (p := fun x => ∀ k, KeyOf w.heap x k → Ordinary k) h (fun k hk => by cases hk) (fun k hk => by cases hk) hx) fl x hx

/-- `use_base85=True` has no effect if there are no byte strings. -/
theorem base85_irrelevant (w : World) (c : PCfg) (v : Val)
    (h : ∀ x, Within w.heap v x → (∀ i b, x ≠ .bytes i b) ∧ ∀ i b, x ≠ .bytearray i b) (n : Nat) (reset : Bool) (s : PState) :
    Api.encode w { c with useBase85 := true } n v reset s = Api.encode w { c with useBase85 := false } n v reset s := by
  refine congrFun (encode_eq (fun n => POptions.flatten_congr (root := v) (fun fl x hx => ?_) n v (.inl .self)) n reset) s
  exact POptions.step_base85 c (fun x hx => from_ (p := fun x => (∀ i b, x ≠ .bytes i b) ∧ ∀ i b, x ≠ .bytearray i b) h ⟨nofun, nofun⟩ ⟨nofun, nofun⟩ hx) fl x hx

/-- `max_iter=n` has no effect if every iterator has fewer than `n` items left, or exactly `n` and then ends
without an exception. -/
theorem max_iter_irrelevant (w : World) (c : PCfg) (v : Val) (l : Nat)
    (h : ∀ a i, Within w.heap v (.ref a) → w.heap[a]? = some (.inst i) → i.info.isIterator = true →
      i.elems.length < l ∨ (i.elems.length = l ∧ i.errs.iter = none)) (n : Nat) (reset : Bool) (s : PState) :
    Api.encode w { c with maxIter := some l } n v reset s = Api.encode w { c with maxIter := none } n v reset s := by
  refine congrFun (encode_eq (fun n => POptions.flatten_congr (root := v) (fun fl x hx => ?_) n v (.inl .self)) n reset) s
  refine POptions.step_iter c l (fun a i ha => ?_) fl x hx
  rcases ha with ha | ha | ha
  · exact h a i ha
  · cases ha
  · cases ha

/-- no object for which `encode` catches exceptions of nested calls: one with slots and without `__dict__`, or one
whose `__reduce__` returns the name of something that can be looked up -/
def NothingCaught (h : Heap) (v : Val) : Prop :=
  ∀ a i, Within h v (.ref a) → h[a]? = some (.inst i) →
    (i.info.hasSlots = true → i.info.hasDict = true) ∧ (i.info.reduces = true → ∀ x, i.reduce ≠ .str (some x))

/-- If `encode` returns a text without `fail_safe`, it returns the same text with it. -/
theorem fail_safe_irrelevant (w : World) (c : PCfg) (v : Val) (f : Exc → Except Exc Json) (hc : NothingCaught w.heap v)
    (n : Nat) (reset : Bool) (s s' : PState) (text : Str)
    (h : Api.encode w { c with failSafe := none } n v reset s = some (.ok text, s')) :
    Api.encode w { c with failSafe := some f } n v reset s = some (.ok text, s') := by
  have hc' : ¬ Catches w (From w v) := by
    rintro ⟨a, i, ha, hi, h⟩
    rcases ha with ha | ha | ha
    · rcases h with ⟨_, _, h1, h2⟩ | ⟨h1, x, h2⟩
      · rw [(hc a i ha hi).1 h2] at h1
        cases h1
      · exact (hc a i ha hi).2 h1 x h2
    · cases ha
    · cases ha
  have hr := POptions.flatten_safe (c := c) (some f) hc' n v (.inl .self)
  have ht : POptions.Ref (flattenTop w { c with failSafe := none } n v reset) (flattenTop w { c with failSafe := some f } n v reset) (fun _ => True) := by
    unfold flattenTop
    split
    · exact POptions.Ref.bind (Q := fun _ => True) POptions.Ref.refl (fun _ _ => hr)
    · exact hr
  exact (POptions.Ref.bind ht (fun j _ => POptions.Ref.refl) s text s' h).1

/-- In particular the two sides of a round trip need not agree about `keys` if all keys are ordinary strings. -/
theorem mixed_keys (w : World) (c : PCfg) (env : UEnv) (v : Val) (e d : Bool) (hm : Matching w { c with keys := d } { env with keys := d })
    (hp : PlainText w) (hf : SafeOk c) (hs : Supported w.heap { env with keys := d } v) (ht : TextOk w.heap v)
    (h : ∀ x, Within w.heap v x → ∀ k, KeyOf w.heap x k → Ordinary k) :
    ∃ text, Encodes w { c with keys := e } v text ∧ ∀ u, ∃ x u', Decodes { env with keys := d } text u x u' ∧
      SameGraph (writeOrder d) (fun c => (w.handler c).isSome) w.heap v u'.heap x := by
  obtain ⟨t, h1, h2⟩ := round_trip hm hp hf hs ht
  have he : ∀ n s, Api.encode w { c with keys := e } n v true s = Api.encode w { c with keys := d } n v true s := by
    intro n s
    cases e <;> cases d <;> first | rfl | exact keys_irrelevant w c v h n true s | exact (keys_irrelevant w c v h n true s).symm
  refine ⟨t, ?_, fun u => ?_⟩
  · obtain ⟨n, s', h1⟩ := h1
    exact ⟨n, s', fun m s hm => (he m s).trans (h1 m s hm)⟩
  · obtain ⟨x, u', g1, g2, _⟩ := h2 u
    exact ⟨x, u', g1, g2⟩

/-! ### examples -/

/-- the keys of one object, checked -/
def plainKeys : Obj → Bool
  | .dict kvs => kvs.all fun kv => match kv.1 with
    | .str s => !startsWith s Tags.JSON_KEY && !Tags.isReserved s
    | _ => false
  | .inst i => (i.attrs.all fun kv => !startsWith kv.1 Tags.JSON_KEY && !Tags.isReserved kv.1) && i.items.all fun kv => match kv.1 with
    | .str s => !startsWith s Tags.JSON_KEY && !Tags.isReserved s
    | _ => false
  | _ => true

theorem ordinary_of {h : Heap} (hh : h.all plainKeys = true) {x k : Val} (hk : KeyOf h x k) : Ordinary k := by
  have cell : ∀ {a : Nat} {o : Obj}, h[a]? = some o → plainKeys o = true := fun ha => List.all_eq_true.1 hh _ (List.mem_of_getElem? ha)
  have key : ∀ {k : Val}, (match k with | .str s => !startsWith s Tags.JSON_KEY && !Tags.isReserved s | _ => false) = true → Ordinary k := by
    intro k hk
    cases k <;> simp at hk
    exact ⟨_, rfl, hk.1, hk.2⟩
  cases hk with
  | entry ha hk => exact key (List.all_eq_true.1 (cell ha) _ hk)
  | item ha hk => exact key (List.all_eq_true.1 ((Bool.and_eq_true ..).mp (cell ha)).2 _ hk)
  | attr ha hk =>
    have := List.all_eq_true.1 ((Bool.and_eq_true ..).mp (cell ha)).1 _ hk
    simp at this
    exact ⟨_, rfl, this.1, this.2⟩
  | own _ _ ha hk => exact key (List.all_eq_true.1 (cell ha) _ hk)

/-- written without `keys=True` and read with it, and the other way round: a graph with every supported kind of object -/
example (e d : Bool) : ∃ text, Encodes (Sample.program.world Sample.graph) { keys := e } (.ref 0) text ∧ ∀ u, ∃ x u',
    Decodes (Sample.program.env d) text u x u' ∧
    SameGraph (writeOrder d) (fun c => (dget c Sample.program.handlers).isSome) Sample.graph (.ref 0) u'.heap x :=
  mixed_keys _ {} (Sample.program.env false) _ e d (Sample.program.matching Sample.graph { keys := d } rfl rfl rfl) (Sample.program.plain _)
    (Sample.safeOk_none rfl) (Sample.graph_supported d) Sample.graph_text (fun _ _ _ hk => ordinary_of (by decide +kernel) hk)

/-- `[{"a": o}, iter([1, 2]), o]` where `o` has the attribute `x = (1,)` -/
def heap : Heap :=
  [.list [.ref 1, .ref 2, .ref 3],
   .dict [(.str p!"a", .ref 3)],
   .inst { cls := p!"m.It", info := { isIterator := true, hasDict := false }, elems := [.int 1, .int 2] },
   .inst { cls := p!"m.O", attrs := [(p!"x", .tuple 7 [.int 1])] }]

def Known (x : Val) : Prop := x = .none ∨ (∃ k : Nat, k < 4 ∧ x = .ref k) ∨ (∃ i, x = .int i) ∨ x = .str p!"a" ∨ x = .str p!"x" ∨ ∃ i xs, x = .tuple i xs ∧ ∀ y ∈ xs, ∃ n, y = .int n

theorem known {x : Val} (h : Within heap (.ref 0) x) : Known x := by
  induction h with
  | self => exact .inr (.inl ⟨0, by omega, rfl⟩)
  | step h t ih =>
    rcases ih with rfl | ⟨k, hk, rfl⟩ | ⟨i, rfl⟩ | rfl | rfl | ⟨i, xs, rfl, hxs⟩
    · cases t
    · have : k = 0 ∨ k = 1 ∨ k = 2 ∨ k = 3 := by omega
      rcases this with rfl | rfl | rfl | rfl
      · cases t with
        | list hh hx =>
          cases hh
          have : ∀ x ∈ [Val.ref 1, .ref 2, .ref 3], Known x := by
            intro x hx
            simp only [List.mem_cons, List.not_mem_nil, or_false] at hx
            rcases hx with rfl | rfl | rfl
            · exact .inr (.inl ⟨1, by omega, rfl⟩)
            · exact .inr (.inl ⟨2, by omega, rfl⟩)
            · exact .inr (.inl ⟨3, by omega, rfl⟩)
          exact this _ hx
        | dictKey hh _ => cases hh
        | dictVal hh _ => cases hh
        | inst hh _ => cases hh
      · cases t with
        | list hh hx => cases hh
        | dictKey hh hx =>
          cases hh
          cases List.mem_singleton.1 hx
          exact .inr (.inr (.inr (.inl rfl)))
        | dictVal hh hx =>
          cases hh
          cases List.mem_singleton.1 hx
          exact .inr (.inl ⟨3, by omega, rfl⟩)
        | inst hh _ => cases hh
      · cases t with
        | list hh hx => cases hh
        | dictKey hh hx => cases hh
        | dictVal hh hx => cases hh
        | inst hh hx =>
          cases hh
          cases hx with
          | elem hx =>
            simp only [List.mem_cons, List.not_mem_nil, or_false] at hx
            rcases hx with rfl | rfl
            · exact .inr (.inr (.inl ⟨_, rfl⟩))
            · exact .inr (.inr (.inl ⟨_, rfl⟩))
          | newargs => exact .inr (.inr (.inr (.inr (.inr ⟨_, _, rfl, fun y hy => by cases hy⟩))))
          | newargsEx1 => exact .inl rfl
          | newargsEx2 => exact .inl rfl
          | initargs => exact .inl rfl
          | exemplar => exact .inl rfl
          | state h => cases h; exact .inl rfl
          | attrName h | attr h | slotName h | dictKey h | dictVal h | itemKey h | itemVal h | stateKey h | stateVal h | reduceElem h | reduceTarget h | factory h | dirName h | dirAttr h | hfieldName h | hfield h => cases h
      · cases t with
        | list hh hx => cases hh
        | dictKey hh hx => cases hh
        | dictVal hh hx => cases hh
        | inst hh hx =>
          cases hh
          cases hx with
          | attrName h =>
            cases List.mem_singleton.1 h
            exact .inr (.inr (.inr (.inr (.inl rfl))))
          | attr h =>
            cases List.mem_singleton.1 h
            exact .inr (.inr (.inr (.inr (.inr ⟨_, _, rfl, fun y hy => ⟨_, List.mem_singleton.1 hy⟩⟩))))
          | newargs => exact .inr (.inr (.inr (.inr (.inr ⟨_, _, rfl, fun y hy => by cases hy⟩))))
          | newargsEx1 => exact .inl rfl
          | newargsEx2 => exact .inl rfl
          | initargs => exact .inl rfl
          | exemplar => exact .inl rfl
          | state h => cases h; exact .inl rfl
          | elem h | slotName h | dictKey h | dictVal h | itemKey h | itemVal h | stateKey h | stateVal h | reduceElem h | reduceTarget h | factory h | dirName h | dirAttr h | hfieldName h | hfield h => cases h
    · cases t
    · cases t
    · cases t
    · cases t with
      | tuple h => exact .inr (.inr (.inl (hxs _ h)))

/-- The hypotheses of all four theorems hold for that graph. -/
example : (∀ x, Within heap (.ref 0) x → ∀ k, KeyOf heap x k → Ordinary k) ∧
    (∀ x, Within heap (.ref 0) x → (∀ i b, x ≠ .bytes i b) ∧ ∀ i b, x ≠ .bytearray i b) ∧
    (∀ a i, Within heap (.ref 0) (.ref a) → heap[a]? = some (.inst i) → i.info.isIterator = true →
      i.elems.length < 2 ∨ (i.elems.length = 2 ∧ i.errs.iter = none)) ∧
    NothingCaught heap (.ref 0) := by
  have four : ∀ {a : Nat} {o : Obj}, heap[a]? = some o → a = 0 ∨ a = 1 ∨ a = 2 ∨ a = 3 := by
    intro a o h
    have := (List.getElem?_eq_some_iff.1 h).1
    have h4 : heap.length = 4 := rfl
    omega
  refine ⟨fun x _ k hk => ?_, fun x hx => ?_, fun a i _ h hi => ?_, fun a i _ h => ?_⟩
  · exact ordinary_of (by decide +kernel) hk
  · rcases known hx with rfl | ⟨k, _, rfl⟩ | ⟨i, rfl⟩ | rfl | rfl | ⟨i, xs, rfl, _⟩ <;> exact ⟨nofun, nofun⟩
  · rcases four h with rfl | rfl | rfl | rfl <;> cases h
    · exact .inr ⟨rfl, rfl⟩
    · cases hi
  · rcases four h with rfl | rfl | rfl | rfl <;> cases h <;> exact ⟨fun h => (by first | rfl | cases h), fun h => by cases h⟩

example : Sample.res (flattenTop (Sample.world heap) { keys := true, useBase85 := true, maxIter := some 2, failSafe := some (fun _ => .ok .null) } 9 (.ref 0) true {}) =
    some (.ok (.arr [.obj [(p!"a", .obj [(p!"py/object", .str p!"m.O"), (p!"x", .obj [(p!"py/tuple", .arr [.int 1])])])],
      .obj [(p!"py/object", .str p!"m.It"), (p!"py/iterator", .arr [.int 1, .int 2])], .obj [(p!"py/id", .int 2)]])) := by decide +kernel

/-- an object with the slots `x` and `y`; `x` refers to an object whose `__getstate__` raises `AttributeError` -/
def slotted : Heap :=
  [.inst { cls := p!"m.S", info := { hasDict := false, hasSlots := true, slots := [p!"x", p!"y"] }, attrs := [(p!"x", .ref 1), (p!"y", .int 1)] },
   .inst { cls := p!"m.B", info := { ownGetstate := true }, state := .error .attributeError }]

/-- The last condition is needed: without `fail_safe` the attribute is skipped, with `fail_safe` it is written as
what the callback returned. -/
theorem swallowed_exceptions :
    Sample.res (flattenTop (Sample.world slotted) {} 5 (.ref 0) true {}) =
      some (.ok (.obj [(p!"py/object", .str p!"m.S"), (p!"y", .int 1)])) ∧
    Sample.res (flattenTop (Sample.world slotted) { failSafe := some (fun _ => .ok (.str p!"failed")) } 5 (.ref 0) true {}) =
      some (.ok (.obj [(p!"py/object", .str p!"m.S"), (p!"x", .str p!"failed"), (p!"y", .int 1)])) := by decide +kernel

end JP.C86
