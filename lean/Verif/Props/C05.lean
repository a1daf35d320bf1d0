import Verif.Proofs.PRefs
import Verif.Proofs.RoundTrip
import Verif.Proofs.Run
import Verif.SampleCovered
/-!
# C05 — references emitted by encode are resolvable

Seen from the encoder the property holds for every graph: a reference is always a number, and smaller than the
number of things in the graph that get one.  Seen from the decoder it holds on covered graphs, where no
placeholder for a missing reference is ever made.  In general encoder and decoder count different things, and then
a reference leads to the wrong object or to none (witnesses).
-/
namespace JP.C05
open JP Sample

/-- Every `{"py/id": n}` in the document that `encode` writes carries a natural number that is smaller than the
number of things in the graph that can be referred to; in particular never `null`. -/
theorem references_in_range (w : World) (cfg : PCfg) (v : Val) (text : Str) (hu : cfg.unpicklable = true)
    (hm : cfg.makeRefs = true) (hn : NoFakeIds w cfg v) (things : List Ident)
    (hall : ∀ i, Numbered w.heap v i → i ∈ things) (he : Encodes w cfg v text) :
    ∃ j, text = w.dumps j ∧ RefsBelow things.length j := by
  obtain ⟨n, s', h⟩ := he
  have h := h n {} (Nat.le_refl _)
  unfold Api.encode at h
  rw [PyM.bind_run] at h
  split at h
  · cases h
  · cases h
  · next j s1 hr =>
    cases h
    exact ⟨j, rfl, Pickler.flatten_refs ⟨hu, hm⟩ hn hall (show Pickler.flatten w cfg n v {} = _ from hr)⟩

/-- `l = [d, d, l]` with `d = {"a": l}` -/
def loop : Heap := [.list [.ref 1, .ref 1, .ref 0], .dict [(.str p!"a", .ref 0)]]

theorem loop_within {x : Val} (h : Within loop (.ref 0) x) : x = .ref 0 ∨ x = .ref 1 ∨ x = .str p!"a" := by
  induction h with
  | self => exact .inl rfl
  | step _ ht ih =>
    rcases ih with rfl | rfl | rfl
    · cases ht with
      | list h hx => cases h; simp at hx; grind
      | dictKey h => cases h
      | dictVal h => cases h
      | inst h => cases h
    · cases ht with
      | list h => cases h
      | dictKey h hx => cases h; simp at hx; grind
      | dictVal h hx => cases h; simp at hx; grind
      | inst h => cases h
    · cases ht

/-- The hypotheses hold for this cyclic graph, whose references are 0 and 1. -/
example : ∃ j, (program.world loop).dumps j = p!"[{\"a\": {\"py/id\": 0}}, {\"py/id\": 1}, {\"py/id\": 0}]" ∧ RefsBelow 3 j := by
  have he : Encodes (program.world loop) {} (.ref 0) p!"[{\"a\": {\"py/id\": 0}}, {\"py/id\": 1}, {\"py/id\": 0}]" := by
    refine encodes_of_run (n := 10) ?_
    decide +kernel
  have hn : NoFakeIds (program.world loop) {} (.ref 0) := by
    refine ⟨fun a i kv h ha => ?_, fun k h => ?_, nofun⟩
    · rcases loop_within h with h | h | h <;> cases h <;> cases ha
    · rcases loop_within h with rfl | rfl | rfl <;> exact ⟨by decide +kernel, by decide +kernel⟩
  have hall : ∀ i, Numbered (program.world loop).heap (.ref 0) i → i ∈ [.addr 0, .addr 1, (Val.str p!"a").ident] := by
    intro i hi
    cases hi with
    | val h => rcases loop_within h with rfl | rfl | rfl <;> decide
    | state h ha => rcases loop_within h with h | h | h <;> cases h <;> cases ha
    | dict h ha => rcases loop_within h with h | h | h <;> cases h <;> cases ha
    | dictCell h ha => rcases loop_within h with h | h | h <;> cases h <;> cases ha
  obtain ⟨j, h1, h2⟩ := references_in_range (program.world loop) {} (.ref 0) _ rfl rfl hn _ hall he
  exact ⟨j, h1.symm, h2⟩

/-- Decoding what `encode` wrote never makes an `_IDProxy`, the placeholder for a reference to an object that has
not been seen: all references resolve at once.  (That they resolve to the right objects is C08 and C12.)
Missing from the full property: graphs outside `Covered`, where it is false, see below. -/
theorem no_dangling_partial (w : World) (cfg : PCfg) (env : UEnv) (v x : Val) (text : Str) (u u' : UState)
    (hc : Covered w cfg env v) (he : Encodes w cfg v text) (hd : Decodes env text u x u') (b : Nat) (n : Int)
    (hb : u'.heap[b]? = some (.idproxy n)) : u.heap[b]? = some (.idproxy n) :=
  (hc.heap he hd).2 b n hb

/-- the cyclic sample graph -/
example (text : Str) (x : Val) (u' : UState) (he : Encodes (program.world graph) {} (.ref 0) text)
    (hd : Decodes program.env text {} x u') (b : Nat) (n : Int) : u'.heap[b]? ≠ some (.idproxy n) := by
  intro hb
  have := no_dangling_partial _ _ _ _ _ _ _ _ (covered false) he hd b n hb
  cases this

/-- such a text and result exist -/
example : ∃ text x u', Encodes (program.world graph) {} (.ref 0) text ∧ Decodes program.env text {} x u' :=
  (covered false).total {}

/-- the classes of the witnesses -/
def classes : Program where
  infos := [(p!"m.B", { reduces := true }), (p!"m.X", { hasNewargsEx := true }), (p!"m.I", { hasNewargs := true, hasInitargs := true })]
  funcs := [p!"m.f"]
  handlers := [(p!"m.Z", .drop)]

/-- `b.__reduce__()` returns the name of the function `m.f`.  `encode([b, p, q, p])` with lists `p = []` and
`q = [1]` gives `b` the number 1 although it is not written as an object; the decoder counts differently, and the
last element of the result is `q`. -/
theorem string_reduce_shifts : classes.TripsTo
    [.list [.ref 1, .ref 2, .ref 3, .ref 2], .inst { cls := p!"m.B", info := { reduces := true }, reduce := .str (some (.func p!"m.f")) },
      .list [], .list [.int 1]] {} (.ref 0) (.ref 0)
    [.list [.func p!"m.f", .ref 1, .ref 2, .ref 2], .list [], .list [.int 1]] :=
  Program.tripsTo 10 (by decide +kernel)

/-- A singleton whose `__reduce__` returns its own name: `encode([b])` is `[{"py/id": 1}]`, where number 1 is
nothing but the reference itself; the result is `[None]`. -/
theorem singleton_dangling : classes.TripsTo
    [.list [.ref 1], .inst { cls := p!"m.B", info := { reduces := true }, reduce := .str (some (.ref 1)) }] {} (.ref 0) (.ref 0)
    [.list [.none], .proxy] :=
  Program.tripsTo 10 (by decide +kernel)

/-- A handler whose `flatten` returns `None` (as for open files) leaves no trace of the number that the object got:
`decode(encode([z, p, q, p]))` is `[None, p, q, q]`. -/
theorem dropping_handler_shifts : classes.TripsTo
    [.list [.ref 1, .ref 2, .ref 3, .ref 2], .inst { cls := p!"m.Z" }, .list [], .list [.int 1]] {} (.ref 0) (.ref 0)
    [.list [.none, .ref 1, .ref 2, .ref 2], .list [], .list [.int 1]] :=
  Program.tripsTo 10 (by decide +kernel)

/-- `__getnewargs_ex__` returning `((), {})`: the empty dict gets a number when it is written, but is not restored
when it is read, because it is falsy. -/
theorem empty_kwargs_shift : classes.TripsTo
    [.list [.ref 1, .ref 2, .ref 3, .ref 2], .inst { cls := p!"m.X", info := { hasNewargsEx := true }, newargsEx := (.tuple 1 [], .ref 4) },
      .list [], .list [.int 1], .dict []] {} (.ref 0) (.ref 0)
    [.list [.ref 2, .ref 3, .ref 4, .ref 4], .proxy, .inst p!"m.X" [] [] [], .list [], .list [.int 1]] :=
  Program.tripsTo 10 (by decide +kernel)

/-- A class with both `__getnewargs__` and `__getinitargs__`: both are written, only the first is read. -/
theorem two_argument_lists_shift : classes.TripsTo
    [.list [.ref 1, .ref 2, .ref 3, .ref 2],
      .inst { cls := p!"m.I", info := { hasNewargs := true, hasInitargs := true }, newargs := .tuple 1 [], initargs := .tuple 2 [.ref 4] },
      .list [], .list [.int 1], .dict []] {} (.ref 0) (.ref 0)
    [.list [.ref 2, .ref 3, .ref 4, .ref 4], .proxy, .inst p!"m.I" [] [] [], .list [], .list [.int 1]] :=
  Program.tripsTo 10 (by decide +kernel)

/-- A list subclass with a `_fields` attribute of the same length: its elements are restored twice, as arguments of `__new__` and as
elements.  The last element of the result is a dict instead of the list `p`. -/
theorem fields_shift : { classes with infos := (p!"m.F", { base := .list, numFields := some 1 }) :: classes.infos }.TripsTo
    [.list [.ref 1, .ref 2, .ref 3, .ref 2], .inst { cls := p!"m.F", info := { base := .list, numFields := some 1 }, elems := [.ref 4] },
      .list [], .list [.int 1], .dict []] {} (.ref 0) (.ref 0)
    [.list [.ref 4, .ref 6, .ref 7, .ref 3], .proxy, .list [.ref 3], .dict [], .inst p!"m.F" [] [] [.ref 5], .dict [], .list [], .list [.int 1]] :=
  Program.tripsTo 10 (by decide +kernel)

end JP.C05
