import Verif.Proofs.PInst
import Verif.Proofs.PPlain
import Verif.ApiSpec
import Verif.Sample
/-!
# C13 — `max_depth` bounds how deep encode looks

With references enabled (the default) the document has at most `2*d + 2` levels, or `3*d + 2` if dates and times occur.  The property fails in
three situations, shown by witnesses: objects that swallow exceptions of nested calls, enum members, and
the flattening cache used when references are off.
-/
namespace JP.C13
open JP PyM Pickler

/-- With `max_depth = M` the document produced for any value nests at most `3*M + 2` arrays/objects: three
per level (`{"__reduce__": [cls, [state, tzinfo]]}`, written for dates and times) and two for a `bytearray` leaf.
Missing from the full property: as for `depth_bound_partial`. -/
theorem depth_bound_dates_partial (w : World) (cfg : PCfg) (M : Nat) (hM : cfg.maxDepth = some (M : Int))
    (hr : cfg.unpicklable = true ∧ cfg.makeRefs = true)
    (v : Val) (hc : ¬ Catches w (From w v)) (hf : cfg.failSafe = none) (he : ¬ HasEnum w (From w v))
    (n : Nat) (s s1 : PState) (j : Json)
    (h : flattenTop w cfg n v true s = some (.ok j, s1)) : j.depth ≤ 3 * M + 2 := by
  simp only [flattenTop, if_true] at h
  have := flatten_bound (p := 3) ⟨by decide, fun _ _ => by decide⟩ hM hr hc hf he (s := {}) (by show (-1 : Int) + 1 ≤ _; omega) h
  simp only at this
  omega

/-- Without the handler of dates and times, the document nests at most `2*M + 2` arrays/objects: two
per level (`{"py/reduce": [...]}`) and two for a `bytearray` leaf.
Missing from the full property: `make_refs=False`/`unpicklable=False`, `fail_safe`, enum members, and
objects that swallow exceptions. -/
theorem depth_bound_partial (w : World) (cfg : PCfg) (M : Nat) (hM : cfg.maxDepth = some (M : Int))
    (hr : cfg.unpicklable = true ∧ cfg.makeRefs = true) (hd : ∀ c, w.handler c ≠ some .datetime)
    (v : Val) (hc : ¬ Catches w (From w v)) (hf : cfg.failSafe = none) (he : ¬ HasEnum w (From w v))
    (n : Nat) (s s1 : PState) (j : Json)
    (h : flattenTop w cfg n v true s = some (.ok j, s1)) : j.depth ≤ 2 * M + 2 := by
  simp only [flattenTop, if_true] at h
  have := flatten_bound (p := 2) ⟨by decide, fun c h => absurd h (hd c)⟩ hM hr hc hf he (s := {}) (by show (-1 : Int) + 1 ≤ _; omega) h
  simp only at this
  omega

/-- is the value a container or object (as opposed to a scalar, `bytes` or `bytearray`)? -/
def isContainer : Val → Bool
  | .none | .bool _ | .int _ | .float _ | .str _ | .bytes _ _ | .bytearray _ _ => false
  | _ => true

/-- the value is a member of an enum -/
def Member (w : World) (v : Val) : Prop := ∃ a i, v = .ref a ∧ w.heap[(a : Nat)]? = some (.inst i) ∧ i.info.isEnum = true

/-- A container (but no member of an enum) met when the counter is one below the limit is written as its `repr` string. -/
theorem at_limit_repr (w : World) (cfg : PCfg) (hr : cfg.unpicklable = true ∧ cfg.makeRefs = true)
    (n : Nat) (v : Val) (hv : isContainer v = true) (hen : ¬ Member w v) (s : PState)
    (hM : cfg.maxDepth = some (s.depth + 1)) (r : Str) (hrep : w.repr v = .ok r) :
    ∃ s1, flatten w cfg (n + 1) v s = some (.ok (.str r), s1) := by
  have hen : isEnumV w v = false := by
    refine Bool.eq_false_iff.2 (fun h => hen ?_)
    unfold isEnumV at h
    split at h
    · split at h
      · exact ⟨_, _, rfl, by assumption, h⟩
      · cases h
    · cases h
  have key : ∃ s1, (do push; let j ← flattenObj w cfg (flatten w cfg n) v; pop j) s =
      some (.ok (.str r), s1) := by
    simp only [flattenObj, flattenObjWith, push, bind_run, modify_run, maxReached, gets_run,
      PyM.tryCatch, inCycle, hen, hM, hrep]
    simp [pop, bind_run]
  have hc : (cfg.unpicklable && cfg.makeRefs) = true := by simp [hr]
  cases v <;> simp only [isContainer] at hv <;> try cases hv
  all_goals
    simp only [flatten, flattenStep, cached, hc, if_true, flattenImpl]
    exact key

/-- Plain data (`None`, bools, numbers, strings, lists and string-keyed dicts without reserved keys) is cut at exactly the level `d`, with every combination of the
other options: the document is the data with the lists and dicts at level `d` replaced by their `repr` and everything else written out.  No list or dict
may occur twice down to that level (below it the data is not looked at: it may be shared, cyclic or not plain at all). -/
theorem cut_exactly (w : World) (cfg : PCfg) (d : Nat) (hM : cfg.maxDepth = some (d : Int)) (v : Val) (j : Json) (ht : IsCut w.repr w.heap d v j) (hd : j.Distinct)
    (hk : ∀ k ∈ j.keys, k ∉ Tags.all) (hesc : cfg.keys = true → ∀ k ∈ j.keys, startsWith k p!"json://" = false) : Encodes w cfg v (w.dumps j) := by
  obtain ⟨as, hs, hn⟩ := ht
  have hkey : ∀ k ∈ j.keys, KeyOk cfg k := by
    refine fun k hm => ⟨?_, fun h => hesc h k hm⟩
    rw [Bool.eq_false_iff]
    intro h
    exact hk k hm (List.mem_append_left _ (List.contains_iff_mem.1 h))
  have hl : Levels cfg (-1) (some d) := by
    unfold Levels
    rw [hM]
    simp
  obtain ⟨s', h1, _⟩ := writes_tree hl (j.depth + 1) hs hn hkey hd (Nat.le_refl _) {} rfl ⟨(fun _ _ h => by cases h), (fun _ h => by cases h)⟩
  refine ⟨j.depth + 1, s', fun m s hm => ?_⟩
  refine (bind_ok (a := j) (s' := s') ?_).trans rfl
  exact flatten_mono hm h1

/-- `[[x], 1]` with a cyclic `x` meets the conditions for `max_depth=2` -/
example : IsCut (Sample.world [.list [.ref 1, .int 1], .list [.ref 2], .list [.ref 2]]).repr [.list [.ref 1, .int 1], .list [.ref 2], .list [.ref 2]] 2 (.ref 0)
    (.arr [.arr [.str p!"R"], .int 1]) := by
  refine ⟨[0, 1, 2], ⟨by simp, 0, _, [1, 2], rfl, rfl, ⟨_, _, [1, 2], [], rfl, ⟨by simp, 1, _, [2], rfl, rfl, ⟨_, _, [2], [], rfl, .inr ⟨rfl, ⟨2, _, rfl, rfl, .inl ⟨_, rfl⟩⟩, rfl, 2, rfl, rfl⟩,
    ⟨rfl, rfl⟩, rfl⟩, rfl⟩, ⟨_, _, [], [], rfl, ⟨rfl, rfl⟩, ⟨rfl, rfl⟩, rfl⟩, rfl⟩, rfl⟩, by decide⟩

/-- `[[[1]]]` with `max_depth=2`: the list at depth 2 is written as its `repr` -/
example : Sample.res (flattenTop (Sample.world [.list [.ref 1], .list [.ref 2], .list [.int 1]])
    { maxDepth := some 2 } 5 (.ref 0) true {}) = some (.ok (.arr [.arr [.str p!"R"]])) := by decide +kernel

/-- the hypotheses of `depth_bound_partial` are met by a cyclic list -/
example : ¬ Catches (Sample.world [.list [.ref 0, .tuple 0 [.int 1]]])
      (From (Sample.world [.list [.ref 0, .tuple 0 [.int 1]]]) (.ref 0)) ∧
    ¬ HasEnum (Sample.world [.list [.ref 0, .tuple 0 [.int 1]]])
      (From (Sample.world [.list [.ref 0, .tuple 0 [.int 1]]]) (.ref 0)) ∧
    Sample.res (flattenTop (Sample.world [.list [.ref 0, .tuple 0 [.int 1]]]) { maxDepth := some 1 } 5
      (.ref 0) true {}) = some (.ok (.arr [.str p!"R", .str p!"R"])) := by
  refine ⟨?_, ?_, by decide +kernel⟩
  · rintro ⟨a, i, _, h, _⟩
    cases a <;> simp [Sample.world] at h
  · rintro ⟨a, i, _, h, _⟩
    cases a <;> simp [Sample.world] at h

/-- the bound is attained: a reduce tuple holding a bytearray at `max_depth=1` has 4 levels -/
example : Sample.res (flattenTop (Sample.world
      [.inst { cls := p!"m.C", info := { reduces := true }, reduce := .tup [.bytearray 0 [], .none] }])
      { maxDepth := some 1 } 5 (.ref 0) true {}) =
    some (.ok (.obj [(Tags.REDUCE, .arr [.obj [(Tags.BYTEARRAY, .obj [(Tags.B64, .str [])])], .null])])) := by
  decide +kernel

/-- a `datetime` whose `tzinfo` reduces to a call with a tuple holding a bytearray -/
def dateWorld : World :=
  { Sample.world [.inst { cls := p!"datetime.datetime", hfields := [(p!"state", .bytes 0 []), (p!"tzinfo", .ref 1), (p!"class", .type p!"datetime.datetime")] },
      .inst { cls := p!"m.Z", info := { reduces := true }, reduce := .tup [.type p!"m.Z", .tuple 0 [.bytearray 0 []]] }] with
    handler := fun c => if c = p!"datetime.datetime" then some .datetime else none }

/-- Dates nest three levels: at `max_depth=3` this one has 9 levels, more than `2*3 + 2`. -/
theorem date_exceeds : (Sample.res (flattenTop dateWorld { maxDepth := some 3 } 9 (.ref 0) true {})).map (fun r => r.toOption.map Json.depth) = some (some 9) := by
  decide +kernel

/-- Counterexample: `[x, [x]]` with `x = [[1]]`, `make_refs=False`, `max_depth=2`.  `x` sits at depth 2 the
second time and should be written as its `repr`, but the cached result is used. -/
theorem cache_exceeds :
    Sample.res (flattenTop (Sample.world [.list [.ref 1, .ref 2], .list [.ref 3], .list [.ref 1], .list [.int 1]])
      { makeRefs := false, maxDepth := some 2 } 9 (.ref 0) true {}) =
    some (.ok (.arr [.arr [.str p!"R"], .arr [.arr [.str p!"R"]]])) := by decide +kernel

/-- Counterexample: an enum member is written out at the limit. -/
theorem enum_exceeds :
    Sample.res (flattenTop (Sample.world [.list [.ref 1],
      .inst { cls := p!"m.E", info := { isEnum := true }, attrs := [(p!"v", .int 1)] }])
      { maxDepth := some 1 } 9 (.ref 0) true {}) =
    some (.ok (.arr [.obj [(Tags.OBJECT, .str p!"m.E"), (p!"v", .int 1)]])) := by decide +kernel

/-- `n` nested lists starting in cell `k` -/
def chain : Nat → Nat → Heap
  | _, 0 => [.list []]
  | k, n + 1 => .list [.ref (k + 1)] :: chain (k + 1) n

/-- A slots object whose first attribute has a broken `__repr__` and whose second one is a long chain of
lists. -/
def slotsHeap : Heap :=
  .inst { cls := p!"m.S", info := { hasDict := false, hasSlots := true, slots := [p!"x", p!"y"] },
          attrs := [(p!"x", .ref 1), (p!"y", .ref 2)] } ::
  .inst { cls := p!"m.B" } ::
  chain 2 8

def brokenRepr : World :=
  { Sample.world slotsHeap with
    repr := fun v => match v with
      | .ref 1 => .error .attributeError
      | _ => .ok p!"R" }

/-- Counterexample: the `AttributeError` of the broken `__repr__` is swallowed, the depth counter stays at
the limit, the next attribute is encoded above it, and since the limit is tested by equality the bound
is lost: 10 levels with `max_depth=1`. -/
theorem swallowed_error_exceeds :
    (Sample.res (flattenTop brokenRepr { maxDepth := some 1 } 20 (.ref 0) true {})).map
      (fun r => r.toOption.map Json.depth) = some (some 10) := by decide +kernel

end JP.C13
