import Verif.KeySpec
import Verif.Proofs.PInst
import Verif.Sample
/-!
# C07 — `unpicklable=False` produces plain JSON without type information

As stated the property is false of the code: bytes, bytearrays, types, iterators and constructor
arguments keep their tags (witnesses below).  The theorem bounds the damage: no other tag can appear.
-/
namespace JP.C07
open JP Pickler

/-- the tags that can appear although `unpicklable=False` was asked for -/
def leaking : List Str :=
  [Tags.B64, Tags.B85, Tags.BYTEARRAY, Tags.TYPE, Tags.NEWARGS, Tags.NEWARGSEX, Tags.INITARGS,
   Tags.ITERATOR, Tags.DEFAULT_FACTORY]

/-- Whatever is encoded with `unpicklable=False`, the only wire tags among the keys of the document are
the leaking ones.  The hypotheses say that user code does not write wire tags itself: the `repr` of a
dictionary key, the field names written by custom handlers, and the results of `fail_safe`.
Missing from the full property: that none of the leaking tags appears. -/
theorem only_leaking_tags_partial (w : World) (cfg : PCfg) (hu : cfg.unpicklable = false)
    (hrepr : ∀ v s, (∀ t, v ≠ .str t) → KeyText w v s → s ∉ Tags.all)
    (hfield : ∀ (a : Addr) (i : Inst) (kv : Str × Val),
      w.heap[a]? = some (.inst i) → kv ∈ i.hfields → kv.1 ∉ Tags.all)
    (hsafe : ∀ f e j, cfg.failSafe = some f → f e = .ok j → ∀ k ∈ j.keys, k ∉ Tags.all)
    (n : Nat) (v : Val) (s s1 : PState) (j : Json)
    (h : flattenTop w cfg n v true s = some (.ok j, s1)) :
    ∀ k ∈ j.keys, k ∈ Tags.all → k ∈ leaking := by
  have rules : KeyRules w cfg (fun k => k ∈ Tags.all → k ∈ leaking) := by
    refine ⟨?_, ?_, ?_, ?_, ?_, ?_, ?_, ?_, ?_⟩
    · intro h; rw [hu] at h; cases h
    · decide +kernel
    · intro k hk hall
      simp only [Tags.isReserved, List.contains_eq_mem, decide_eq_false_iff_not] at hk
      rcases List.mem_append.mp hall with h | h
      · exact (hk h).elim
      · simp only [leaking, List.mem_cons] at h ⊢
        grind
    · intro v s hv hr hall; exact (hrepr v s hv (reprKey_text hr) hall).elim
    · intro j hall
      have : ∀ t ∈ Tags.all, startsWith t Tags.JSON_KEY = false := by decide +kernel
      have h1 := this _ hall
      have h2 : startsWith (Tags.JSON_KEY ++ w.dumps j) Tags.JSON_KEY = true := by simp [startsWith]
      rw [h2] at h1
      cases h1
    · intro a i kv ha hkv hall; exact (hfield a i kv ha hkv hall).elim
    · intro h; rw [hu] at h; cases h
    · decide +kernel
    · intro f e j hf he k hk hall; exact (hsafe f e j hf he k hk hall).elim
  simp only [flattenTop, if_true] at h
  exact flatten_keys rules (s := {}) (by intro p hp; cases hp) h

/-- the hypotheses are met, and the encoder returns: an instance holding a tuple -/
example : ∃ w v j s1, (∀ v s, (∀ t, v ≠ .str t) → KeyText w v s → s ∉ Tags.all) ∧
    flattenTop w { unpicklable := false } 5 v true {} = some (.ok j, s1) ∧
    j.keys = [p!"x"] := by
  refine ⟨Sample.world [.inst { cls := p!"m.C", attrs := [(p!"x", .tuple 0 [.int 1])] }], .ref 0,
    .obj [(p!"x", .arr [.int 1])], _, ?_, rfl, rfl⟩
  intro v s hv hr
  exact hr.all_of (Q := fun s => s ∉ Tags.all) (by decide +kernel) (fun _ _ h => by cases h; decide +kernel) (fun _ _ h => by cases h; decide +kernel) hv

/-- Counterexample: bytes keep their tag. -/
theorem bytes_leak : Sample.res (flattenTop (Sample.world []) { unpicklable := false } 1 (.bytes 0 [97]) true {})
    = some (.ok (.obj [(Tags.B64, .str p!"YQ==")])) := by decide +kernel

/-- Counterexample: a bytearray keeps its tag. -/
theorem bytearray_leak :
    Sample.res (flattenTop (Sample.world []) { unpicklable := false } 1 (.bytearray 0 [97]) true {})
    = some (.ok (.obj [(Tags.BYTEARRAY, .obj [(Tags.B64, .str p!"YQ==")])])) := by decide +kernel

/-- Counterexample: a class keeps its tag. -/
theorem type_leak :
    Sample.res (flattenTop (Sample.world []) { unpicklable := false } 1 (.type p!"m.C") true {})
    = some (.ok (.obj [(Tags.TYPE, .str p!"m.C")])) := by decide +kernel

/-- Counterexample: `__getnewargs__` values keep their tag. -/
theorem newargs_leak :
    Sample.res (flattenTop (Sample.world
      [.inst { cls := p!"m.C", info := { hasNewargs := true }, newargs := .tuple 0 [.int 1] }]) { unpicklable := false } 5 (.ref 0) true {})
    = some (.ok (.obj [(Tags.NEWARGS, .arr [.int 1])])) := by decide +kernel

/-- Counterexample: an iterator keeps its tag. -/
theorem iterator_leak :
    Sample.res (flattenTop (Sample.world
      [.inst { cls := p!"m.C", info := { isIterator := true }, elems := [.int 1] }]) { unpicklable := false } 5 (.ref 0) true {})
    = some (.ok (.obj [(Tags.ITERATOR, .arr [.int 1])])) := by decide +kernel

end JP.C07
