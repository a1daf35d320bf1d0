import Verif.Proofs.PInterrupt
import Verif.Sample
/-! # C47 — without `fail_safe` errors of user code are not swallowed -/
namespace JP.C47
open JP PyM Pickler

/-- Without `fail_safe`, wherever in the object graph user code raises: if two programs differ only in calls of user code that raise `e` in
the first, then `encode` raises `e` in the first, or none of these calls was reached and it does the same in both.  The exceptions:
`TypeError`, `AttributeError`, `KeyError` (see `not_raised`), and errors of `repr`, which is called for dictionary keys and has `str` as its
substitute. -/
theorem raised (e : Exc) (h1 : e ≠ .typeError) (h2 : e ≠ .attributeError) (h3 : e ≠ .keyError) (w w' : World) (cfg : PCfg)
    (hf : cfg.failSafe = none) (hw : WorldUntil e w w') (hr : w'.repr = w.repr) (n : Nat) (v : Val) (reset : Bool) (s : PState) :
    (∃ s1, Api.encode w cfg n v reset s = some (.error e, s1)) ∨ Api.encode w cfg n v reset s = Api.encode w' cfg n v reset s := by
  have hx : Passes e cfg w w' := ⟨h1, h2, h3, .inr ⟨hf, hr⟩⟩
  have hs : SafeUntil e cfg.failSafe cfg.failSafe := by rw [hf]; trivial
  exact (UntilRun.u_encode hw hx hs n v reset s).symm

/-- an object whose `__reduce_ex__` returns a name for the object in cell 2, the `__getstate__` of which raises; and a slots object with an
attribute that is such an object -/
def heap (e : Exc) : Heap :=
  [.inst { cls := p!"m.A", info := { reduces := true, hasDict := false }, reduce := .str (some (.ref 2)) },
   .inst { cls := p!"m.S", info := { hasDict := false, hasSlots := true, slots := [p!"x", p!"y"] }, attrs := [(p!"x", .ref 2), (p!"y", .int 1)] },
   .inst { cls := p!"m.B", info := { ownGetstate := true }, state := .error e }]

/-- the same without the error -/
def heapOk : Heap :=
  [.inst { cls := p!"m.A", info := { reduces := true, hasDict := false }, reduce := .str (some (.ref 2)) },
   .inst { cls := p!"m.S", info := { hasDict := false, hasSlots := true, slots := [p!"x", p!"y"] }, attrs := [(p!"x", .ref 2), (p!"y", .int 1)] },
   .inst { cls := p!"m.B", info := { ownGetstate := true }, state := .ok (.int 5) }]

/-- the hypotheses are met, for every exception -/
example (e : Exc) : WorldUntil e (Sample.world (heap e)) (Sample.world heapOk) ∧ (Sample.world heapOk).repr = (Sample.world (heap e)).repr :=
  ⟨⟨⟨.same _, .same _, .inst _ _ ⟨rfl, .inr rfl, .inl rfl, .inl rfl, .inl rfl, .inl rfl, .inl rfl, .inl ⟨rfl, rfl⟩, .inl ⟨rfl, rfl⟩⟩, trivial⟩,
    fun _ => .inl rfl, fun _ => .inl rfl, rfl, rfl⟩, rfl⟩

example : Sample.res (flattenTop (Sample.world (heap .valueError)) {} 5 (.ref 0) true {}) = some (.error .valueError) ∧
    Sample.res (flattenTop (Sample.world (heap .valueError)) {} 5 (.ref 1) true {}) = some (.error .valueError) ∧
    Sample.res (flattenTop (Sample.world heapOk) {} 5 (.ref 0) true {}) = some (.ok (.obj [(p!"py/object", .str p!"m.B"), (p!"py/state", .int 5)])) := by
  decide +kernel

/-- The three exceptions are swallowed, each in its place: a `TypeError` of `__getstate__` makes the object `null`; a `KeyError` from inside the
object that a string reduce value stands for makes the encoder fall back on the attributes; an `AttributeError` from inside the value
of a slot makes the slot disappear. -/
theorem not_raised :
    Sample.res (flattenTop (Sample.world (heap .typeError)) {} 5 (.ref 2) true {}) = some (.ok .null) ∧
    Sample.res (flattenTop (Sample.world (heap .keyError)) {} 5 (.ref 0) true {}) = some (.ok (.obj [(p!"py/object", .str p!"m.A")])) ∧
    Sample.res (flattenTop (Sample.world (heap .attributeError)) {} 5 (.ref 1) true {}) =
      some (.ok (.obj [(p!"py/object", .str p!"m.S"), (p!"y", .int 1)])) := by
  decide +kernel

end JP.C47
