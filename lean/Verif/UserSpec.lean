import Verif.Pickler
import Verif.GraphSpec
/-!
# Programs that differ only where user code raises

The encoder calls user code in many places: `repr` and `str` (also as dictionary keys), `__getstate__`, `__reduce__`/`__reduce_ex__`,
`__getnewargs__`, `__getnewargs_ex__`, `__getinitargs__`, the `flatten` method of handlers, default factories, `__next__` of iterators and the
`fail_safe` callback.  Here: what it means that two programs are the same except that some of these calls raise the exception `e` in the first
and do something else in the second.
-/
namespace JP

/-- the same result, unless the first is the exception `e` -/
def Outcome {α : Type} (e : Exc) (r r' : Except Exc α) : Prop := r = r' ∨ r = .error e

/-- The two instances differ at most in calls of their methods, of their handler, of their factory and of their `__next__` that raise `e` in
the first: a handler has written part of its fields by then, an iterator has yielded part of its items. -/
structure InstUntil (e : Exc) (i i' : Inst) : Prop where
  others : i' = { i with newargs := i'.newargs, newargsEx := i'.newargsEx, initargs := i'.initargs, state := i'.state, reduce := i'.reduce, exemplar := i'.exemplar, hfields := i'.hfields, elems := i'.elems, errs := i'.errs }
  state : Outcome e i.state i'.state
  reduce : i.reduce = i'.reduce ∨ i.reduce = .raise e
  newargs : Outcome e (outcome i.errs.newargs i.newargs) (outcome i'.errs.newargs i'.newargs)
  newargsEx : Outcome e (outcome i.errs.newargsEx i.newargsEx) (outcome i'.errs.newargsEx i'.newargsEx)
  initargs : Outcome e (outcome i.errs.initargs i.initargs) (outcome i'.errs.initargs i'.initargs)
  factory : Outcome e (outcome i.errs.factory i.exemplar) (outcome i'.errs.factory i'.exemplar)
  handler : i.errs.handler = i'.errs.handler ∧ i.hfields = i'.hfields ∨ i.errs.handler = some e ∧ ∃ more, i'.hfields = i.hfields ++ more
  iter : i.errs.iter = i'.errs.iter ∧ i.elems = i'.elems ∨
    (i.info.base = .plain ∧ i.errs.iter = some e ∧ i.info.isIterator = true ∧ ∃ more, i'.elems = i.elems ++ more)

/-- the same for heap cells: lists and dicts are equal -/
inductive CellUntil (e : Exc) : Obj → Obj → Prop
  | same (o : Obj) : CellUntil e o o
  | inst (i i' : Inst) : InstUntil e i i' → CellUntil e (.inst i) (.inst i')

/-- The two programs differ at most in calls of user code that raise `e` in the first. -/
structure WorldUntil (e : Exc) (w w' : World) : Prop where
  cell : All2 (CellUntil e) w.heap w'.heap
  repr : ∀ v, Outcome e (w.repr v) (w'.repr v)
  pystr : ∀ v, Outcome e (w.pystr v) (w'.pystr v)
  dumps : w'.dumps = w.dumps
  handler : w'.handler = w.handler

/-- The `fail_safe` callbacks differ at most in calls that raise `e` in the first. -/
def SafeUntil (e : Exc) : Option (Exc → Except Exc Json) → Option (Exc → Except Exc Json) → Prop
  | none, none => True
  | some f, some f' => ∀ e', Outcome e (f e') (f' e')
  | _, _ => False

/-- No `except` clause of the encoder stops the exception: it is not one that a `try` around a call of user code is meant for (`TypeError` from
`__getstate__` and `__reduce_ex__`, `AttributeError` from an attribute of an object with slots, `KeyError` while the string that `__reduce__`
returned is resolved), and it is not an `Exception` (`KeyboardInterrupt`, `SystemExit`), or there is no `fail_safe` and it is not raised by
`repr` (which is tried for dictionary keys, with `str` in case of failure). -/
structure Passes (e : Exc) (cfg : PCfg) (w w' : World) : Prop where
  typeError : e ≠ .typeError
  attributeError : e ≠ .attributeError
  keyError : e ≠ .keyError
  rest : e.isException = false ∨ cfg.failSafe = none ∧ w'.repr = w.repr

end JP
