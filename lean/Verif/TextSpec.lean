import Verif.JsonSpec
import Verif.Touch
import Verif.Pickler
/-!
# Which object graphs can be told from their JSON text

Conditions on strings and floating point numbers, independent of the encoder.
-/
namespace JP

/-- the strings and numbers that the value reaches can be told from their JSON text -/
structure TextOk (h : Heap) (root : Val) : Prop where
  str : ∀ s, Within h root (.str s) → StrOk s
  float : ∀ f, Within h root (.float f) → FloatOk f
  type : ∀ n, Within h root (.type n) → StrOk n
  func : ∀ n, Within h root (.func n) → StrOk n
  module : ∀ n, Within h root (.module n) → StrOk n
  cls : ∀ (a : Addr) i, Within h root (.ref a) → h[a]? = some (.inst i) → StrOk i.cls

/-- `repr` and `str` return text without surrogate pairs, and JSON text is ASCII (`ensure_ascii`) -/
structure PlainText (w : World) : Prop where
  repr : ∀ v s, w.repr v = .ok s → StrOk s
  pystr : ∀ v s, w.pystr v = .ok s → StrOk s
  dumps : ∀ j, ∀ c ∈ w.dumps j, c < 128

/-- what a user function given as `fail_safe` returns can be told from its JSON text -/
def SafeOk (cfg : PCfg) : Prop := ∀ f e j, cfg.failSafe = some f → f e = .ok j → j.Writable

end JP
