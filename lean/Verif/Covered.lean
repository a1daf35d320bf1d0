import Verif.Supported
import Verif.TextSpec
/-! # The hypotheses of the round-trip theorems in one place -/
namespace JP

/-- The value is made of supported objects, options and environment of both sides match, and all strings and
numbers can be told from their JSON text. -/
structure Covered (w : World) (cfg : PCfg) (env : UEnv) (v : Val) : Prop where
  matching : Matching w cfg env
  plain : PlainText w
  safe : SafeOk cfg
  supported : Supported w.heap env v
  text : TextOk w.heap v

/-- a handler is registered for the class -/
def hasHandler (w : World) (c : Str) : Bool := (w.handler c).isSome

end JP
