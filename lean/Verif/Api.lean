import Verif.Unpickler
/-!
# `encode` and `decode`
-/
namespace JP.Api
open JP PyM

/-- pickler.py:156-178 `encode(value, …)`: `backend.encode(context.flatten(value, reset=reset), …)`.
The context is the state; a new context is the state `{}`.  Simplification: the backend is one that
accepts every document (`indent` and `separators` only concern the layout of the text). -/
def encode (w : World) (cfg : PCfg) (fuel : Nat) (v : Val) (reset : Bool := true) : P Str := do
  let j ← Pickler.flattenTop w cfg fuel v reset
  pure (w.dumps j)

/-- unpickler.py:99-125 `decode(string, …)`: `backend.decode`, then `context.restore`; a context made for
this call (`own`) is reset at the end (lines 121-124). -/
def decode (env : UEnv) (fuel : Nat) (text : Str) (reset : Bool := true) (own : Bool := true) : U Val :=
  match env.loads text with
  | none => throw .valueError
  | some j => do
    let x ← Unpickler.restoreTop env fuel j reset
    if own then Unpickler.reset
    pure x

end JP.Api
