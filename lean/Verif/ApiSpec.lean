import Verif.Api
/-!
# What `encode` and `decode` return

Big-step relations for the public functions, with their default `reset=True` and no given context.
-/
namespace JP

/-- `encode(v, …)` returns `text`, whatever the `Pickler` was used for before -/
def Encodes (w : World) (cfg : PCfg) (v : Val) (text : Str) : Prop :=
  ∃ n s', ∀ m s, n ≤ m → Api.encode w cfg m v true s = some (.ok text, s')

/-- `decode(text, …)` in state `u` (only the Python heap matters) returns `x` and leaves the state `u'` -/
def Decodes (env : UEnv) (text : Str) (u : UState) (x : Val) (u' : UState) : Prop :=
  ∃ n, ∀ m, n ≤ m → Api.decode env m text true true u = some (.ok x, u')

end JP
