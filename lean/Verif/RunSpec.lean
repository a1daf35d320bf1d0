import Verif.Pickler
import Verif.GraphSpec
/-!
# Reading of runs

What the theorems about single objects (C15, C50) say about a run of the encoder.
-/
namespace JP

/-- the object is met for the first time at this point -/
def New (a : Addr) (s : PState) : Prop := Ident.addr a ∉ s.objs ∧ ∀ p ∈ s.flattened, p.1 ≠ .addr a

/-- the values are encoded one after the other, from the state `s` to the state `s'`: each continues with the numbering, the cache and the depth that
the one before has left -/
def InTurn (fl : Val → P Json) : PState → List Val → List Json → PState → Prop
  | s, [], [], s' => s = s'
  | s, v :: vs, j :: js, s' => ∃ s1, fl v s = some (.ok j, s1) ∧ InTurn fl s1 vs js s'
  | _, _, _, _ => False

/-- an exception was raised inside the object and `j` is what the `fail_safe` callback returned for it -/
def Replaced (cfg : PCfg) (j : Json) : Prop := ∃ f e, cfg.failSafe = some f ∧ f e = .ok j

end JP
