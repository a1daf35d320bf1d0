import Verif.DecEq
import Verif.Pickler
import Verif.Unpickler
/-!
# Sample worlds

Small concrete environments used to show that hypotheses are satisfiable and to exhibit
counterexamples.
-/
namespace JP.Sample
open JP

deriving instance DecidableEq for PState

mutual
/-- a simple injective rendering of documents (only used in samples) -/
def dumps : Json → Str
  | .null => p!"n"
  | .bool b => if b then p!"t" else p!"f"
  | .int i => 105 :: (toString i).toList.map (·.toNat)
  | .float b => 102 :: (toString b.toNat).toList.map (·.toNat)
  | .str s => 34 :: s ++ [34]
  | .arr xs => 91 :: dumpsL xs ++ [93]
  | .obj kvs => 123 :: dumpsKv kvs ++ [125]
def dumpsL : List Json → Str
  | [] => []
  | x :: xs => dumps x ++ 44 :: dumpsL xs
def dumpsKv : List (Str × Json) → Str
  | [] => []
  | (k, x) :: xs => 34 :: k ++ 34 :: 58 :: (dumps x ++ 44 :: dumpsKv xs)
end

/-- every object prints as `R` -/
def world (h : Heap) : World where
  heap := h
  repr _ := .ok p!"R"
  pystr _ := .ok p!"S"
  dumps := dumps
  handler _ := none

def res {σ α : Type} (r : Option (Except Exc α × σ)) : Option (Except Exc α) := r.map (·.1)

def st {σ α : Type} (r : Option (Except Exc α × σ)) : Option σ := r.map (·.2)

end JP.Sample
