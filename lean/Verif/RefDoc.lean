import Verif.DocSpec
import Verif.Value
/-!
# What a document with references denotes

Documents made of scalars, lists, plain dicts and references `{"py/id": n}`.  The number `n` counts the lists
and dicts of the document — with `v1_decode=True`, the lists — in the order in which they begin, from 0.  Specification only.
-/
namespace JP

/-- the number given in a reference (`true` and `false` count as 1 and 0; anything else is no number) -/
def refNum : Json → Option Nat
  | .int n => if 0 ≤ n then some n.toNat else none
  | .bool b => some b.toNat
  | _ => none

mutual
/-- scalars, lists, plain dicts (with distinct keys) and references with non-negative numbers -/
def Json.RefDoc : Json → Prop
  | .arr xs => Json.RefDocL xs
  | .obj kvs => match tagOf kvs with
    | none => (kvs.map (·.1)).Nodup ∧ Json.RefDocKv kvs
    | some (t, j) => t = p!"py/id" ∧ ∀ n, j = .int n → 0 ≤ n
  | _ => True
def Json.RefDocL : List Json → Prop
  | [] => True
  | x :: xs => x.RefDoc ∧ Json.RefDocL xs
def Json.RefDocKv : List (Str × Json) → Prop
  | [] => True
  | (_, x) :: xs => x.RefDoc ∧ Json.RefDocKv xs
end

mutual
/-- the lists and dicts of the document (`v1`: only the lists), in the order in which they begin -/
def Json.containers (v1 : Bool) : Json → List Json
  | .arr xs => .arr xs :: Json.containersL v1 xs
  | .obj kvs => match tagOf kvs with
    | none => if v1 then Json.containersKv v1 kvs else .obj kvs :: Json.containersKv v1 kvs
    | some _ => []
  | _ => []
def Json.containersL (v1 : Bool) : List Json → List Json
  | [] => []
  | x :: xs => x.containers v1 ++ Json.containersL v1 xs
def Json.containersKv (v1 : Bool) : List (Str × Json) → List Json
  | [] => []
  | (_, x) :: xs => x.containers v1 ++ Json.containersKv v1 xs
end

mutual
/-- in heap `h`, `v` is the Python data that the document denotes, when `table` holds the objects that the
numbered lists and dicts became: references become the object with that number, or `None` -/
def Denotes (table : List Val) (h : Heap) (v : Val) : Json → Prop
  | .null => v = .none
  | .bool b => v = .bool b
  | .int i => v = .int i
  | .float f => v = .float f
  | .str s => v = .str s
  | .arr xs => ∃ a vs, v = .ref a ∧ h[a]? = some (.list vs) ∧ DenotesAll table h vs xs
  | .obj kvs => match tagOf kvs with
    | none => ∃ a es, v = .ref a ∧ h[a]? = some (.dict es) ∧ DenotesEntries table h es kvs
    | some (_, j) => v = ((refNum j).bind (fun n => table[n]?)).getD .none
def DenotesAll (table : List Val) (h : Heap) (vs : List Val) : List Json → Prop
  | [] => vs = []
  | x :: xs => ∃ v vs', vs = v :: vs' ∧ Denotes table h v x ∧ DenotesAll table h vs' xs
def DenotesEntries (table : List Val) (h : Heap) (es : List (Val × Val)) : List (Str × Json) → Prop
  | [] => es = []
  | (k, x) :: xs => ∃ v es', es = (.str k, v) :: es' ∧ Denotes table h v x ∧ DenotesEntries table h es' xs
end

end JP
