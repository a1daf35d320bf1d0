import Verif.Pickler
/-!
# What a value is made of, and documents with other reference numbers

Written without the functions of the encoder: which objects can be found from a value, and a document with every reference
number made larger.
-/
namespace JP.Share
open JP

mutual
/-- the objects named by a value directly or inside tuples and sets -/
def named : Val → List Ident
  | .ref a => [.addr a]
  | .module n => [.mod n]
  | .tuple _ xs => namedL xs
  | .set _ xs => namedL xs
  | _ => []
def namedL : List Val → List Ident
  | [] => []
  | x :: xs => named x ++ namedL xs
end

/-- the values that an instance has, whatever the way to get them -/
def valuesOf (i : Inst) : List Val :=
  i.attrs.map (·.2) ++ i.items.map (·.2) ++ i.elems ++ i.dirAttrs.map (·.2) ++ i.hfields.map (·.2) ++
    [i.newargs, i.newargsEx.1, i.newargsEx.2, i.initargs, i.exemplar] ++
    (match i.state with
      | .ok v => [v]
      | .error _ => []) ++
    (match i.reduce with
      | .str (some v) => [v]
      | .tup xs => xs
      | _ => [])

/-- what can be found in the object in cell `a`: the elements of a list, the values of a dictionary (not its keys, which are
written as text), the values of an instance, its `__dict__`, the dictionary made from its state and its default factory -/
def found (w : World) (a : Addr) : List Ident :=
  match w.heap[a]? with
  | some (.list xs) => namedL xs
  | some (.dict kvs) => namedL (kvs.map (·.2))
  | some (.inst i) =>
    [.dictOf a, .stateOf a] ++ i.dictCell.toList.map Ident.addr ++ i.factory.toList.map Val.ident ++ namedL (valuesOf i)
  | _ => []

/-- The object can be reached from the value. -/
inductive Reach (w : World) (v : Val) : Ident → Prop
  | here {i} : i ∈ named v → Reach w v i
  | step {a i} : Reach w v (.addr a) → i ∈ found w a → Reach w v i

/-- `n + k`, for a number -/
def raise (k : Nat) : Json → Json
  | .int n => .int (n + k)
  | j => j

mutual
/-- the document with `k` added to every reference number -/
def bump (k : Nat) : Json → Json
  | .arr xs => .arr (bumps k xs)
  | .obj kvs => .obj (bumpKv k kvs)
  | j => j
def bumps (k : Nat) : List Json → List Json
  | [] => []
  | x :: xs => bump k x :: bumps k xs
def bumpKv (k : Nat) : List (Str × Json) → List (Str × Json)
  | [] => []
  | (t, x) :: xs => (t, if t = p!"py/id" then raise k x else bump k x) :: bumpKv k xs
end

/-- A `Pickler` that has met no object yet and is inside a container flattens the value with the result `r`, meeting `m` objects. -/
def Gives (w : World) (cfg : PCfg) (v : Val) (r : Except Exc Json) (m : Nat) : Prop :=
  ∃ n s, Pickler.flatten w cfg n v { depth := 0 } = some (r, s) ∧ s.objs.length = m

/-- `js` are the documents of the values `vs`, each one flattened alone, with the reference numbers made larger by the number of
objects met before: `k` before the first. -/
inductive Docs (G : Val → Except Exc Json → Nat → Prop) : Nat → List Val → List Json → Prop
  | nil {k} : Docs G k [] []
  | cons {k v vs j m js} : G v (.ok j) m → Docs G (k + m) vs js → Docs G k (v :: vs) (bump k j :: js)

/-- the first value that cannot be flattened alone raises `e` -/
def Raises (G : Val → Except Exc Json → Nat → Prop) (vs : List Val) (e : Exc) : Prop :=
  ∃ pre v post, vs = pre ++ v :: post ∧ (∀ u ∈ pre, ∃ j m, G u (.ok j) m) ∧ ∃ m, G v (.error e) m

/-- no object can be reached from two of the values -/
def Apart (w : World) (vs : List Val) : Prop := vs.Pairwise (fun u v => ∀ i, Reach w u i → ¬ Reach w v i)

end JP.Share
