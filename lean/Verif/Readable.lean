import Verif.Pickler
/-! # Decorative values of numpy views -/
namespace JP.Pickler
open PyM

/-- ext/numpy.py:293-313 `_flatten_values_for_readability`: snapshot `_objs` and `_flattened`, flatten the
values (`context.flatten(obj.tolist(), reset=False)`, ext/numpy.py:117), put the snapshot back. -/
def flattenReadable (w : World) (cfg : PCfg) (n : Nat) (values : Val) : P Json := do
  let saved ← get
  let j ← flattenTop w cfg n values false
  modify (fun s => { s with objs := saved.objs, flattened := saved.flattened })
  pure j

end JP.Pickler

/-! ### Arrays stored by reference

`base` and `values` stand for any objects; offset, strides, shape, dtype and flags are entries that need no pickler. -/
namespace JP.ViewValues
open JP PyM Pickler

variable (w : World) (cfg : PCfg) (n : Nat)

/-- ext/numpy.py:282-304 with the entries `extra` of `NumpyNDArrayHandler.flatten` (ext/numpy.py:114-122) besides `values`.  If
flattening raises, the tables are not put back. -/
def flattenValues (values : Val) (extra : List (Str × Json)) (data : List (Str × Json)) : P (List (Str × Json)) := do
  let j ← flattenReadable w cfg n values
  pure (dset p!"values" j (extra.foldl (fun d e => dset e.1 e.2 d) data))

/-- ext/numpy.py:326-350, an array stored by reference; `small`: the size is within the threshold (ext/numpy.py:347). -/
def flattenView (small : Bool) (base values : Val) (rest extra : List (Str × Json)) (data : List (Str × Json)) : P (List (Str × Json)) := do
  let j ← flattenTop w cfg n base false
  let d := rest.foldl (fun d e => dset e.1 e.2 d) (dset p!"base" j data)
  if small then flattenValues w cfg n values extra d else pure d

/-- What a pickler does in the course of a document: flatten an object, or a view. -/
inductive Item
  | obj (v : Val)
  | view (base values : Val) (rest extra data : List (Str × Json))

/-- `small` decides which arrays get their values written (ext/numpy.py:347: the size threshold). -/
def flattenItem (small : Item → Bool) : Item → P Json
  | .obj v => flatten w cfg n v
  | .view b v r e d => do
    let d ← flattenView w cfg n (small (.view b v r e d)) b v r e d
    pure (.obj d)

/-- the objects and views of a document, one after the other -/
def flattenItems (small : Item → Bool) (is : List Item) : P (List Json) := PyM.mapM (flattenItem w cfg n small) is

end JP.ViewValues
