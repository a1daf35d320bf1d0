import Verif.Api
import Verif.Readonly
/-!
# The `sort_keys` option of the encoder

`set_encoder_options(name, sort_keys=True)` (backend.py:259-279).  The option has two effects.  The backend's `dumps` writes the entries of every
object in the order of their keys; and `Pickler.flatten` sorts the attributes of the object that it is given.  The attributes of all other objects
are flattened in the order that they have.
-/
namespace JP.SortKeys
open JP PyM Readonly

/-- `sorted(d.items())` of the standard `json` module: entries by key; strings are compared code point by code point -/
def insertKv (e : Str × Json) : List (Str × Json) → List (Str × Json)
  | [] => [e]
  | f :: fs => if strLe e.1 f.1 then e :: f :: fs else f :: insertKv e fs

mutual
/-- The document whose text `json.dumps(j, sort_keys=True)` is: at every object of `j` the entries are written in the order of their keys
(backend.py:213-227 passes the option on to `dumps`). -/
def sortDoc : Json → Json
  | .arr xs => .arr (sortL xs)
  | .obj kvs => .obj (sortKv kvs)
  | j => j
def sortL : List Json → List Json
  | [] => []
  | x :: xs => sortDoc x :: sortL xs
def sortKv : List (Str × Json) → List (Str × Json)
  | [] => []
  | (k, x) :: xs => insertKv (k, sortDoc x) (sortKv xs)
end

/-- `some` of the strings if all keys are strings -/
def strKeys : List (Val × Val) → Option (List (Str × Val))
  | [] => some []
  | (.str k, v) :: r => (strKeys r).map ((k, v) :: ·)
  | _ => none

/-- pickler.py:274-292 `_sort_attrs(obj)`: the heap in which the attributes of `v` are sorted.  The `__dict__` is a *new* dict afterwards.  A value
without `__dict__` is left alone, and so is one whose `__dict__` has keys that cannot be compared (line 289).
Simplifications: a `__dict__` with keys that are not strings is left alone even if the keys can be compared; setting `__dict__` succeeds. -/
def sortRoot (h : Heap) (warn : Bool) : Val → Except Exc Heap
  | .ref a => match h[a]? with
    | some (.inst i) =>
      if i.info.hasSlots && warn then .error .typeError
      else if i.info.hasDict then
        match i.dictCell with
        | none => .ok (h.set a (.inst { i with attrs := sorted i.attrs }))
        | some d => match h[d]? with
          | some (.dict kvs) => match strKeys kvs with
            | some as => .ok (h.set a (.inst { i with attrs := sorted as, dictCell := none }))
            | none => .ok h
          | _ => .ok h
      else .ok h
    | _ => .ok h
  | _ => .ok h

/-- The world in which an `encode` with the option runs: the attributes of the root are sorted, and texts (that of the result, and with `keys=True`
those in keys) are written with sorted entries. -/
def sortedWorld (w : World) (h : Heap) : World := { w with heap := h, dumps := fun j => w.dumps (sortDoc j) }

/-- pickler.py:156-178 `encode(value, …)` with the option set: pickler.py:267-272 `_determine_sort_keys` holds, so `flatten` (lines 378-383) calls
`_sort_attrs` first.  Simplification: with `keys=True` the attributes of an instance that is a *key* are flattened in the order that they have
(the code sorts them as well, because the text of a key is made by a call of `encode`). -/
def encode (w : World) (cfg : PCfg) (warn : Bool) (fuel : Nat) (v : Val) (reset : Bool := true) : P Str := do
  if reset then Pickler.reset
  match sortRoot w.heap warn v with
  | .error e => throw e
  | .ok h => Api.encode (sortedWorld w h) cfg fuel v reset

end JP.SortKeys
