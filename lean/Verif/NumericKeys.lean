import Verif.JsonText
import Verif.Api
/-!
# `numeric_keys`

With `numeric_keys=True` and `keys=False` the keys of a dictionary that are `int` or `float` (also `bool`) are not replaced by their `repr`
(pickler.py:482-483).  The document then has keys that are numbers, and it is `json` that turns them into text.

The documents of the model have text as keys.  So a key that is a number is represented by its text after a mark that occurs in no text:
`1` and `"1"` are two keys, as they are in Python.  Nothing else in the encoder looks at these keys; hence the encoder with the option is the
one without in a world where `repr` of a number returns the marked text, and the backend removes the marks.

With `keys=True` such keys never get to the lines that look at the option: `_flatten_string_key_value_pair` returns before (pickler.py:846-848),
and `_flatten_non_string_key_value_pair` (820-829) does not look at it.

Simplification: keys that are instances of subclasses of `int` or `float` (for example members of an `IntEnum`) are not treated as numbers here.
Two keys that are equal numbers do not occur in one dictionary.
-/
namespace JP.NumericKeys
open JP

/-- the mark: no character has this number -/
def MARK : Nat := 0x110000

/-- `json` on the keys of a dictionary (`json.encoder`): `true`, `false`, and numbers as they are written elsewhere.  `none` if the key is not a
number. -/
def keyText (F : JsonText.FloatText) : Val → Option Str
  | .bool b => some (if b then p!"true" else p!"false")
  | .int i => some (JsonText.intText i)
  | .float f => some (F.show f)
  | _ => none

/-- pickler.py:482-488: a number is left as it is -/
def repr (F : JsonText.FloatText) (w : World) (v : Val) : Except Exc Str :=
  match keyText F v with
  | some t => .ok (MARK :: t)
  | none => w.repr v

/-- a key as `json` writes it -/
def unmark : Str → Str
  | [] => []
  | c :: t => if c = MARK then t else c :: t

mutual
/-- the document with all keys as `json` writes them -/
def plain : Json → Json
  | .arr xs => .arr (plains xs)
  | .obj kvs => .obj (plainKv kvs)
  | j => j
def plains : List Json → List Json
  | [] => []
  | x :: xs => plain x :: plains xs
def plainKv : List (Str × Json) → List (Str × Json)
  | [] => []
  | (k, x) :: kvs => (unmark k, plain x) :: plainKv kvs
end

/-- the world in which numbers stay numbers -/
def world (F : JsonText.FloatText) (w : World) : World :=
  { w with repr := repr F w, dumps := fun j => w.dumps (plain j) }

/-- pickler.py:21-178 `encode(value, numeric_keys=True, …)` -/
def encode (F : JsonText.FloatText) (w : World) (cfg : PCfg) (fuel : Nat) (v : Val) (reset : Bool := true) : P Str :=
  if cfg.keys then Api.encode w cfg fuel v reset else Api.encode (world F w) cfg fuel v reset

end JP.NumericKeys
