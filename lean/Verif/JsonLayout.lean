import Verif.JsonText
import Verif.Api
/-!
# The layout of JSON text — models `json.dumps(obj, indent=…, separators=…)` as called by jsonpickle/backend.py:213-227

`encode(…, indent=…, separators=…)` (pickler.py:36-37, 176-178) hands both to the backend; `set_encoder_options` (backend.py:259-279) can set them
for all texts.  `Verif/JsonText.lean` is the default layout.
-/
namespace JP.JsonText
open JP

/-- what is written around the elements of a list or dict that is nested in `n` others: after the opening bracket, between two elements, before the
closing bracket, and between a key and its value -/
structure Layout where
  opening : Nat → Str
  between : Nat → Str
  closing : Nat → Str
  colon : Str

/-- a line break and `n` times the indentation (`json.encoder._make_iterencode`: `newline_indent = '\n' + _indent * _current_indent_level`) -/
def newline (indent : Str) : Nat → Str
  | 0 => [10]
  | n + 1 => newline indent n ++ indent

/-- `json.JSONEncoder.__init__`: `indent` is the text for one level (`' ' * indent` for a number), `separators` the pair given by the caller.
With an indentation and without separators, the item separator is a bare comma. -/
def Layout.of (indent : Option Str) (separators : Option (Str × Str)) : Layout :=
  let item := match separators with
    | some s => s.1
    | none => if indent.isSome then [44] else [44, 32]
  let colon := match separators with
    | some s => s.2
    | none => [58, 32]
  match indent with
  | none => { opening := fun _ => [], between := fun _ => item, closing := fun _ => [], colon := colon }
  | some t => { opening := fun n => newline t (n + 1), between := fun n => item ++ newline t (n + 1), closing := newline t, colon := colon }

variable (ft : FloatText) (L : Layout)

mutual
/-- `json.dumps` of a value nested in `n` lists and dicts -/
def pretty (n : Nat) : Json → Str
  | .null => p!"null"
  | .bool b => if b then p!"true" else p!"false"
  | .int i => intText i
  | .float f => ft.show f
  | .str s => 34 :: escStr s
  | .arr [] => p!"[]"
  | .arr (x :: xs) => 91 :: (L.opening n ++ (pretty (n + 1) x ++ prettyL n xs))
  | .obj [] => p!"{}"
  | .obj ((k, x) :: kvs) => 123 :: (L.opening n ++ 34 :: (escStr k ++ (L.colon ++ (pretty (n + 1) x ++ prettyKv n kvs))))
/-- the remaining elements and the closing bracket -/
def prettyL (n : Nat) : List Json → Str
  | [] => L.closing n ++ [93]
  | x :: xs => L.between n ++ (pretty (n + 1) x ++ prettyL n xs)
/-- the remaining entries and the closing brace -/
def prettyKv (n : Nat) : List (Str × Json) → Str
  | [] => L.closing n ++ [125]
  | (k, x) :: kvs => L.between n ++ 34 :: (escStr k ++ (L.colon ++ (pretty (n + 1) x ++ prettyKv n kvs)))
end

/-- pickler.py:156-178 `encode(value, indent=…, separators=…)`.  The texts of dictionary keys (pickler.py:810-818) are made without them. -/
def encode (w : World) (cfg : PCfg) (fuel : Nat) (v : Val) (reset : Bool := true) : P Str := do
  let j ← Pickler.flattenTop w cfg fuel v reset
  pure (pretty ft L 0 j)

end JP.JsonText
