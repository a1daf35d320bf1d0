import Verif.Value
/-!
# JSON text

jsonpickle hands a document to a JSON backend and stores what comes back; keys that are not strings are
written as JSON text inside a key (pickler.py:810-818).  The default backend is the standard library's
`json` when `simplejson` is not installed (backend.py:110-130), which is modelled here: `dumps` writes
with `ensure_ascii` and the separators `", "` and `": "`; `loads` reads JSON with optional white space.

Simplification: the text of a floating point number (`float.__repr__`) and its reading (`float(...)`) are
parameters.
-/
namespace JP.JsonText
open JP

/-- writing and reading floating point numbers (`float.__repr__` / `float`) -/
structure FloatText where
  «show» : UInt64 → Str
  read : Str → Option UInt64

/-! ### writing -/

/-- a hexadecimal digit -/
def hexDigit (n : Nat) : Nat := if n < 10 then 48 + n else 87 + n

/-- `'{0:04x}'.format(n)` -/
def hex4 (n : Nat) : Str :=
  [hexDigit (n / 4096 % 16), hexDigit (n / 256 % 16), hexDigit (n / 16 % 16), hexDigit (n % 16)]

/-- `'\\u{0:04x}'.format(n)` -/
def u4 (n : Nat) : Str := 92 :: 117 :: hex4 n

/-- one character inside a JSON string, with `ensure_ascii` (`json.encoder.py_encode_basestring_ascii`) -/
def escChar (c : Nat) : Str :=
  if c = 34 then [92, 34]
  else if c = 92 then [92, 92]
  else if c = 10 then [92, 110]
  else if c = 13 then [92, 114]
  else if c = 9 then [92, 116]
  else if c = 12 then [92, 102]
  else if c = 8 then [92, 98]
  else if 32 ≤ c ∧ c ≤ 126 then [c]
  else if c < 0x10000 then u4 c
  else u4 (0xD800 + (c - 0x10000) / 1024 % 1024) ++ u4 (0xDC00 + (c - 0x10000) % 1024)

/-- the characters of a string and the closing quote -/
def escStr : Str → Str
  | [] => [34]
  | c :: s => escChar c ++ escStr s

/-- decimal digits; `fuel` is at least the number of digits -/
def natText : Nat → Nat → Str
  | 0, _ => []
  | fuel + 1, n => if n < 10 then [48 + n] else natText fuel (n / 10) ++ [48 + n % 10]

/-- `int.__repr__` -/
def intText (i : Int) : Str :=
  match i with
  | .ofNat n => natText (n + 1) n
  | .negSucc n => 45 :: natText (n + 2) (n + 1)

variable (ft : FloatText)

mutual
/-- `json.dumps` -/
def dumps : Json → Str
  | .null => p!"null"
  | .bool b => if b then p!"true" else p!"false"
  | .int i => intText i
  | .float f => ft.show f
  | .str s => 34 :: escStr s
  | .arr [] => p!"[]"
  | .arr (x :: xs) => 91 :: (dumps x ++ dumpsL xs)
  | .obj [] => p!"{}"
  | .obj ((k, x) :: kvs) => 123 :: 34 :: (escStr k ++ 58 :: 32 :: (dumps x ++ dumpsKv kvs))
/-- the remaining elements and the closing bracket -/
def dumpsL : List Json → Str
  | [] => [93]
  | x :: xs => 44 :: 32 :: (dumps x ++ dumpsL xs)
/-- the remaining entries and the closing brace -/
def dumpsKv : List (Str × Json) → Str
  | [] => [125]
  | (k, x) :: kvs => 44 :: 32 :: 34 :: (escStr k ++ 58 :: 32 :: (dumps x ++ dumpsKv kvs))
end

/-! ### reading -/

/-- white space between tokens (`json.decoder.WHITESPACE`) -/
def isWs (c : Nat) : Bool := c == 32 || c == 9 || c == 10 || c == 13

def skipWs : Str → Str
  | [] => []
  | c :: s => if isWs c then skipWs s else c :: s

/-- value of a hexadecimal digit -/
def unhex (c : Nat) : Option Nat :=
  if 48 ≤ c ∧ c ≤ 57 then some (c - 48)
  else if 97 ≤ c ∧ c ≤ 102 then some (c - 87)
  else if 65 ≤ c ∧ c ≤ 70 then some (c - 55)
  else none

/-- four hexadecimal digits -/
def readHex4 : Str → Option (Nat × Str)
  | a :: b :: c :: d :: s => do
    let a ← unhex a
    let b ← unhex b
    let c ← unhex c
    let d ← unhex d
    some (((a * 16 + b) * 16 + c) * 16 + d, s)
  | _ => none

/-- a low surrogate written as an escape follows -/
def readLow : Str → Option (Nat × Str)
  | 92 :: 117 :: s => match readHex4 s with
    | some (n, s') => if 0xDC00 ≤ n ∧ n < 0xE000 then some (n, s') else none
    | none => none
  | _ => none

/-- a two-character escape -/
def unescape (c : Nat) : Option Nat :=
  if c = 34 then some 34
  else if c = 92 then some 92
  else if c = 47 then some 47
  else if c = 98 then some 8
  else if c = 102 then some 12
  else if c = 110 then some 10
  else if c = 114 then some 13
  else if c = 116 then some 9
  else none

/-- the rest of a string after the opening quote (`json.decoder.py_scanstring`): a high and a low
surrogate, both written as escapes, become one character -/
def readStr : Nat → Str → Option (Str × Str)
  | 0, _ => none
  | _ + 1, [] => none
  | fuel + 1, c :: s =>
    if c = 34 then some ([], s)
    else if c = 92 then
      match s with
      | [] => none
      | e :: s =>
        if e = 117 then
          match readHex4 s with
          | none => none
          | some (n, s) =>
            match (if 0xD800 ≤ n ∧ n < 0xDC00 then readLow s else none) with
            | some (m, s) => do
              let (t, r) ← readStr fuel s
              some ((0x10000 + (n - 0xD800) * 1024 + (m - 0xDC00)) :: t, r)
            | none => do
              let (t, r) ← readStr fuel s
              some (n :: t, r)
        else do
          let c ← unescape e
          let (t, r) ← readStr fuel s
          some (c :: t, r)
    else if c < 32 then none
    else do
      let (t, r) ← readStr fuel s
      some (c :: t, r)

/-- characters that end a number or a literal -/
def isDelim (c : Nat) : Bool := isWs c || c == 44 || c == 58 || c == 93 || c == 125 || c == 91 || c == 123 || c == 34

/-- a number or literal and what follows it -/
def word : Str → Str × Str
  | [] => ([], [])
  | c :: s => if isDelim c then ([], c :: s) else ((c :: (word s).1), (word s).2)

def isDigit (c : Nat) : Bool := 48 ≤ c && c ≤ 57

/-- digits without a leading zero -/
def isNat (s : Str) : Bool :=
  match s with
  | [] => false
  | [c] => isDigit c
  | c :: r => c != 48 && isDigit c && r.all isDigit

def natVal (s : Str) : Nat := s.foldl (fun n c => n * 10 + (c - 48)) 0

/-- an integer literal -/
def readInt (s : Str) : Option Int :=
  match s with
  | 45 :: r => if isNat r then some (-(natVal r : Int)) else none
  | s => if isNat s then some (natVal s : Int) else none

/-- a number or literal -/
def readWord (s : Str) : Option Json :=
  if s = p!"null" then some .null
  else if s = p!"true" then some (.bool true)
  else if s = p!"false" then some (.bool false)
  else match readInt s with
    | some i => some (.int i)
    | none => (ft.read s).map .float

mutual
/-- a value at the beginning of the text -/
def readV : Nat → Str → Option (Json × Str)
  | 0, _ => none
  | _ + 1, [] => none
  | fuel + 1, c :: s =>
    if c = 34 then do
      let (t, r) ← readStr (s.length + 1) s
      some (.str t, r)
    else if c = 91 then
      match skipWs s with
      | 93 :: r => some (.arr [], r)
      | s => do
        let (xs, r) ← readElems fuel s
        some (.arr xs, r)
    else if c = 123 then
      match skipWs s with
      | 125 :: r => some (.obj [], r)
      | s => do
        let (kvs, r) ← readEntries fuel [] s
        some (.obj kvs, r)
    else do
      let j ← readWord ft (word (c :: s)).1
      some (j, (word (c :: s)).2)
/-- elements up to the closing bracket -/
def readElems : Nat → Str → Option (List Json × Str)
  | 0, _ => none
  | fuel + 1, s => do
    let (x, s) ← readV fuel s
    match skipWs s with
    | 93 :: r => some ([x], r)
    | 44 :: s => do
      let (xs, r) ← readElems fuel (skipWs s)
      some (x :: xs, r)
    | _ => none
/-- entries up to the closing brace; a repeated key overwrites the earlier entry -/
def readEntries : Nat → List (Str × Json) → Str → Option (List (Str × Json) × Str)
  | 0, _, _ => none
  | fuel + 1, acc, s =>
    match s with
    | 34 :: s => do
      let (k, s) ← readStr (s.length + 1) s
      match skipWs s with
      | 58 :: s => do
        let (x, s) ← readV fuel (skipWs s)
        match skipWs s with
        | 125 :: r => some (dset k x acc, r)
        | 44 :: s => readEntries fuel (dset k x acc) (skipWs s)
        | _ => none
      | _ => none
    | _ => none
end

/-- `json.loads` -/
def loads (s : Str) : Option Json :=
  match readV ft (2 * s.length + 1) (skipWs s) with
  | some (j, r) => if skipWs r = [] then some j else none
  | none => none

end JP.JsonText
