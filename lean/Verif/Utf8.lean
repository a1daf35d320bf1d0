import Verif.Value
/-!
# UTF-8 (`str.encode()` / `bytes.decode()`), used by `ext/pandas.py` and `ext/numpy.py`

Standard library behaviour, modelled from the Unicode standard: strict, no surrogates, no overlong forms.
-/
namespace JP

/-- The UTF-8 bytes of one code point; `none` = `UnicodeEncodeError` (surrogates; a Python `str` has no
code point above 0x10FFFF). -/
def utf8Char (c : Nat) : Option (List Nat) :=
  if c < 0x80 then some [c]
  else if c < 0x800 then some [0xC0 + c / 64, 0x80 + c % 64]
  else if c < 0x10000 then
    if 0xD800 ≤ c ∧ c ≤ 0xDFFF then none
    else some [0xE0 + c / 4096, 0x80 + c / 64 % 64, 0x80 + c % 64]
  else if c < 0x110000 then
    some [0xF0 + c / 262144, 0x80 + c / 4096 % 64, 0x80 + c / 64 % 64, 0x80 + c % 64]
  else none

/-- `s.encode()` as numbers below 256. -/
def utf8EncodeN : Str → Option (List Nat)
  | [] => some []
  | c :: r => match utf8Char c, utf8EncodeN r with
    | some x, some y => some (x ++ y)
    | _, _ => none

/-- continuation byte -/
def isCont (b : Nat) : Bool := 0x80 ≤ b && b < 0xC0

/-- `bs.decode()`, strict; `none` = `UnicodeDecodeError`. -/
def utf8DecodeN : List Nat → Option Str
  | [] => some []
  | b :: r =>
    if b < 0x80 then (utf8DecodeN r).map (b :: ·)
    else if b < 0xC2 then none
    else if b < 0xE0 then
      match r with
      | b1 :: r => if isCont b1 then (utf8DecodeN r).map (((b - 0xC0) * 64 + (b1 - 0x80)) :: ·) else none
      | _ => none
    else if b < 0xF0 then
      match r with
      | b1 :: b2 :: r =>
        let c := (b - 0xE0) * 4096 + (b1 - 0x80) * 64 + (b2 - 0x80)
        if isCont b1 && isCont b2 && decide (0x800 ≤ c) && !(decide (0xD800 ≤ c) && decide (c ≤ 0xDFFF)) then
          (utf8DecodeN r).map (c :: ·) else none
      | _ => none
    else if b < 0xF5 then
      match r with
      | b1 :: b2 :: b3 :: r =>
        let c := (b - 0xF0) * 262144 + (b1 - 0x80) * 4096 + (b2 - 0x80) * 64 + (b3 - 0x80)
        if isCont b1 && isCont b2 && isCont b3 && decide (0x10000 ≤ c) && decide (c < 0x110000) then
          (utf8DecodeN r).map (c :: ·) else none
      | _ => none
    else none

/-- `s.encode()` -/
def utf8Encode (s : Str) : Option Bytes := (utf8EncodeN s).map (·.map UInt8.ofNat)

/-- `bs.decode()` -/
def utf8Decode (bs : Bytes) : Option Str := utf8DecodeN (bs.map (·.toNat))

end JP
