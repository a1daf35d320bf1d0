import Verif.Value
/-!
# base64 / base85 as used by `util.b64encode` … `util.b85decode` (jsonpickle/util.py:500-531)

The bodies of `base64.b64encode`, `base64.b64decode` (non-validating), `base64.b85encode` and
`base64.b85decode` belong to the Python standard library; they are modelled here from their documented
algorithms (RFC 4648; `base64._85encode`, `base64.b85decode`; `binascii.a2b_base64`).
-/
namespace JP

/-- A 6-bit digit to its character. -/
def b64char (n : Nat) : Nat :=
  if n < 26 then 65 + n
  else if n < 52 then 97 + (n - 26)
  else if n < 62 then 48 + (n - 52)
  else if n = 62 then 43 else 47

/-- A character to its 6-bit digit, `none` for characters outside the alphabet. -/
def b64val (c : Nat) : Option Nat :=
  if 65 ≤ c ∧ c ≤ 90 then some (c - 65)
  else if 97 ≤ c ∧ c ≤ 122 then some (c - 97 + 26)
  else if 48 ≤ c ∧ c ≤ 57 then some (c - 48 + 52)
  else if c = 43 then some 62
  else if c = 47 then some 63
  else none

/-- util.py:500-504 `b64encode`. -/
def b64encode : Bytes → Str
  | [] => []
  | [a] =>
    [b64char (a.toNat / 4), b64char (a.toNat % 4 * 16), 61, 61]
  | [a, b] =>
    [b64char (a.toNat / 4), b64char (a.toNat % 4 * 16 + b.toNat / 16),
     b64char (b.toNat % 16 * 4), 61]
  | a :: b :: c :: rest =>
    b64char (a.toNat / 4) :: b64char (a.toNat % 4 * 16 + b.toNat / 16) ::
    b64char (b.toNat % 16 * 4 + c.toNat / 64) :: b64char (c.toNat % 64) :: b64encode rest

/-- `binascii.a2b_base64(s)` (non-strict): `q` = position in the quad, `left` = leftover bits,
`pads` = consecutive `=` seen.  `none` = `binascii.Error`. -/
def a2b (q left pads : Nat) : Str → Option Bytes
  | [] => if q = 0 then some [] else none
  | c :: cs =>
    if c = 61 then
      if 2 ≤ q ∧ 4 ≤ q + (pads + 1) then some []
      else a2b q left (if 2 ≤ q then pads + 1 else pads) cs
    else match b64val c with
      | none => a2b q left pads cs
      | some v =>
        match q with
        | 0 => a2b 1 v 0 cs
        | 1 => (a2b 2 (v % 16) 0 cs).map (UInt8.ofNat (left * 4 + v / 16) :: ·)
        | 2 => (a2b 3 (v % 4) 0 cs).map (UInt8.ofNat (left * 16 + v / 4) :: ·)
        | _ => (a2b 0 0 0 cs).map (UInt8.ofNat (left * 64 + v) :: ·)

/-- util.py:507-514 `b64decode`: errors give `b""`.  (Characters outside the alphabet, in particular
the UTF-8 bytes of non-ASCII characters, are discarded by the non-strict decoder.) -/
def b64decode (s : Str) : Bytes := (a2b 0 0 0 s).getD []

/-! ### base85 -/

/-- `base64._b85alphabet`. -/
def b85alphabet : Str :=
  p!"0123456789ABCDEFGHIJKLMNOPQRSTUVWXYZabcdefghijklmnopqrstuvwxyz!#$%&()*+-;<=>?@^_`{|}~"

def b85char (n : Nat) : Nat := b85alphabet.getD n 0

/-- `base64._b85dec[c]`, `none` for characters outside the alphabet. -/
def b85val (c : Nat) : Option Nat :=
  let i := b85alphabet.idxOf c
  if i < 85 then some i else none

/-- the five base85 digits of a 32-bit word -/
def b85word (w : Nat) : Str :=
  [b85char (w / 52200625 % 85), b85char (w / 614125 % 85), b85char (w / 7225 % 85),
   b85char (w / 85 % 85), b85char (w % 85)]

/-- big-endian 32-bit word -/
def word4 (a b c d : UInt8) : Nat :=
  a.toNat * 16777216 + b.toNat * 65536 + c.toNat * 256 + d.toNat

/-- util.py:517-521 `b85encode` = `base64.b85encode(data)` with `pad=False`: the last group of
`r < 4` bytes is zero-padded and its text shortened by `4 - r` characters. -/
def b85encode : Bytes → Str
  | [] => []
  | [a] => (b85word (word4 a 0 0 0)).take 2
  | [a, b] => (b85word (word4 a b 0 0)).take 3
  | [a, b, c] => (b85word (word4 a b c 0)).take 4
  | a :: b :: c :: d :: rest => b85word (word4 a b c d) ++ b85encode rest

/-- one group of five digits to four bytes; `none` = bad character or overflow -/
def b85group (a b c d e : Nat) : Option Bytes :=
  match b85val a, b85val b, b85val c, b85val d, b85val e with
  | some a, some b, some c, some d, some e =>
    let w := (((a * 85 + b) * 85 + c) * 85 + d) * 85 + e
    if w < 4294967296 then
      some [UInt8.ofNat (w / 16777216), UInt8.ofNat (w / 65536), UInt8.ofNat (w / 256), UInt8.ofNat w]
    else none
  | _, _, _, _, _ => none

/-- `base64.b85decode`: the text is padded with `~` to a multiple of five and the padding is dropped
from the result.  `none` = `ValueError`. -/
def b85dec : Str → Option Bytes
  | [] => some []
  | [a] => (b85group a 126 126 126 126).map (·.take 0)
  | [a, b] => (b85group a b 126 126 126).map (·.take 1)
  | [a, b, c] => (b85group a b c 126 126).map (·.take 2)
  | [a, b, c, d] => (b85group a b c d 126).map (·.take 3)
  | a :: b :: c :: d :: e :: rest =>
    match b85group a b c d e, b85dec rest with
    | some x, some y => some (x ++ y)
    | _, _ => none

/-- util.py:524-531 `b85decode`: errors give `b""`. -/
def b85decode (s : Str) : Bytes := (b85dec s).getD []

/-- `str.encode("utf-8")` succeeds: no lone surrogates. -/
def utf8ok (s : Str) : Bool := s.all (fun c => !(0xD800 ≤ c && c ≤ 0xDFFF))

end JP
