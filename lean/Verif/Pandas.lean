import Verif.Base64
import Verif.Utf8
/-!
# `jsonpickle/ext/pandas.py`: run-length encoding and payload packing
-/
namespace JP.Pandas
open JP

/-- pandas.py:47-54, the loop of `rle_encode`: `current`, `count` and the list built so far. -/
def rleLoop {α : Type} [DecidableEq α] (encoded : List (α × Nat)) (current : α) (count : Nat) :
    List α → List (α × Nat)
  | [] => encoded ++ [(current, count)]
  | typ :: rest =>
    if typ = current then rleLoop encoded current (count + 1) rest
    else rleLoop (encoded ++ [(current, count)]) typ 1 rest

/-- pandas.py:35-56, `rle_encode`. -/
def rleEncode {α : Type} [DecidableEq α] : List α → List (α × Nat)
  | [] => []
  | t :: rest => rleLoop [] t 1 rest

/-- pandas.py:59-66, `rle_decode`. -/
def rleDecode {α : Type} (l : List (α × Nat)) : List α :=
  l.foldl (fun decoded tc => decoded ++ List.replicate tc.2 tc.1) []

/-- A compression module (`zlib`, `bz2`); `decompress` may raise. -/
structure Comp where
  compress : Bytes → Bytes
  decompress : Bytes → Except Exc Bytes

/-- pandas.py:69-83, `PandasProcessor.__init__`. -/
structure Proc where
  sizeThreshold : Option Nat
  compression : Option Comp

/-- The keys `flatten_pandas` sets in `data` (a fresh dict): `values`, `txt`, `comp` (absent = `none`)
and `meta`.  `meta` is opaque. -/
structure Data where
  values : Str
  txt : Bool
  comp : Option Bool
  meta_ : Nat
  deriving Repr, DecidableEq

/-- What `restore_pandas` returns as `buf`: text, or bytes when nothing was decompressed. -/
inductive Buf
  | text (s : Str)
  | raw (b : Bytes)
  deriving DecidableEq

/-- pandas.py:85-101, `flatten_pandas`.  Without a compression module `b64encode(buf)` gets a `str` and
raises `TypeError`. -/
def flattenPandas (p : Proc) (buf : Str) (meta_ : Nat) : Except Exc Data :=
  match p.sizeThreshold with
  | some t =>
    if buf.length > t then
      match p.compression with
      | some c => match utf8Encode buf with
        | none => .error .unicodeError
        | some b => .ok { values := b64encode (c.compress b), txt := false, comp := some true, meta_ := meta_ }
      | none => .error .typeError
    else .ok { values := buf, txt := true, comp := none, meta_ := meta_ }
  | none => .ok { values := buf, txt := true, comp := none, meta_ := meta_ }

/-- pandas.py:103-112, `restore_pandas`. -/
def restorePandas (p : Proc) (d : Data) : Except Exc (Buf × Nat) :=
  if d.txt then .ok (.text d.values, d.meta_)
  else
    let buf := b64decode d.values
    if d.comp.getD false then
      match p.compression with
      | none => .error .attributeError
      | some c => match c.decompress buf with
        | .error e => .error e
        | .ok b => match utf8Decode b with
          | none => .error .unicodeError
          | some s => .ok (.text s, d.meta_)
    else .ok (.raw buf, d.meta_)

end JP.Pandas
