import Verif.Pandas
import Verif.TagsPd
/-!
# `jsonpickle/ext/pandas.py`: the handlers — models pandas.py:151-455

What a handler puts into its document goes through the JSON backend as it is (`raw`), unless it is encoded on its own (`Codec`).
Parameters are the calls of `encode` and `decode` for these parts, and the conversions of pandas (`Lib`).  Not modelled: frequencies,
zone names of the index values, categories.  The format of version 3.3 (`restore_v3_3`) is in `PandasOld.lean`.
-/
namespace JP.PandasTypes
open JP

/-- Python values as far as the handlers look at them; `other` is any other object, `coll` one that is a `dict`, a `set` or an `ndarray` -/
inductive Py
  | none
  | bool (b : Bool)
  | int (i : Int)
  | float (bits : Nat)
  | str (s : Str)
  | tuple (xs : List Py)
  | list (xs : List Py)
  | coll (n : Nat)
  | other (n : Nat)

mutual
/-- What is read back of a value that is in a document as it is (`json.loads(json.dumps(x))`).  A tuple becomes a list; objects raise.
A dict among the `coll` could be written; labels, which are hashable, contain none. -/
def raw : Py → Except Exc Py
  | .tuple xs => match rawL xs with
    | .ok ys => .ok (.list ys)
    | .error e => .error e
  | .list xs => match rawL xs with
    | .ok ys => .ok (.list ys)
    | .error e => .error e
  | .coll _ => .error .typeError
  | .other _ => .error .typeError
  | x => .ok x
def rawL : List Py → Except Exc (List Py)
  | [] => .ok []
  | x :: xs => match raw x, rawL xs with
    | .ok y, .ok ys => .ok (y :: ys)
    | .error e, _ => .error e
    | _, .error e => .error e
end

mutual
/-- `hash(x)` does not raise -/
def hashable : Py → Bool
  | .list _ => false
  | .coll _ => false
  | .tuple xs => hashableL xs
  | _ => true
def hashableL : List Py → Bool
  | [] => true
  | x :: xs => hashable x && hashableL xs
end

/-- `tuple(x)`; the elements of a `coll` are not of interest, because no label is one -/
def toTuple : Py → Except Exc Py
  | .tuple xs => .ok (.tuple xs)
  | .list xs => .ok (.tuple xs)
  | .str s => .ok (.tuple (s.map (fun c => .str [c])))
  | .coll _ => .ok (.tuple [])
  | _ => .error .typeError

/-- `encode(x)`, `encode(x, keys=True)` and `decode` for the parts that are encoded on their own; the columns of a frame are a dict of
lists -/
structure Codec where
  enc : Py → Except Exc Str
  dec : Str → Except Exc Py
  encL : Bool → List Py → Except Exc Str
  decL : Bool → Str → Except Exc (List Py)
  encD : List (Py × List Py) → Except Exc Str
  decD : Str → Except Exc (List (Py × List Py))

/-- The parts of pandas that are parameters: `Series(values).astype(dtype)` (or an index with this dtype), and the dtype that pandas finds
for values. -/
structure Lib where
  convert : Str → List Py → Except Exc (List Py)
  infer : List Py → Str

/-- an index: `tolist()`, `str(dtype)`, and `name`, or `names` for a `MultiIndex` -/
structure Index where
  values : List Py
  dtype : Str
  name : Py
  names : Option (List Py)

def isTuple : Py → Bool
  | .tuple _ => true
  | _ => false

/-- the longest row -/
def width : List Py → Nat
  | [] => 0
  | .tuple xs :: r => max xs.length (width r)
  | _ :: r => width r

/-- rows that are too short are filled up with NaN -/
def padRow (n : Nat) : Py → Py
  | .tuple xs => .tuple (xs ++ List.replicate (n - xs.length) (.float 0x7FF8000000000000))
  | x => x

/-- `pd.MultiIndex.from_tuples(rows, names=names)` for rows that are tuples -/
def fromTuples (rows : List Py) (names : Py) : Except Exc Index :=
  let n := width rows
  if rows.isEmpty then
    match names with
    | .tuple xs | .list xs =>
      if !hashableL xs then .error .typeError
      else if xs.isEmpty then .error .valueError
      else .ok { values := [], dtype := p!"object", name := .none, names := some xs }
    | _ => .error .typeError
  else if n = 0 then .error .valueError
  else match names with
    | .none => .ok { values := rows.map (padRow n), dtype := p!"object", name := .none, names := some (List.replicate n .none) }
    | .tuple xs | .list xs =>
      if !hashableL xs then .error .typeError
      else if xs.length ≠ n then .error .valueError
      else .ok { values := rows.map (padRow n), dtype := p!"object", name := .none, names := some xs }
    | _ => .error .typeError

/-- `pd.Index(values, dtype=dtype, name=name)`: a list of tuples gives a `MultiIndex` -/
def mkIndex (L : Lib) (values : List Py) (dtype : Str) (name : Py) : Except Exc Index :=
  if !hashable name then .error .typeError
  else if !values.isEmpty && values.all isTuple then fromTuples values name
  else match L.convert dtype values with
    | .ok vs => .ok { values := vs, dtype := dtype, name := name, names := none }
    | .error e => .error e

/-- `pd.PeriodIndex(values, dtype=dtype, name=name)` -/
def mkPeriodIndex (L : Lib) (values : List Py) (dtype : Str) (name : Py) : Except Exc Index :=
  if !hashable name then .error .typeError
  else match L.convert dtype values with
    | .ok vs => .ok { values := vs, dtype := dtype, name := name, names := none }
    | .error e => .error e

/-- The document of a handler that uses `PandasProcessor`: what `flatten_pandas` sets (`Verif/Pandas.lean`), and `meta`. -/
structure Doc where
  data : Pandas.Data
  info : List (Str × Py)

/-- values of a dict -/
def rawKvs : List (Str × Py) → Except Exc (List (Str × Py))
  | [] => .ok []
  | (k, x) :: r => match raw x, rawKvs r with
    | .ok y, .ok s => .ok ((k, y) :: s)
    | .error e, _ => .error e
    | _, .error e => .error e

/-- through the JSON backend -/
def Doc.wire (d : Doc) : Except Exc Doc :=
  match rawKvs d.info with
  | .ok m => .ok { d with info := m }
  | .error e => .error e

/-- pandas.py:85-101 with the metadata -/
def pack (p : Pandas.Proc) (buf : Str) (info : List (Str × Py)) : Except Exc Doc :=
  match Pandas.flattenPandas p buf 0 with
  | .ok d => .ok { data := d, info := info }
  | .error e => .error e

/-- pandas.py:103-112 with the metadata; bytes, which come from data that was not compressed, are not text that `decode` could take -/
def unpack (p : Pandas.Proc) (d : Doc) : Except Exc (Str × List (Str × Py)) :=
  match Pandas.restorePandas p d.data with
  | .ok (.text s, _) => .ok (s, d.info)
  | .ok (.raw _, _) => .error .typeError
  | .error e => .error e

variable (c : Codec) (L : Lib) (p : Pandas.Proc)

/-! ### index -/

/-- pandas.py:366-367, 393-396 `name_bundler`; the handler for a `MultiIndex` writes `names` -/
def nameBundle (ix : Index) : Str × Py :=
  match ix.names with
  | none => (p!"name", ix.name)
  | some ns => (p!"names", .list ns)

/-- pandas.py:369-374 `flatten` -/
def flattenIndex (ix : Index) : Except Exc Doc := do
  let buf ← c.encL false ix.values
  pack p buf [(p!"dtype", .str ix.dtype), nameBundle ix]

/-- pandas.py:379-383: the last of the entries `name` and `names`, as a tuple -/
def bundle : List (Str × Py) → Except Exc Py → Except Exc Py
  | [], acc => acc
  | (k, v) :: r, acc =>
    if k = p!"name" ∨ k = p!"names" then
      match v with
      | .none => bundle r (.ok .none)
      | v => match toTuple v with
        | .ok t => bundle r (.ok t)
        | .error e => .error e
    else bundle r acc

/-- pandas.py:378: `meta.get("dtype")` -/
def dtypeOf (info : List (Str × Py)) : Str :=
  match dget p!"dtype" info with
  | some (.str s) => s
  | _ => []

/-- pandas.py:376-385 `restore`, with the constructor of the class of handlers (363-364, 388-389) -/
def restoreIndex (mk : List Py → Str → Py → Except Exc Index) (d : Doc) : Except Exc Index := do
  let (buf, info) ← unpack p d
  let name ← bundle info (.ok .none)
  let vals ← c.decL false buf
  mk vals (dtypeOf info) name

/-- an index written, and read again -/
def tripWith (mk : List Py → Str → Py → Except Exc Index) (ix : Index) : Except Exc Index := do
  let d ← flattenIndex c p ix
  let d ← d.wire
  restoreIndex c p mk d

def tripIndex (ix : Index) : Except Exc Index := tripWith c p (mkIndex L) ix

/-- the same for a `PeriodIndex` -/
def tripPeriodIndex (ix : Index) : Except Exc Index := tripWith c p (mkPeriodIndex L) ix

/-! ### series -/

structure Series where
  values : List Py
  dtype : Str
  name : Py
  index : Index

/-- `pd.Series(values, index=index, name=name)` for an array of values -/
def mkSeries (values : List Py) (dtype : Str) (index : Index) (name : Py) : Except Exc Series :=
  if hashable name then .ok { values := values, dtype := dtype, name := name, index := index } else .error .typeError

/-- pandas.py:343-359: the name is written as it is, the index by its handler, the array by the handlers of `ext/numpy.py`, which are
taken to keep it (`Verif/Numpy.lean`) -/
def tripSeries (s : Series) : Except Exc Series := do
  let name ← raw s.name
  let index ← tripIndex c L p s.index
  mkSeries s.values s.dtype index name

/-! ### data frames -/

/-- the columns, or the index, of a frame: labels, and `name`, or `names` for a `MultiIndex` -/
structure Axis where
  labels : List Py
  name : Py
  names : Option (List Py)

structure Column where
  values : List Py
  dtype : Str

structure Frame where
  columns : Axis
  index : Axis
  data : List Column

/-- `TYPE_MAP` and `REVERSE_TYPE_MAP` of tags_pd.py -/
structure Types where
  tag : List (Str × Str)
  name : List (Str × Str)

/-- pandas.py:179: `isinstance(x, (list, dict, set, tuple, np.ndarray))` -/
def isColl : Py → Bool
  | .tuple _ => true
  | .list _ => true
  | .coll _ => true
  | _ => false

def mapE {α β : Type} (f : α → Except Exc β) : List α → Except Exc (List β)
  | [] => .ok []
  | x :: xs => match f x with
    | .ok y => (match mapE f xs with
      | .ok ys => .ok (y :: ys)
      | .error e => .error e)
    | .error e => .error e

/-- pandas.py:178-193: the values of a column and its type code -/
def flattenColumn (T : Types) (col : Column) : Except Exc (List Py × Str) :=
  if col.dtype = p!"object" ∧ col.values.any isColl = true then
    match mapE c.enc col.values with
    | .ok ts => .ok (ts.map .str, p!"py/jp")
    | .error e => .error e
  else .ok (col.values, (dget col.dtype T.tag).getD p!"object")

/-- the document of a frame -/
structure FrameDoc where
  data : Pandas.Data
  rle : List (Str × Nat)
  index : Str
  indexNames : Py
  columns : Str
  columnNames : Py
  multiIndex : Bool
  multiColumns : Bool

/-- pandas.py:158-159, 166, 171-172, 175: `names` or `name` -/
def Axis.anyName (a : Axis) : Py :=
  match a.names with
  | some ns => .list ns
  | none => a.name

/-- the labels are different, so that `obj[col]` is a column (pandas.py:181; it would be a frame, which has no `dtype`) -/
def distinct (same : Py → Py → Bool) : List Py → Bool
  | [] => true
  | x :: xs => !xs.any (same x) && distinct same xs

/-- pandas.py:154-218 `flatten`.  `same` is the equality of labels. -/
def flattenFrame (T : Types) (same : Py → Py → Bool) (f : Frame) : Except Exc FrameDoc := do
  if !distinct same f.columns.labels then .error .attributeError
  else
    let cols ← mapE (flattenColumn c T) f.data
    let index ← c.encL true f.index.labels
    let columns ← c.encL true f.columns.labels
    let text ← c.encD (f.columns.labels.zip (cols.map (·.1)))
    match Pandas.flattenPandas p text 0 with
    | .ok d => .ok { data := d, rle := Pandas.rleEncode (cols.map (·.2)), index := index, indexNames := f.index.anyName, columns := columns, columnNames := f.columns.anyName, multiIndex := f.index.names.isSome, multiColumns := f.columns.names.isSome }
    | .error e => .error e

/-- through the JSON backend -/
def FrameDoc.wire (d : FrameDoc) : Except Exc FrameDoc := do
  let a ← raw d.indexNames
  let b ← raw d.columnNames
  pure { d with indexNames := a, columnNames := b }

/-- `data_columns[col]` -/
def lookup (same : Py → Py → Bool) (k : Py) : List (Py × List Py) → Except Exc (List Py)
  | [] => .error .keyError
  | (k', v) :: r => if same k k' then .ok v else lookup same k r

/-- pandas.py:273 `decode(item)`: the JSON backend wants text (bytes, which it takes as well, are not modelled here).  All items are tested before the first is
decoded, so that of two errors in one column another one may be raised. -/
def asStr : Py → Except Exc Str
  | .str s => .ok s
  | _ => .error .typeError

/-- pandas.py:257-289: the values of one column, and its dtype, which is applied later; where that fails there is only a warning -/
def restoreColumn (T : Types) (same : Py → Py → Bool) (cols : List (Py × List Py)) (lc : Py × Str) : Except Exc Column := do
  let vs ← lookup same lc.1 cols
  if lc.2 = p!"py/jp" then
    let ts ← mapE asStr vs
    let xs ← mapE c.dec ts
    pure { values := (match L.convert p!"object" xs with | .ok ys => ys | .error _ => xs), dtype := (match L.convert p!"object" xs with | .ok _ => p!"object" | .error _ => L.infer xs) }
  else
    let t := (dget lc.2 T.name).getD p!"object"
    pure { values := (match L.convert t vs with | .ok ys => ys | .error _ => vs), dtype := (match L.convert t vs with | .ok _ => t | .error _ => L.infer vs) }

/-- the labels and names of an index as the axis of a frame -/
def Index.axis (ix : Index) : Axis := { labels := ix.values, name := ix.name, names := ix.names }

/-- pandas.py:246-253, 304-310: the columns.  `df.columns = labels` makes no `MultiIndex` of a list of tuples. -/
def restoreColumns (multi : Bool) (labels : List Py) (names : Py) : Except Exc Axis :=
  if multi then do
    let ix ← fromTuples labels names
    pure ix.axis
  else if hashable names then .ok { labels := labels, name := names, names := none } else .error .typeError

/-- pandas.py:294-302: the index -/
def restoreIndexAxis (multi : Bool) (labels : List Py) (names : Py) : Except Exc Axis :=
  if multi then do
    let ix ← fromTuples labels names
    pure ix.axis
  else do
    let ix ← mkIndex L labels (L.infer labels) names
    pure ix.axis

/-- pandas.py:220-312 `restore` -/
def restoreFrame (T : Types) (same : Py → Py → Bool) (d : FrameDoc) : Except Exc Frame := do
  let text ← (match Pandas.restorePandas p d.data with
    | .ok (.text s, _) => .ok s
    | .ok (.raw _, _) => .error .typeError
    | .error e => .error e)
  let cols ← c.decD text
  let labels ← c.decL true d.columns
  let columns ← restoreColumns d.multiColumns labels d.columnNames
  let data ← mapE (restoreColumn c L T same cols) (columns.labels.zip (Pandas.rleDecode d.rle))
  let rows ← c.decL true d.index
  let index ← restoreIndexAxis L d.multiIndex rows d.indexNames
  pure { columns := columns, index := index, data := data }

/-- a frame written, and read again -/
def tripFrame (T : Types) (same : Py → Py → Bool) (f : Frame) : Except Exc Frame := do
  let d ← flattenFrame c p T same f
  let d ← d.wire
  restoreFrame c L p T same d

/-! ### moments, periods, intervals -/

/-- a `pd.Timestamp`: nanoseconds since 1970 in UTC; the offset from UTC in seconds at that moment and the time zone, if it has one.
A zone is its name, or the fixed offset itself. -/
inductive Zone
  | fixed (offset : Int)
  | named (name : Str) (offset : Int)
  deriving DecidableEq, Repr

def Zone.offset : Zone → Int
  | .fixed o => o
  | .named _ o => o

structure Stamp where
  nanos : Int
  zone : Option Zone
  deriving DecidableEq, Repr

/-- `isoformat()` shows the local time and the offset; `pd.Timestamp(text)` makes a fixed zone of it -/
structure Iso where
  format : Int → Option Int → Str
  parse : Str → Except Exc (Int × Option Int)

/-- pandas.py:399-412 -/
def tripStamp (I : Iso) (s : Stamp) : Except Exc Stamp := do
  let d ← pack p [] [(p!"isoformat", .str (I.format s.nanos (s.zone.map Zone.offset)))]
  let d ← d.wire
  let (_, info) ← unpack p d
  match dget p!"isoformat" info with
  | some (.str t) =>
    let (n, o) ← I.parse t
    pure { nanos := n, zone := o.map Zone.fixed }
  | some _ => .error .typeError
  | none => .error .keyError

/-- a `pd.Interval` -/
structure Interval where
  left : Py
  right : Py
  closed : Str

/-- pandas.py:435-455; `pd.Interval(left, right, closed)` raises `ValueError` unless `left <= right` -/
def tripInterval (le : Py → Py → Bool) (x : Interval) : Except Exc Interval := do
  let l ← c.enc x.left
  let r ← c.enc x.right
  let d ← pack p [] [(p!"left", .str l), (p!"right", .str r), (p!"closed", .str x.closed)]
  let d ← d.wire
  let (_, info) ← unpack p d
  match dget p!"left" info, dget p!"right" info, dget p!"closed" info with
  | some (.str l), some (.str r), some (.str s) =>
    let l ← c.dec l
    let r ← c.dec r
    if le l r then pure { left := l, right := r, closed := s } else .error .valueError
  | _, _, _ => .error .keyError

/-- a `pd.Period`: its first moment and its frequency -/
structure Period where
  start : Py
  freq : Str

/-- pandas.py:415-432; `mk` is `pd.Period(moment, freq)`: the period of this frequency that contains the moment -/
def tripPeriod (mk : Py → Str → Except Exc Period) (x : Period) : Except Exc Period := do
  let t ← c.enc x.start
  let d ← pack p [] [(p!"start_time", .str t), (p!"freqstr", .str x.freq)]
  let d ← d.wire
  let (_, info) ← unpack p d
  match dget p!"start_time" info, dget p!"freqstr" info with
  | some (.str t), some (.str fr) =>
    let s ← c.dec t
    mk s fr
  | _, _ => .error .keyError

end JP.PandasTypes
