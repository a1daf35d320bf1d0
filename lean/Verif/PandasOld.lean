import Verif.Pandas
/-!
# `jsonpickle/ext/pandas.py`: data frames written before version 3.4

They are CSV text with the dtypes of the columns in `meta`; later ones are JSON text with `meta["dtypes_rle"]`.
-/
namespace JP.PandasOld
open JP

/-- the parts of `meta` (pandas.py:113-148, 225-341) that the two readers look at; `none`: no such key.  `dtypes` is what `context.restore` makes of
`meta["dtypes"]` (pandas.py:117): a dict from labels to the names of dtypes.  `rle`, the value of `dtypes_rle`, is opaque. -/
structure Meta where
  rle : Option Nat := none
  dtypes : Option (List (Str × Str)) := none
  header : Option (List Nat) := none
  index : Option Str := none
  levelNames : Option (List Str) := none
  deriving DecidableEq

/-- what `PandasDfHandler.restore` is given: `values`, `txt`, `comp` and `meta` -/
structure Doc where
  data : Pandas.Data
  info : Meta
  deriving DecidableEq

/-- a column of a data frame -/
structure Col where
  dtype : Str
  values : List Str
  deriving DecidableEq

/-- What pandas does with a column of text: `read_csv` with `dtype=`, with `parse_dates`, with the converter `complex`, or with none of them;
`pd.to_timedelta` and `astype`. -/
structure Lib where
  typed : Str → List Str → Except Exc Col
  dates : List Str → Except Exc Col
  complexes : List Str → Except Exc Col
  infer : List Str → Except Exc Col
  timedelta : Col → Except Exc Col
  cast : Str → Col → Except Exc Col
  /-- the table in a CSV text: the labels of the columns and their fields -/
  table : Str → List Nat → Except Exc (List (Str × List Str))
  /-- `decode(meta["index"])`; the index it returns is opaque -/
  index : Str → Except Exc Nat
  /-- `df.set_index(index, inplace=True)` raises if the index does not fit -/
  fits : Nat → List (Str × Col) → Except Exc Unit
  space : Nat → Bool

/-- a data frame: columns, index, names of the levels of the columns -/
structure Frame where
  columns : List (Str × Col)
  index : Nat
  levelNames : Option (List Str)
  deriving DecidableEq

/-- the arguments of `read_csv` (pandas.py:139-144) with the two lists returned beside them (pandas.py:145-147) -/
structure Params where
  dtype : List (Str × Str) := []
  header : List Nat := [0]
  parseDates : List Str := []
  converters : List Str := []
  timedeltas : List Str := []
  datetimes : List (Str × Str) := []
  deriving DecidableEq

/-- pandas.py:127-137, the body of the loop of `make_read_csv_params` -/
def step (P : Params) (kv : Str × Str) : Params :=
  if startsWith kv.2 p!"datetime" then
    { dtype := P.dtype, header := P.header, parseDates := P.parseDates ++ [kv.1], converters := P.converters, timedeltas := P.timedeltas, datetimes := P.datetimes ++ [kv] }
  else if startsWith kv.2 p!"complex" then
    { dtype := P.dtype, header := P.header, parseDates := P.parseDates, converters := P.converters ++ [kv.1], timedeltas := P.timedeltas, datetimes := P.datetimes }
  else if startsWith kv.2 p!"timedelta" then
    { dtype := P.dtype ++ [(kv.1, p!"object")], header := P.header, parseDates := P.parseDates, converters := P.converters, timedeltas := P.timedeltas ++ [kv.1], datetimes := P.datetimes }
  else
    { dtype := P.dtype ++ [kv], header := P.header, parseDates := P.parseDates, converters := P.converters, timedeltas := P.timedeltas, datetimes := P.datetimes }

/-- pandas.py:113-148, `make_read_csv_params` -/
def params (m : Meta) : Params :=
  (m.dtypes.getD []).foldl step { header := m.header.getD [0] }

/-- the value of a key -/
def find (k : Str) : List (Str × Str) → Option Str
  | [] => none
  | (l, v) :: r => if l = k then some v else find k r

def mapE {α β : Type} (f : α → Except Exc β) : List α → Except Exc (List β)
  | [] => .ok []
  | x :: r => match f x with
    | .error e => .error e
    | .ok y => match mapE f r with
      | .error e => .error e
      | .ok ys => .ok (y :: ys)

/-- the fields of one column in `pd.read_csv`: a converter takes precedence over a dtype -/
def readFields (L : Lib) (P : Params) (k : Str) (fields : List Str) : Except Exc Col :=
  if k ∈ P.converters then L.complexes fields
  else match find k P.dtype with
    | some d => L.typed d fields
    | none => if k ∈ P.parseDates then L.dates fields else L.infer fields

/-- one column in `pd.read_csv` -/
def readColumn (L : Lib) (P : Params) (c : Str × List Str) : Except Exc (Str × Col) :=
  match readFields L P c.1 c.2 with
  | .error e => .error e
  | .ok y => .ok (c.1, y)

/-- `pd.read_csv(StringIO(csv), **params)`: a column of `parse_dates` that is not in the table raises `ValueError` -/
def readCsv (L : Lib) (csv : Str) (P : Params) : Except Exc (List (Str × Col)) :=
  match L.table csv P.header with
  | .error e => .error e
  | .ok t => if P.parseDates.all (fun k => k ∈ t.map (·.1)) then mapE (readColumn L P) t else .error .valueError

/-- `df[k] = f(df[k])`, `KeyError` if there is no column `k` -/
def change (k : Str) (f : Col → Except Exc Col) (df : List (Str × Col)) : Except Exc (List (Str × Col)) :=
  if k ∈ df.map (·.1) then
    mapE (fun kc => if kc.1 = k then (match f kc.2 with
      | .error e => .error e
      | .ok y => .ok (kc.1, y)) else .ok kc) df
  else .error .keyError

/-- one change after the other -/
def changes {α : Type} (g : α → Str × (Col → Except Exc Col)) : List α → List (Str × Col) → Except Exc (List (Str × Col))
  | [], df => .ok df
  | a :: r, df => match change (g a).1 (g a).2 df with
    | .error e => .error e
    | .ok df => changes g r df

/-- pandas.py:319-341, `restore_v3_3` -/
def restoreOld (L : Lib) (p : Pandas.Proc) (d : Doc) : Except Exc Frame :=
  match Pandas.restorePandas p d.data with
  | .error e => .error e
  | .ok (buf, _) =>
    let P := params d.info
    let df : Except Exc (List (Str × Col)) := if d.data.values.all L.space then .ok [] else match buf with
      | .raw _ => .error .typeError
      | .text csv => readCsv L csv P
    match df with
    | .error e => .error e
    | .ok df => match changes (fun k => (k, L.timedelta)) P.timedeltas df with
      | .error e => .error e
      | .ok df => match changes (fun kv => (kv.1, L.cast kv.2)) P.datetimes df with
        | .error e => .error e
        | .ok df => match d.info.index with
          | none => .error .keyError
          | some t => match L.index t with
            | .error e => .error e
            | .ok i => match L.fits i df with
              | .error e => .error e
              | .ok () => .ok { columns := df, index := i, levelNames := d.info.levelNames.filter (· ≠ []) }

/-- pandas.py:225-258, the beginning of `PandasDfHandler.restore`: which reader is used.  `decode` is `decode(data_encoded, keys=True)`, `new` the rest of
the function (pandas.py:258-317, in `Verif/PandasTypes.lean`).  Returned with the number of warnings that point out the older format. -/
def restore {α : Type} (L : Lib) (p : Pandas.Proc) (decode : Pandas.Buf → Except Exc α) (new : α → Nat → Except Exc Frame) (d : Doc) : Except Exc Frame × Nat :=
  match Pandas.restorePandas p d.data with
  | .error e => (.error e, 0)
  | .ok (buf, _) => match decode buf with
    | .error e => if e.isException then (restoreOld L p d, 1) else (.error e, 0)
    | .ok x => match d.info.rle with
      | none => (restoreOld L p d, 1)
      | some r => (new x r, 0)

end JP.PandasOld
