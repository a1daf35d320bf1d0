import Verif.JsonText
import Verif.Value
/-!
# The text of a numpy dtype

`ext/numpy.py` writes a dtype as `str(dtype)` and reads it with `ast.literal_eval`, if the text begins with a brace or a bracket, and
`np.dtype` (lines 36-50).  This file models the two functions and, as parameters of numpy and Python: the texts of scalar dtypes;
`numpy.dtype.__str__` (`numpy/_core/_dtype.py`: `_struct_str`, `_struct_list_str`, `_struct_dict_str`, `_subarray_str`); `repr` of strings, numbers,
tuples, lists and dicts; `ast.literal_eval` of such texts; and `numpy.dtype` of the resulting values.

Simplifications: dtypes have no method `tostring` (line 37; true of all numpy versions in use); metadata of dtypes are ignored, as by
`==`; of the escapes in string literals only those that `repr` writes are read; a description whose offsets or size are impossible is
accepted by `mk` (`str` writes none); of the texts that `np.dtype` accepts besides descriptions only names of scalar dtypes are
modelled, not `'i4,f8'` or `'(2,)i4'` (`str` writes none of these); structured dtypes made with `align=True` are left out.
-/
namespace JP.DTypeText
open JP JsonText

/-! ### Python literals -/

/-- Python values that have a literal, and `named c x`, the text `(c, x)` in which `c` is a dotted name and no literal. -/
inductive Lit where
  | str (s : Str)
  | int (n : Nat)
  | bool (b : Bool)
  | none
  | tuple (xs : List Lit)
  | list (xs : List Lit)
  | dict (kvs : List (Str × Lit))
  | named (c : Str) (x : Lit)
  deriving Inhabited

/-- `'\\x{0:02x}'.format(n)` -/
def x2 (n : Nat) : Str := [92, 120, hexDigit (n / 16 % 16), hexDigit (n % 16)]

/-- `'\\U{0:08x}'.format(n)` -/
def u8 (n : Nat) : Str := 92 :: 85 :: (hex4 (n / 65536) ++ hex4 (n % 65536))

/-- one character in `repr(s)` with the quote `q`; `pr` says which characters beyond ASCII are printable -/
def reprChar (pr : Nat → Bool) (q c : Nat) : Str :=
  if c = 92 ∨ c = q then [92, c]
  else if c = 9 then [92, 116]
  else if c = 10 then [92, 110]
  else if c = 13 then [92, 114]
  else if c < 32 ∨ c = 127 then x2 c
  else if c < 127 then [c]
  else if pr c then [c]
  else if c < 256 then x2 c
  else if c < 65536 then u4 c
  else u8 c

/-- the characters of a string and the closing quote -/
def reprChars (pr : Nat → Bool) (q : Nat) : Str → Str
  | [] => [q]
  | c :: s => reprChar pr q c ++ reprChars pr q s

/-- the quotes: `"` if there are `'` and no `"` in the string, else `'` -/
def quote (s : Str) : Nat := if s.contains 39 && !s.contains 34 then 34 else 39

/-- `repr(s)` for a string -/
def reprStr (pr : Nat → Bool) (s : Str) : Str := quote s :: reprChars pr (quote s) s

variable (pr : Nat → Bool)

mutual
/-- `repr(x)` -/
def repr : Lit → Str
  | .str s => reprStr pr s
  | .int n => natText (n + 1) n
  | .bool b => if b then p!"True" else p!"False"
  | .none => p!"None"
  | .tuple [] => p!"()"
  | .tuple [x] => 40 :: (repr x ++ p!",)")
  | .tuple (x :: xs) => 40 :: (repr x ++ reprL 41 xs)
  | .list [] => p!"[]"
  | .list (x :: xs) => 91 :: (repr x ++ reprL 93 xs)
  | .dict [] => p!"{}"
  | .dict ((k, x) :: kvs) => 123 :: (reprStr pr k ++ 58 :: 32 :: (repr x ++ reprKv kvs))
  | .named c x => 40 :: (c ++ 44 :: 32 :: (repr x ++ [41]))
/-- the remaining elements and the closing character -/
def reprL (e : Nat) : List Lit → Str
  | [] => [e]
  | x :: xs => 44 :: 32 :: (repr x ++ reprL e xs)
/-- the remaining entries and the closing brace -/
def reprKv : List (Str × Lit) → Str
  | [] => [125]
  | (k, x) :: kvs => 44 :: 32 :: (reprStr pr k ++ 58 :: 32 :: (repr x ++ reprKv kvs))
end

/-- two hexadecimal digits -/
def readHex2 : Str → Option (Nat × Str)
  | a :: b :: s => do
    let a ← unhex a
    let b ← unhex b
    some (a * 16 + b, s)
  | _ => none

/-- eight hexadecimal digits -/
def readHex8 (s : Str) : Option (Nat × Str) := do
  let (a, s) ← readHex4 s
  let (b, s) ← readHex4 s
  some (a * 65536 + b, s)

/-- an escape, after the backslash -/
def readEscape : Str → Option (Nat × Str)
  | [] => none
  | e :: s =>
    if e = 92 ∨ e = 39 ∨ e = 34 then some (e, s)
    else if e = 116 then some (9, s)
    else if e = 110 then some (10, s)
    else if e = 114 then some (13, s)
    else if e = 120 then readHex2 s
    else if e = 117 then readHex4 s
    else if e = 85 then readHex8 s
    else none

/-- the rest of a string literal with the quote `q`; a line break inside is a syntax error -/
def readChars (q : Nat) : Nat → Str → Option (Str × Str)
  | 0, _ => none
  | _ + 1, [] => none
  | fuel + 1, c :: s =>
    if c = q then some ([], s)
    else if c = 92 then do
      let (c, s) ← readEscape s
      let (t, r) ← readChars q fuel s
      some (c :: t, r)
    else if c = 10 ∨ c = 13 then none
    else do
      let (t, r) ← readChars q fuel s
      some (c :: t, r)

def skipSp : Str → Str
  | [] => []
  | c :: s => if c = 32 then skipSp s else c :: s

/-- characters that end a number or a name -/
def isDelim (c : Nat) : Bool := c == 32 || c == 44 || c == 58 || c == 41 || c == 93 || c == 125 || c == 40 || c == 91 || c == 123 || c == 39 || c == 34

/-- a number or a (dotted) name and what follows it -/
def word : Str → Str × Str
  | [] => ([], [])
  | c :: s => if isDelim c then ([], c :: s) else (c :: (word s).1, (word s).2)

/-- a number, `True`, `False` or `None`; other names are no literals -/
def readWord (w : Str) : Option Lit :=
  if w = p!"True" then some (.bool true)
  else if w = p!"False" then some (.bool false)
  else if w = p!"None" then some .none
  else if isNat w then some (.int (natVal w))
  else none

mutual
/-- an expression at the beginning of the text -/
def readL : Nat → Str → Option (Lit × Str)
  | 0, _ => none
  | _ + 1, [] => none
  | fuel + 1, c :: s =>
    if c = 39 ∨ c = 34 then do
      let (t, r) ← readChars c (s.length + 1) s
      some (.str t, r)
    else if c = 40 then
      match skipSp s with
      | 41 :: r => some (.tuple [], r)
      | s => do
        let (xs, comma, r) ← readElems fuel 41 s
        -- `(x)` is `x`, `(x,)` is a tuple
        match xs, comma with
        | [x], false => some (x, r)
        | xs, _ => some (.tuple xs, r)
    else if c = 91 then
      match skipSp s with
      | 93 :: r => some (.list [], r)
      | s => do
        let (xs, _, r) ← readElems fuel 93 s
        some (.list xs, r)
    else if c = 123 then
      match skipSp s with
      | 125 :: r => some (.dict [], r)
      | s => do
        let (kvs, r) ← readEntries fuel [] s
        some (.dict kvs, r)
    else do
      let x ← readWord (word (c :: s)).1
      some (x, (word (c :: s)).2)
/-- elements up to the closing character `e`, and whether a comma precedes it -/
def readElems : Nat → Nat → Str → Option (List Lit × Bool × Str)
  | 0, _, _ => none
  | fuel + 1, e, s => do
    let (x, s) ← readL fuel s
    match skipSp s with
    | [] => none
    | c :: s =>
      if c = e then some ([x], false, s)
      else if c = 44 then
        match skipSp s with
        | [] => none
        | c :: s' =>
          if c = e then some ([x], true, s')
          else do
            let (xs, b, r) ← readElems fuel e (c :: s')
            some (x :: xs, b, r)
      else none
/-- entries up to the closing brace; the keys are strings -/
def readEntries : Nat → List (Str × Lit) → Str → Option (List (Str × Lit) × Str)
  | 0, _, _ => none
  | fuel + 1, acc, s =>
    match s with
    | [] => none
    | q :: s =>
      if q = 39 ∨ q = 34 then do
        let (k, s) ← readChars q (s.length + 1) s
        match skipSp s with
        | 58 :: s => do
          let (x, s) ← readL fuel (skipSp s)
          match skipSp s with
          | 125 :: r => some (dset k x acc, r)
          | 44 :: s => readEntries fuel (dset k x acc) (skipSp s)
          | _ => none
        | _ => none
      else none
end

/-- `ast.literal_eval(text)`; `none` stands for `ValueError` and `SyntaxError` -/
def literalEval (s : Str) : Option Lit :=
  match readL (2 * s.length + 1) s with
  | some (x, r) => if skipSp r = [] then some x else none
  | none => none

/-! ### dtypes -/

/-- numpy's scalar dtypes: `S` are the dtypes, `long` is `str(dtype)`, `short` the text inside descriptions (`_scalar_str` with `short=True`) -/
structure Scalars where
  S : Type
  long : S → Str
  short : S → Str
  size : S → Nat
  /-- `np.dtype(text)` for texts that are no descriptions -/
  read : Str → Option S

/-- dtypes: scalars, subarrays (`np.dtype((base, shape))`), and structured dtypes: the scalar type if it is not `numpy.void`, the fields
(name, title, type, offset) and `itemsize` -/
inductive DType (S : Type) where
  | scalar (s : S)
  | sub (base : DType S) (shape : List Nat)
  | struct (cls : Option Str) (fields : List (Str × Option Str × DType S × Nat)) (itemsize : Nat)

abbrev Fields (S : Type) := List (Str × Option Str × DType S × Nat)

variable (sc : Scalars)

/-- `dtype.itemsize` -/
def size : DType sc.S → Nat
  | .scalar s => sc.size s
  | .sub b shape => shape.foldl (· * ·) (size b)
  | .struct _ _ n => n

/-- `_is_packed`: the fields follow each other without gaps (from `off`) and fill the whole item -/
def packed (itemsize : Nat) : Nat → Fields sc.S → Bool
  | off, [] => off == itemsize
  | off, (_, _, d, o) :: fs => o == off && packed itemsize (off + size sc d) fs

/-- the name of a field: `'name'`, or `('title', 'name')` -/
def nameLit (name : Str) : Option Str → Lit
  | none => .str name
  | some t => .tuple [.str t, .str name]

/-- a class that is not `numpy.void` is written before the description -/
def withClass (cls : Option Str) (x : Lit) : Lit :=
  match cls with
  | none => x
  | some c => .named c x

def shapeLit (shape : List Nat) : Lit := .tuple (shape.map .int)

def titleLit : Option Str → Lit
  | none => .none
  | some t => .str t

/-- in a list of fields the base and the shape of a subarray are two elements (`_struct_list_str`) -/
def parts (d : DType sc.S) (x : Lit) : List Lit :=
  match d, x with
  | .sub _ _, .tuple xs => xs
  | _, x => [x]

/-- `_struct_dict_str` -/
def dictLit (fs : Fields sc.S) (formats : List Lit) (n : Nat) : Lit :=
  .dict ([(p!"names", .list (fs.map (fun f => .str f.1))), (p!"formats", .list formats), (p!"offsets", .list (fs.map (fun f => .int f.2.2.2)))] ++
    (if fs.any (fun f => f.2.1.isSome) then [(p!"titles", .list (fs.map (fun f => titleLit f.2.1)))] else []) ++ [(p!"itemsize", .int n)])

mutual
/-- `_construction_repr(dtype, short=True)` (numpy/_core/_dtype.py) -/
def lit : DType sc.S → Lit
  | .scalar s => .str (sc.short s)
  | .sub b shape => .tuple [lit b, shapeLit shape]
  | .struct cls fs n => withClass cls (if packed sc n 0 fs then .list (litItems fs) else dictLit sc fs (litFormats fs) n)
def litItems : Fields sc.S → List Lit
  | [] => []
  | (n, t, d, _) :: fs => .tuple (nameLit n t :: parts sc d (lit d)) :: litItems fs
def litFormats : Fields sc.S → List Lit
  | [] => []
  | (_, _, d, _) :: fs => lit d :: litFormats fs
end

/-- `str(dtype)` -/
def str (d : DType sc.S) : Str :=
  match d with
  | .scalar s => sc.long s
  | d => repr pr (lit sc d)

/-- `np.dtype((base, shape))`; without dimensions it is the base, and subarrays of subarrays are merged -/
def mkSub (d : DType sc.S) (shape : List Nat) : DType sc.S :=
  if shape = [] then d
  else match d with
    | .sub b sh => .sub b (shape ++ sh)
    | d => .sub d shape

def asInts : List Lit → Option (List Nat)
  | [] => some []
  | .int n :: xs => (asInts xs).map (n :: ·)
  | _ => none

def asStrs : List Lit → Option (List Str)
  | [] => some []
  | .str n :: xs => (asStrs xs).map (n :: ·)
  | _ => none

def asTitles : List Lit → Option (List (Option Str))
  | [] => some []
  | .str n :: xs => (asTitles xs).map (some n :: ·)
  | .none :: xs => (asTitles xs).map (none :: ·)
  | _ => none

def asName : Lit → Option (Str × Option Str)
  | .str n => some (n, none)
  | .tuple [.str t, .str n] => some (n, some t)
  | _ => none

def listAt (k : Str) (kvs : List (Str × Lit)) : Option (List Lit) :=
  match dget k kvs with
  | some (.list xs) => some xs
  | _ => none

/-- one element of a list of fields, given what its parts are as dtypes -/
def mkItem (xs : List Lit) (ds : List (Option (DType sc.S))) : Option (Str × Option Str × DType sc.S) :=
  match xs, ds with
  | [nm, _], [_, some d] => (asName nm).map (fun (n, t) => (n, t, d))
  | [nm, _, .tuple sh], [_, some d, _] => do
    let (n, t) ← asName nm
    let sh ← asInts sh
    some (n, t, mkSub sc d sh)
  | _, _ => none

def zipFields : List Str → List (Option Str) → List (Option (DType sc.S)) → List Nat → Option (Fields sc.S)
  | [], [], [], [] => some []
  | n :: ns, t :: ts, some d :: ds, o :: os => (zipFields ns ts ds os).map ((n, t, d, o) :: ·)
  | _, _, _, _ => none

/-- a description by a dict, given what the entries are as lists of dtypes -/
def mkDict (kvs : List (Str × Lit)) (dss : List (Str × List (Option (DType sc.S)))) : Option (DType sc.S) := do
  let names ← (listAt p!"names" kvs).bind asStrs
  let offsets ← (listAt p!"offsets" kvs).bind asInts
  let titles ← match listAt p!"titles" kvs with
    | some ts => asTitles ts
    | none => some (names.map (fun _ => none))
  let formats ← dget p!"formats" dss
  let n ← match dget p!"itemsize" kvs with
    | some (.int n) => some n
    | _ => none
  let fs ← zipFields sc names titles formats offsets
  some (.struct none fs n)

mutual
/-- `np.dtype(x)` -/
def mk : Lit → Option (DType sc.S)
  | .str s => (sc.read s).map .scalar
  | .list xs => (mkItems 0 xs).map (fun p => .struct none p.1 p.2)
  | .dict kvs => mkDict sc kvs (mkEntries kvs)
  | .tuple xs => match mkAll xs, xs with
    | [some d, _], [_, .tuple sh] => (asInts sh).map (mkSub sc d)
    | _, _ => none
  | _ => none
/-- the fields of a list, from the offset `off`, and where they end -/
def mkItems (off : Nat) : List Lit → Option (Fields sc.S × Nat)
  | [] => some ([], off)
  | .tuple ys :: xs =>
    match mkItem sc ys (mkAll ys) with
    | some (n, t, d) => (mkItems (off + size sc d) xs).map (fun p => ((n, t, d, off) :: p.1, p.2))
    | none => none
  | _ => none
def mkAll : List Lit → List (Option (DType sc.S))
  | [] => []
  | x :: xs => mk x :: mkAll xs
def mkEntries : List (Str × Lit) → List (Str × List (Option (DType sc.S)))
  | [] => []
  | (k, .list xs) :: kvs => (k, mkAll xs) :: mkEntries kvs
  | (_, _) :: kvs => mkEntries kvs
end

/-! ### the handler -/

/-- `"(numpy.record, "` -/
def prefix_ : Str := p!"(numpy.record, "

/-- ext/numpy.py:41-43: the class of record dtypes is left out -/
def cutRecord (t : Str) : Str :=
  if startsWith t prefix_ then (t.drop prefix_.length).dropLast
  else t

/-- ext/numpy.py:36-44 `NumpyBaseHandler.flatten_dtype`: what is stored as `data["dtype"]` -/
def flattenDtype (d : DType sc.S) : Str := cutRecord (str pr sc d)

/-- ext/numpy.py:46-50 `NumpyBaseHandler.restore_dtype`; `none`: an exception of `literal_eval` or `np.dtype` -/
def restoreDtype (t : Str) : Option (DType sc.S) :=
  if startsWith t p!"{" || startsWith t p!"[" then (literalEval t).bind (mk sc)
  else (sc.read t).map .scalar

end JP.DTypeText
