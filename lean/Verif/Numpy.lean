import Verif.Pandas
/-!
# `jsonpickle/ext/numpy.py`: array handlers

An array is its shape, its dtype and a map from multi-indices to elements.  An element is the list of
its field values (one field for a simple dtype), a field value being its bytes with the most significant
byte first, so the value does not depend on the byte order in which it is stored.
numpy itself (`tobytes`, `np.ndarray(buffer=...)`, `tolist`, `np.array`, `newbyteorder`, `copy`) is
modelled from its documentation; that the text form of a dtype parses back to that dtype and that
`tolist` values convert back to equal elements is assumed.
-/
namespace JP.Numpy
open JP

/-- Byte order of a field; `na` = not applicable (one-byte and text types, shown as `|`). -/
inductive BO
  | little | big | na
  deriving Repr, DecidableEq

structure Field where
  size : Nat
  bo : BO
  deriving Repr, DecidableEq

/-- How `tolist` of one element looks in JSON: a number (int, float, bool), a text, or something else
(dict, tuple, null ...). -/
inductive Leaf
  | num | text | other
  deriving Repr, DecidableEq

structure DType where
  name : Nat
  fields : List Field
  struct : Bool
  leaf : Leaf
  deriving Repr, DecidableEq

abbrev Elem := List Bytes

def swapBO : BO → BO
  | .little => .big
  | .big => .little
  | .na => .na

/-- `dtype.newbyteorder(c)`: applies to every field that has a byte order. -/
def setBO (d : DType) (b : BO) : DType :=
  { d with fields := d.fields.map (fun f => if f.bo = .na then f else { f with bo := b }) }
def swapDT (d : DType) : DType :=
  { d with fields := d.fields.map (fun f => { f with bo := swapBO f.bo }) }

/-- `dtype.byteorder`, with `=` already resolved to the native order as `get_byteorder`
(numpy.py:29-32) does: `|` (here `na`) for structured dtypes. -/
def byteorder (d : DType) : BO :=
  if d.struct then .na else match d.fields with
    | [f] => f.bo
    | _ => .na

def itemsize (d : DType) : Nat := (d.fields.map (·.size)).sum

def fieldMem (f : Field) (v : Bytes) : Bytes :=
  if f.bo = .little then v.reverse else v

/-- The bytes of one element in memory. -/
def elemMem : List Field → Elem → Bytes
  | f :: fs, v :: vs => fieldMem f v ++ elemMem fs vs
  | _, _ => []

/-- Read one element from the front of memory. -/
def elemRead : List Field → Bytes → Elem
  | [], _ => []
  | f :: fs, m => fieldMem f (m.take f.size) :: elemRead fs (m.drop f.size)

/-- All indices in C (row-major) order. -/
def idxC : List Nat → List (List Nat)
  | [] => [[]]
  | n :: s => (List.range n).flatMap (fun i => (idxC s).map (i :: ·))

/-- All indices in Fortran (column-major) order. -/
def idxF (s : List Nat) : List (List Nat) := (idxC s.reverse).map List.reverse

structure Arr where
  shape : List Nat
  dtype : DType
  elem : List Nat → Elem
  cContig : Bool
  fContig : Bool
  /-- numpy.py:106-112 `flatten_flags`, `restore_flags` -/
  writeable : Bool := true

def Arr.size (a : Arr) : Nat := (idxC a.shape).length

/-- Enumeration of the indices in storage order; `true` = Fortran. -/
def idxs (f : Bool) (shape : List Nat) : List (List Nat) := if f then idxF shape else idxC shape

/-- Memory of the elements in the given order. -/
def layout (d : DType) (elem : List Nat → Elem) (order : List (List Nat)) : Bytes :=
  order.flatMap (fun i => elemMem d.fields (elem i))

/-- `obj.tobytes(order="A")`: Fortran order if the array is Fortran contiguous (and not C contiguous),
C order otherwise. -/
def tobytesA (a : Arr) : Bytes := layout a.dtype a.elem (idxs (a.fContig && !a.cContig) a.shape)

/-- `np.ndarray(buffer=buf, dtype=d, shape=shape, order=...)`: element `i` is found at its position in
the enumeration.  (A buffer that is too short raises in numpy; here the missing bytes are absent.) -/
def fromBuffer (d : DType) (buf : Bytes) (order : List (List Nat)) : List Nat → Elem :=
  fun i => elemRead d.fields (buf.drop (order.idxOf i * itemsize d))

/-- Nested lists as `tolist` makes them. -/
inductive NL
  | leaf (e : Elem)
  | node (xs : List NL)

/-- `obj.tolist()` -/
def nest : List Nat → (List Nat → Elem) → NL
  | [], f => .leaf (f [])
  | n :: s, f => .node ((List.range n).map (fun i => nest s (fun j => f (i :: j))))

mutual
/-- the shape `np.array` infers (first elements; ragged lists do not arise from `tolist`) -/
def inferShape : NL → List Nat
  | .leaf _ => []
  | .node xs => xs.length :: inferShapeHead xs
def inferShapeHead : List NL → List Nat
  | [] => []
  | x :: _ => inferShape x
end

mutual
/-- element `i` of nested lists -/
def nlGet : NL → List Nat → Elem
  | .leaf e, _ => e
  | .node _, [] => []
  | .node xs, i :: j => nlGetAt xs i j
def nlGetAt : List NL → Nat → List Nat → Elem
  | [], _, _ => []
  | x :: _, 0, j => nlGet x j
  | _ :: r, i + 1, j => nlGetAt r i j
end

/-- The JSON value stored under `values`: a list or a scalar (text form), or base64 text. -/
inductive Values
  | plain (n : NL)
  | b64 (s : Str)

/-- The data dict. -/
structure Data where
  values : Values
  dtype : DType
  shape : Option (List Nat) := none
  byteorder : Option BO := none
  orderF : Bool := false
  writeable : Bool := true

structure Cfg where
  sizeThreshold : Option Nat
  compression : Option Pandas.Comp
  native : BO

/-- numpy.py:113-122, `NumpyNDArrayHandler.flatten`. -/
def flattenText (c : Cfg) (a : Arr) : Data :=
  { values := .plain (nest a.shape a.elem), dtype := setBO a.dtype c.native,
    shape := if 0 ∈ a.shape then some a.shape else none, writeable := a.writeable }

/-- numpy.py:201-202, `if self.compression: buf = self.compression.compress(buf)`. -/
def compressW (c : Cfg) (b : Bytes) : Bytes :=
  match c.compression with | some z => z.compress b | none => b

/-- numpy.py:227-228, the inverse; `decompress` may raise. -/
def decompressW (c : Cfg) (b : Bytes) : Except Exc Bytes :=
  match c.compression with | some z => z.decompress b | none => .ok b

/-- numpy.py:162-165, `flatten_byteorder`. -/
def flattenByteorder (d : DType) : Option BO :=
  if byteorder d = .na then none else some (byteorder d)

/-- numpy.py:167-170, `restore_byteorder`: re-labels the copied memory, so reading it with the native dtype
and re-labelling is reading it with the resulting dtype. -/
def restoreByteorder (d : DType) (b : Option BO) : DType :=
  match b with | some b => setBO d b | none => d

/-- numpy.py:172-212, `NumpyNDArrayHandlerBinary.flatten` for a dtype other than `object`
(object arrays are stored as JSON text inside base64 and are not modelled). -/
def flattenBinary (c : Cfg) (a : Arr) : Data :=
  let text := match c.sizeThreshold with
    | none => true
    | some t => decide (t ≥ a.size)
  if text then flattenText c a
  else
    { values := .b64 (b64encode (compressW c (tobytesA a))), shape := some a.shape, dtype := setBO a.dtype c.native,
      byteorder := flattenByteorder a.dtype,
      writeable := a.writeable, orderF := !a.cContig }

/-- numpy.py:124-134, `NumpyNDArrayHandler.restore`: the shape is inferred from the lists unless it was
stored (only with a 0 in it; `reshape` of an array without elements). -/
def restoreText (d : Data) (n : NL) : Arr :=
  { shape := match d.shape with | some s => s | none => inferShape n,
    dtype := d.dtype, elem := nlGet n, cContig := !d.orderF, fContig := d.orderF, writeable := d.writeable }

/-- numpy.py:226-247, the binary branch of `restore`.  `ndarray.copy()` defaults to C order. -/
def restoreB64 (c : Cfg) (d : Data) (s : Str) : Except Exc Arr :=
  match decompressW c (b64decode s) with
  | .error e => .error e
  | .ok buf =>
    let shape := d.shape.getD []
    let dt := restoreByteorder d.dtype d.byteorder
    .ok { shape := shape, dtype := dt, elem := fromBuffer dt buf (idxs d.orderF shape),
          cContig := true, fContig := false, writeable := d.writeable }

/-- numpy.py:211-247, `NumpyNDArrayHandlerBinary.restore`.  A scalar under `values` (a 0-d array stored as
text): a number makes a one-element array, a text is taken for base64, anything else makes
`b64decode` give `b""`. `textOf` is the text of an element. -/
def restoreBinary (c : Cfg) (textOf : Elem → Str) (d : Data) : Except Exc Arr :=
  match d.values with
  | .plain (.node xs) => .ok (restoreText d (.node xs))
  | .plain (.leaf e) => match d.dtype.leaf with
    | .num => .ok { shape := [1], dtype := d.dtype, elem := fun _ => e, cContig := true, fContig := true,
                    writeable := true }
    | .text => restoreB64 c d (textOf e)
    | .other => restoreB64 c d []
  | .b64 s => restoreB64 c d s

/-! ### `NumpyNDArrayHandlerView` (numpy.py:250-450) -/

/-- numpy.py:315-325, an array that owns its data: as the binary handler, and the order is also noted for
arrays stored as text. -/
def flattenOwn (c : Cfg) (a : Arr) : Data :=
  let d := flattenBinary c a
  if a.cContig then d else { d with orderF := true }

/-! Views onto another array (numpy.py:326-350 and 428-447). -/

/-- A view onto the memory of a base array: where it starts, its strides (`none`: C order). -/
structure View where
  shape : List Nat
  dtype : DType
  offset : Nat
  strides : Option (List Int)

/-- Byte position of an index. -/
def viewPos (v : View) (i : List Nat) : Int :=
  (v.offset : Int) + match v.strides with
    | some st => (List.zipWith (fun (k : Nat) s => (k : Int) * s) i st).sum
    | none => ((idxC v.shape).idxOf i * itemsize v.dtype : Nat)

/-- Element `i` of the view, read from memory. -/
def viewElem (v : View) (mem : Bytes) (i : List Nat) : Elem :=
  elemRead v.dtype.fields (mem.drop (viewPos v i).toNat)

/-- The memory of a contiguous array. -/
def mem (a : Arr) : Bytes := tobytesA a

/-- numpy.py:333-350, the data of a view stored by reference: the byte order is written only as
"swapped relative to the base". -/
def flattenViewSwap (base : DType) (v : View) : Bool :=
  byteorder v.dtype ≠ .na && byteorder v.dtype ≠ byteorder base

/-- numpy.py:430-441: the dtype of the restored view is the native one, swapped if so marked. -/
def restoreView (c : Cfg) (base : DType) (v : View) : View :=
  let d := setBO v.dtype c.native
  { v with dtype := if flattenViewSwap base v then swapDT d else d }

end JP.Numpy
