import Verif.DTypeText
import Verif.LoadClass
/-!
# `jsonpickle/ext/numpy.py`: dtypes, scalars and ufuncs; `jsonpickle/ext/gmpy.py` — models numpy.py:53-100, 453-461 and gmpy.py:13-19

The data dict of a handler maps names to texts, integers and flattened values.  Parameters are numpy (`Np`), the calls of `self.context` (`Ctx`) and the import
system (`LoadClass.Env`).  `hasattr(dtype, "tostring")` (numpy.py:37) is false for the dtypes of numpy.
-/
namespace JP.NumpyScalars
open JP DTypeText

/-- what is in the data dict: a text or an integer as it is, or the result of `context.flatten` -/
inductive Entry (J : Type)
  | text (s : Str)
  | int (i : Int)
  | doc (j : J)

abbrev Data (J : Type) := List (Str × Entry J)

/-- `context.flatten(value, reset=False)` and `context.restore(doc, reset=False)` -/
structure Ctx (V J : Type) where
  flatten : V → Except Exc J
  restore : J → Except Exc V

mutual
/-- `dtype.newbyteorder("N")`, given for the scalar dtypes -/
def native {S : Type} (nat : S → S) : DType S → DType S
  | .scalar s => .scalar (nat s)
  | .sub b shape => .sub (native nat b) shape
  | .struct cls fs n => .struct cls (natives nat fs) n
def natives {S : Type} (nat : S → S) : Fields S → Fields S
  | [] => []
  | (n, t, d, o) :: fs => (n, t, native nat d, o) :: natives nat fs
end

/-- numpy: its scalars `X` and the Python values `V`; `tolist` may return the scalar itself, which is then `isScalar`; `text` is `str(obj)`, `array v d` is
`np.array(v, dtype=d)[()]`, `dtypeError` what `literal_eval` or `np.dtype` raises for a text -/
structure Np (sc : Scalars) (V : Type) where
  X : Type
  dtype : X → DType sc.S
  nat : sc.S → sc.S
  tolist : X → V
  isScalar : V → Bool
  text : X → V
  array : V → DType sc.S → Except Exc X
  dtypeError : Str → Exc

variable {sc : Scalars} {V J : Type} (pr : Nat → Bool) (np : Np sc V) (ctx : Ctx V J)

/-- numpy.py:54-56 `NumpyDTypeHandler.flatten` -/
def flattenDType (d : DType sc.S) (data : Data J) : Data J := dset p!"dtype" (.text (flattenDtype pr sc d)) data

/-- numpy.py:46-50 `restore_dtype`: `data["dtype"]`, then `startswith`, which only texts have -/
def restoreDt (data : Data J) : Except Exc (DType sc.S) :=
  match dget p!"dtype" data with
  | none => .error .keyError
  | some (.text t) => match restoreDtype sc t with
    | some d => .ok d
    | none => .error (np.dtypeError t)
  | some _ => .error .attributeError

/-- numpy.py:58-59 `NumpyDTypeHandler.restore` -/
def restoreDType (data : Data J) : Except Exc (DType sc.S) := restoreDt np data

/-- numpy.py:65-69: the value that is stored for a scalar -/
def stored (x : np.X) : V := if np.isScalar (np.tolist x) then np.text x else np.tolist x

/-- numpy.py:63-71 `NumpyGenericHandler.flatten` (also of `NumpyDatetimeHandler`, numpy.py:82-83) -/
def flattenGeneric (x : np.X) (data : Data J) : Except Exc (Data J) :=
  let data := flattenDType pr (native np.nat (np.dtype x)) data
  match ctx.flatten (stored np x) with
  | .ok j => .ok (dset p!"value" (.doc j) data)
  | .error e => .error e

/-- numpy.py:73-79 `NumpyGenericHandler.restore`: first the value, then the dtype -/
def restoreGeneric (data : Data J) : Except Exc np.X :=
  match dget p!"value" data with
  | some (.doc j) => match ctx.restore j with
    | .ok v => match restoreDt np data with
      | .ok d => np.array v d
      | .error e => .error e
    | .error e => .error e
  | some _ => .error .typeError
  | none => .error .keyError

/-- numpy.py:92-97 `UnpickleableNumpyGenericHandler.flatten`: a value instead of a data dict, or the method of the class after `NumpyGenericHandler` in the
resolution order, which is `BaseHandler.flatten` (handlers.py:140-149) -/
def flattenUnp (unpicklable : Bool) (x : np.X) : Except Exc J :=
  if !unpicklable then ctx.flatten (np.tolist x)
  else .error .notImplemented

/-- numpy.py:99-100 -/
def restoreUnp (_ : Data J) : Except Exc np.X := .error .notImplemented

/-- numpy.py:454-456 `NumpyUfuncHandler.flatten` -/
def flattenUfunc (d : LoadClass.Desc) (data : Data J) : Data J := dset p!"importable_name" (.text (LoadClass.importableName d)) data

/-- numpy.py:458-461 `NumpyUfuncHandler.restore` -/
def restoreUfunc (env : LoadClass.Env) (data : Data J) : Except Exc (Option Nat) :=
  match dget p!"importable_name" data with
  | some (.text t) => LoadClass.loadclass env t []
  | some _ => .error .attributeError
  | none => .error .keyError

/-- gmpy.py:14-16 `GmpyMPZHandler.flatten`; an `mpz` is an integer -/
def flattenMpz (n : Int) (data : Data J) : Data J := dset p!"int" (.int n) data

/-- gmpy.py:18-19 `GmpyMPZHandler.restore`; `mpz` also takes texts (`parse`) -/
def restoreMpz (parse : Str → Except Exc Int) (data : Data J) : Except Exc Int :=
  match dget p!"int" data with
  | some (.int n) => .ok n
  | some (.text t) => parse t
  | some (.doc _) => .error .typeError
  | none => .error .keyError

end JP.NumpyScalars
