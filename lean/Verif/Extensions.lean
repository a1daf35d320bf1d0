import Verif.Registry
/-!
# `register_handlers` and `unregister_handlers` of the extensions

The calls that `jsonpickle.ext.numpy`, `.pandas` and `.gmpy` make on the handler registry.  Classes and handlers are numbered.  Simplification: the classes
of dtypes are different from each other and from `np.dtype` (true since numpy 1.20; with older versions the same class is registered several times).
-/
namespace JP.Ext
open JP JP.Registry

/-! numpy classes, in the order of numpy.py:482-490 -/
def ndarray : Nat := 100
def dtype : Nat := 101
def generic : Nat := 102
def voidDtype : Nat := 103
def float32Dtype : Nat := 104
def int32Dtype : Nat := 105
def datetime64Dtype : Nat := 106
def datetime64 : Nat := 107
def ufunc : Nat := 108
/-! pandas classes, in the order of pandas.py:459-466 -/
def dataFrame : Nat := 110
def series : Nat := 111
def index : Nat := 112
def periodIndex : Nat := 113
def multiIndex : Nat := 114
def timestamp : Nat := 115
def period : Nat := 116
def interval : Nat := 117
/-- `gmpy2.mpz` -/
def mpz : Nat := 120

/-! the handlers -/
def ndarrayHandler : Nat := 1
def dtypeHandler : Nat := 2
def genericHandler : Nat := 3
def datetimeHandler : Nat := 4
def ufuncHandler : Nat := 5
def dfHandler : Nat := 11
def seriesHandler : Nat := 12
def indexHandler : Nat := 13
def periodIndexHandler : Nat := 14
def multiIndexHandler : Nat := 15
def timestampHandler : Nat := 16
def periodHandler : Nat := 17
def intervalHandler : Nat := 18
def mpzHandler : Nat := 20

/-- ext/numpy.py:464-490 -/
def registerNumpy : List Op :=
  [.reg ndarray ndarrayHandler true, .reg dtype dtypeHandler true, .reg generic genericHandler true, .reg voidDtype dtypeHandler true, .reg float32Dtype dtypeHandler true,
   .reg int32Dtype dtypeHandler true, .reg datetime64Dtype dtypeHandler true, .reg datetime64 datetimeHandler true, .reg ufunc ufuncHandler true]

/-- ext/numpy.py:493-504 -/
def unregisterNumpy : List Op :=
  [.unreg dtype, .unreg generic, .unreg ndarray, .unreg voidDtype, .unreg float32Dtype, .unreg int32Dtype, .unreg datetime64Dtype, .unreg ufunc]

/-- ext/pandas.py:457-466 -/
def registerPandas : List Op := registerNumpy ++
  [.reg dataFrame dfHandler true, .reg series seriesHandler true, .reg index indexHandler true, .reg periodIndex periodIndexHandler true,
   .reg multiIndex multiIndexHandler true, .reg timestamp timestampHandler true, .reg period periodHandler true, .reg interval intervalHandler true]

/-- ext/pandas.py:469-478 -/
def unregisterPandas : List Op := unregisterNumpy ++
  [.unreg dataFrame, .unreg series, .unreg index, .unreg periodIndex, .unreg multiIndex, .unreg timestamp, .unreg period, .unreg interval]

/-- ext/gmpy.py:22-24; `installed`: `gmpy is not None` -/
def registerGmpy (installed : Bool) : List Op := if installed then [.reg mpz mpzHandler true] else []

/-- ext/gmpy.py:27-29 -/
def unregisterGmpy (installed : Bool) : List Op := if installed then [.unreg mpz] else []

/-- the registry after these calls -/
def after (w : Classes) (r : Reg) (ops : List Op) : Reg := ops.foldl (step w) r

end JP.Ext
