import Verif.TagsPd
/-!
# `jsonpickle/tags_pd.py`: which dtype names get a tag

The module collects the names when it is imported.  numpy's dictionary of scalar types, the codes of its date types, the subclasses of
`ExtensionDtype` and their names are parameters.  Sets are lists without repetitions; the order in which Python lists a set
depends on the addresses of its elements and is a parameter as well.
-/
namespace JP.DTypeNames
open JP TagsPd

/-- `set.add` -/
def add (xs : List Nat) (x : Nat) : List Nat := if x ∈ xs then xs else xs ++ [x]

/-- `set.update` -/
def update (xs ys : List Nat) : List Nat := ys.foldl add xs

/-- tags_pd.py:125-131 `all_subclasses`; `subs c` is `c.__subclasses__()`.  The first argument bounds the recursion. -/
def allSubclasses (subs : Nat → List Nat) : Nat → Nat → Option (List Nat)
  | 0, _ => none
  | n + 1, c => (subs c).foldlM (fun acc d => (allSubclasses subs n d).map (fun ds => update (add acc d) ds)) []

/-- `list(dict.fromkeys(names))` -/
def fromkeys (names : List Str) : List Str := names.foldl (fun acc s => if s ∈ acc then acc else acc ++ [s]) []

/-- tags_pd.py:148-169: the codes with a unit, which is the part in the first brackets -/
def variants (pre : Str) (codes : List Str) : List Str := fromkeys (codes.filterMap (fun v => (brackets v).map (pre ++ ·)))

/-- tags_pd.py:134-202 `get_all_numpy_dtype_strings` and 235-239: `sctypes` are the lower-case names of the scalar types, `none` where `np.dtype` raises
`TypeError` -/
def numpyNames (sctypes : List (Option Str)) (dtCodes tdCodes : List Str) : List Str :=
  fromkeys (sctypes.filterMap id ++ (variants p!"datetime64" dtCodes ++ variants p!"timedelta64" tdCodes))

/-- tags_pd.py:205-232 `get_all_pandas_dtype_strings` and 241-245, which keeps only strings: `listing` are the subclasses in the order of the set, `name c` is `c.name.lower()` if
there is a name and this does not raise, `storage` are the names of the string types -/
def pandasNames (listing : List Nat) (name : Nat → Option Str) (storage : List Str) : List Str := fromkeys (listing.filterMap name ++ storage)

/-- tags_pd.py:248-251 `TYPE_MAP` -/
def typeTable (ch : Chars) (np pd : List Str) : Except Exc (List (Str × Str)) :=
  match tags ch np p!"np", tags ch pd p!"pd" with
  | .ok a, .ok b => .ok (typeMap a b)
  | .error e, _ => .error e
  | _, .error e => .error e

end JP.DTypeNames
