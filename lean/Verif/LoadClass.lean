import Verif.Basic
/-!
# Names of classes and modules (`jsonpickle/util.py`, `jsonpickle/unpickler.py`)

Python objects (modules, classes, functions) are numbered here.
-/
namespace JP.LoadClass
open JP

/-- `s.split(".")` -/
def splitDot : Str → List Str
  | [] => [[]]
  | c :: r =>
    if c = 46 then [] :: splitDot r
    else match splitDot r with
      | [] => [[c]]
      | h :: t => (c :: h) :: t

/-- `".".join(names)` -/
def joinDot : List Str → Str
  | [] => []
  | [a] => a
  | a :: b :: r => a ++ 46 :: joinDot (b :: r)

/-- util.py:427-443, `translate_module_name`. -/
def translateModuleName (m : Str) : Str :=
  (dget m [(p!"__builtin__", p!"builtins"), (p!"exceptions", p!"builtins")]).getD m

/-- util.py:446-461, `_0_9_6_compat_untranslate` / `untranslate_module_name`. -/
def untranslateModuleName (m : Str) : Str :=
  (dget m [(p!"__builtin__", p!"builtins"), (p!"exceptions", p!"builtins")]).getD m

/-- What `importable_name` reads from a class or function: its entry in
`_TYPES_IMPORTABLE_NAMES` (util.py:65-69), `__qualname__` (or `__name__`), `__module__` (`None` for
some builtin methods), and, if there is `__self__`, its `__module__` or that of its class. -/
structure Desc where
  typesName : Option Str := none
  qualname : Str
  module_ : Option Str
  selfModule : Option Str := none

/-- util.py:464-497, `importable_name`. -/
def importableName (d : Desc) : Str :=
  match d.typesName with
  | some s => s
  | none =>
    let m := d.module_.map translateModuleName
    let m := if m.getD [] = [] then d.selfModule.orElse (fun _ => m) else m
    m.getD p!"None" ++ 46 :: d.qualname

/-- The import system: `import_ m` is `__import__(m); sys.modules[m]`, `importTop m` is the value of
`__import__(m)` (the top-level package), `attr` is `getattr`.  All may raise anything. -/
structure Env where
  import_ : Str → Except Exc Nat
  importTop : Str → Except Exc Nat
  attr : Nat → Str → Except Exc Nat
  noneType : Nat

/-- `for class_name in ...: obj = getattr(obj, class_name)` -/
def attrs (env : Env) (o : Nat) : List Str → Except Exc Nat
  | [] => .ok o
  | a :: r => match env.attr o a with
    | .ok o' => attrs env o' r
    | .error e => .error e

/-- util.py:592 `except (AttributeError, ImportError, ValueError)`; `UnicodeError` is a `ValueError`. -/
def caught (e : Exc) : Bool :=
  e = .attributeError || e = .importError || e = .valueError || e = .unicodeError

/-- One turn of the loop, util.py:583-591: the module is `names[:k]`, the rest are attributes. -/
def attempt (env : Env) (names : List Str) (k : Nat) : Except Exc Nat :=
  match env.import_ (untranslateModuleName (joinDot (names.take k))) with
  | .error e => .error e
  | .ok o => attrs env o (names.drop k)

/-- util.py:582-593, `for up_to in range(len(names) - 1, 0, -1)`; called with `k = len(names) - 1`. -/
def search (env : Env) (names : List Str) : Nat → Except Exc (Option Nat)
  | 0 => .ok none
  | k + 1 => match attempt env names (k + 1) with
    | .ok o => .ok (some o)
    | .error e => if caught e then search env names k else .error e

/-- util.py:555-598, `loadclass`.  An empty `classes` mapping is falsy. -/
def loadclass (env : Env) (name : Str) (classes : List (Str × Nat)) : Except Exc (Option Nat) :=
  let names := splitDot name
  let provided := if classes = [] then none else
    match dget name classes with
    | some c => some c
    | none => dget (names.getLast?.getD []) classes
  match provided with
  | some c => .ok (some c)
  | none =>
    match search env names (names.length - 1) with
    | .error e => .error e
    | .ok (some o) => .ok (some o)
    | .ok none => if name = p!"builtins.NoneType" then .ok (some env.noneType) else .ok none

/-! ### `Unpickler.register_classes` -/

/-- The `classes` argument: a class, a (nested) list/tuple/set of such, or a dict from names or classes
to classes (unpickler.py:409-427). -/
inductive ClassesArg
  | cls (c : Nat)
  | seq (xs : List ClassesArg)
  | dict (kvs : List ((Str ⊕ Nat) × Nat))

mutual
/-- unpickler.py:409-427; `iname` is `util.importable_name`. -/
def registerClasses (iname : Nat → Str) (acc : List (Str × Nat)) : ClassesArg → List (Str × Nat)
  | .cls c => dset (iname c) c acc
  | .seq xs => registerAll iname acc xs
  | .dict kvs => kvs.foldl (fun a kv => dset (match kv.1 with | .inl s => s | .inr c => iname c) kv.2 a) acc
def registerAll (iname : Nat → Str) (acc : List (Str × Nat)) : List ClassesArg → List (Str × Nat)
  | [] => acc
  | x :: r => registerAll iname (registerClasses iname acc x) r
end

/-! ### `_loadmodule` -/

/-- `s.split("/")` -/
def splitSlash : Str → List Str
  | [] => [[]]
  | c :: r =>
    if c = 47 then [] :: splitSlash r
    else match splitSlash r with
      | [] => [[c]]
      | h :: t => (c :: h) :: t

/-- unpickler.py:298-303, the loop over `identifier_parts[1:]`. -/
def loadModuleAttrs (env : Env) (o : Nat) : List Str → Except Exc (Option Nat)
  | [] => .ok (some o)
  | a :: r => match env.attr o a with
    | .ok o' => loadModuleAttrs env o' r
    | .error .attributeError => .ok none
    | .error e => .error e

/-- unpickler.py:284-306, `_loadmodule`.  Anything but exactly one `/` fails to unpack (`ValueError`). -/
def loadmodule (env : Env) (s : Str) : Except Exc (Option Nat) :=
  match splitSlash s with
  | [m, ident] =>
    match env.importTop m with
    | .error .importError => .ok none
    | .error e => .error e
    | .ok result =>
      match splitDot ident with
      | [] => .ok none
      | first :: rest =>
        if first ≠ m ∧ startsWith m (first ++ [46]) = false then .ok none
        else loadModuleAttrs env result rest
  | _ => .error .valueError

end JP.LoadClass
