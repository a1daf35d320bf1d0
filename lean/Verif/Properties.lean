import Verif.Pickler
/-!
# `include_properties=True` — models jsonpickle/pickler.py:529-560, 575-576, 643-644

The functions of `Verif/Pickler.lean` that end up in `_flatten_obj_instance`, once more, with the option.  What the members of a class
give on an instance is a parameter.  Functions that do not depend on the option are used as they are.
-/
namespace JP
open PyM

/-- What `getattr(obj, name)` gives for a member of the class (pickler.py:551-556).
* `raw`: a value of one of the types in `NON_CLASS_TYPES` (util.py:58-64), which is put into the document as it is; only values that the
  JSON backend can write are considered.
* `val`: any other value, which is flattened: an object, a class, a function, a bound method.
* `raises`: the property raises. -/
inductive PropVal
  | raw (j : Json)
  | val (v : Val)
  | raises (e : Exc)

/-- The option, and the members that are looked at (pickler.py:545-548): those whose names do not begin with two underscores, in the order
of `inspect.getmembers`; `nonSlots` are those among them that are not slots. -/
structure PropCfg where
  inc : Bool
  members : Addr → List (Str × PropVal)
  nonSlots : Addr → List (Str × PropVal)

namespace Pickler.WithProps
variable (w : World) (cfg : PCfg) (px : PropCfg) (fl : Val → P Json)

/-- pickler.py:551-556 -/
def propValue (p : PropVal) : P Json :=
  match p with
  | .raw j => pure j
  | .val v => fl v
  | .raises e => throw e

/-- pickler.py:550-560; when the option is given (575, 643) -/
def putProps (ps : List (Str × PropVal)) (data : List (Str × Json)) : P (List (Str × Json)) :=
  if px.inc then do
    let js ← mapM (fun (kv : Str × PropVal) => do
      let j ← propValue fl kv.2
      pure (kv.1, j)) ps
    pure (dset Tags.PROPERTY (.obj js) data)
  else pure data

/-- pickler.py:913, 643; the class `CloneFactory` has no member whose name does not begin with two underscores (handlers.py:273-285) -/
def flattenClone (exemplar : Val) : P Json := do
  let data ← putProps px fl [] []
  let data := if cfg.unpicklable then dset Tags.OBJECT (Json.str CLONE) data else data
  let data ← flattenEntries w cfg fl [(.str p!"exemplar", exemplar)] [] data
  pure (.obj data)

/-- pickler.py:902-918 -/
def flattenFactory (f : Val) (exemplar : Except Exc Val) : P Json :=
  match f with
  | .type n => pure (mktyperef n)
  | _ => do
    let new ← mkref cfg f.ident
    if new then do
      let x ← ofExcept exemplar
      flattenClone w cfg px fl x
    else getref f.ident

/-- pickler.py:893-919 -/
def flattenDefault (factory : Option Val) (exemplar : Except Exc Val) (data : List (Str × Json)) :
    P (List (Str × Json)) :=
  match factory with
  | none => pure data
  | some f => do
    let key := if dhas p!"default_factory" data then Tags.DEFAULT_FACTORY else p!"default_factory"
    let j ← flattenFactory w cfg px fl f exemplar
    pure (dset key j data)

/-- pickler.py:864-930 -/
def flattenDictSub (a : Addr) (i : Inst) (data : List (Str × Json)) : P (List (Str × Json)) := do
  let data ← flattenEntries w cfg fl i.items i.exclude data
  let data ← flattenDefault w cfg px fl i.factory (outcome i.errs.factory i.exemplar) data
  flattenOwnDict w cfg fl a i i.exclude data

/-- pickler.py:562-584 -/
def flattenSlots (a : Addr) (i : Inst) (data : List (Str × Json)) : P Json := do
  let data ← putProps px fl (px.nonSlots a) data
  Pickler.flattenSlots w fl i data

/-- pickler.py:729-787 -/
def flattenRest (a : Addr) (i : Inst) (data : List (Str × Json)) : P Json :=
  match i.info.base with
  | .dict => do
    let d ← flattenDictSub w cfg px fl a i data
    pure (.obj d)
  | .list | .set | .tuple => flattenSequence w cfg fl i data
  | .plain =>
    if i.info.isIterator then do
      let js ← mapM fl (iterated cfg i)
      ofExcept (outcome (iterErr cfg i) ())
      pure (.obj (dset Tags.ITERATOR (.arr js) data))
    else if i.info.hasDict then do
      let d ← flattenEntries w cfg fl (dictItems w i) i.exclude data
      pure (.obj d)
    else if i.info.hasSlots then flattenSlots w px fl a i data
    else if !data.isEmpty then pure (.obj data)
    else if cfg.unpicklable then pure .null
    else match (if i.info.reduces then i.reduce else .nothing) with
      | .tup xs =>
        if truthy w.heap (xs.getD 2 .none) then fl (xs.getD 2 .none)
        else if truthy w.heap (xs.getD 1 .none) then fl (xs.getD 1 .none)
        else pure .null
      | .raise e => if e == .typeError then pure .null else throw e
      | _ => pure .null

/-- pickler.py:722-724: the dict of which the state is what is left without the excluded keys -/
def stateDict (i : Inst) (st : Val) : Option (List (Val × Val)) :=
  match st with
  | .ref d => (match w.heap[d]? with
    | some (.dict kvs) => if i.exclude.isEmpty then none else some kvs
    | _ => none)
  | _ => none

/-- pickler.py:715-727 -/
def flattenGetstate (a : Addr) (i : Inst) (data : List (Str × Json)) : P Json :=
  if i.info.ownGetstate then
    match i.state with
    | .error e => if e == .typeError then pure .null else throw e
    | .ok st =>
      match stateDict w i st with
      | some kvs =>
        if (itemsExcl i.exclude kvs).isEmpty then flattenRest w cfg px fl a i data
        else do
          let j ← flattenFilteredState w cfg fl a kvs i.exclude
          pure (putState cfg j data)
      | none =>
        if truthy w.heap st then do
          let j ← fl st
          pure (putState cfg j data)
        else flattenRest w cfg px fl a i data
  else flattenRest w cfg px fl a i data

/-- pickler.py:702 -/
def objTag (i : Inst) (data : List (Str × Json)) : List (Str × Json) :=
  if cfg.unpicklable then dset Tags.OBJECT (.str i.cls) data else data

/-- pickler.py:700-787 -/
def flattenBody (a : Addr) (i : Inst) (data : List (Str × Json)) : P Json := do
  let data ← flattenNewargs fl i (objTag cfg i data)
  let data ← flattenInitargs fl i data
  flattenGetstate w cfg px fl a i data

/-- pickler.py:646-698 -/
def flattenReduce (a : Addr) (i : Inst) (data : List (Str × Json)) : P Json :=
  match (if cfg.unpicklable && i.info.reduces then i.reduce else .nothing) with
  | .nothing => flattenBody w cfg px fl a i data
  | .raise e => if e == .typeError then flattenBody w cfg px fl a i data else throw e
  | .str none => flattenBody w cfg px fl a i data
  | .str (some v) =>
    tryCatch (fl v) (· == .keyError) (fun _ => flattenBody w cfg px fl a i data)
  | .tup xs =>
    if xs.isEmpty then flattenBody w cfg px fl a i data
    else if reduceSane w i xs then do
      let js ← mapM fl (newobjMark (padReduce xs))
      pure (.obj (dset Tags.REDUCE (.arr (trimReduce js)) data))
    else flattenBody w cfg px fl a i data

/-- pickler.py:602-787; the properties are written before the reduce protocol is tried, and not at all for a class with a handler -/
def flattenInst (a : Addr) (i : Inst) : P Json :=
  match w.handler i.cls with
  | some _ => Pickler.flattenInst w cfg fl a i
  | none => do
    let data ← putProps px fl (px.members a) []
    flattenReduce w cfg px fl a i data

/-- pickler.py:643, 729-736; a module has no member whose name does not begin with two underscores.  With `unpicklable=False` the text
replaces what was there. -/
def flattenModule (n : Str) : P Json := do
  let data ← putProps px fl [] []
  if cfg.unpicklable then pure (.obj (dset Tags.MODULE (.str (n ++ 47 :: n)) data))
  else do
    let s ← ofExcept (w.pystr (.module n))
    pure (.str s)

/-- pickler.py:932-962 -/
def flattenBy (v : Val) : P Json :=
  match v with
  | .ref a =>
    match w.heap[a]? with
    | some (.inst i) => refObjInstance cfg (.addr a) i.info.isEnum (flattenInst w cfg px fl a i)
    | _ => Pickler.flattenBy w cfg fl v
  | .module n => refObjInstance cfg (.mod n) false (flattenModule w cfg px fl n)
  | v => Pickler.flattenBy w cfg fl v

/-- pickler.py:417-443 -/
def flattenObj (v : Val) : P Json :=
  flattenObjWith cfg v v.ident (isEnumV w v) (w.repr v) (flattenBy w cfg px fl v)

/-- pickler.py:388-408 -/
def flattenImpl (v : Val) : P Json :=
  match v with
  | .bytes _ b => pure (flattenBytestring cfg b)
  | .none => pure .null
  | .bool b => pure (.bool b)
  | .int i => pure (.int i)
  | .float f => pure (.float f)
  | .str s => pure (.str s)
  | .bytearray _ b => pure (.obj [(Tags.BYTEARRAY, flattenBytestring cfg b)])
  | v => do
    push
    let j ← flattenObj w cfg px fl v
    pop j

/-- pickler.py:340-349 -/
def flattenStep (v : Val) : P Json :=
  match v with
  | .none | .bool _ | .int _ | .float _ | .str _ => flattenImpl w cfg px fl v
  | v => cached cfg v.ident (flattenImpl w cfg px fl v)

/-- `_flatten` with recursion bounded by fuel -/
def flatten (w : World) (cfg : PCfg) (px : PropCfg) : Nat → Val → P Json
  | 0, _ => outOfFuel
  | n + 1, v => flattenStep w cfg px (flatten w cfg px n) v

/-- pickler.py:351-383 -/
def flattenTop (w : World) (cfg : PCfg) (px : PropCfg) (n : Nat) (v : Val) (doReset : Bool) : P Json :=
  if doReset then do
    reset
    flatten w cfg px n v
  else flatten w cfg px n v

end Pickler.WithProps

namespace Api

/-- pickler.py:21-178 `encode(value, include_properties=…)` -/
def encodeWith (w : World) (cfg : PCfg) (px : PropCfg) (n : Nat) (v : Val) : P Str := do
  let j ← Pickler.WithProps.flattenTop w cfg px n v true
  pure (w.dumps j)

end Api
end JP
