import Verif.Pickler
/-!
# The question whether an object is a Cython function — models jsonpickle/util.py:239-277, 335-341

`_get_flattener` (pickler.py:948) asks it of every object that is not a list, dict, tuple or set, and `_is_picklable` (pickler.py:467,
822, 845) of every value of a dict and of every attribute.  The answer is the text of `repr(obj)` when the object is callable.  The
functions of `Verif/Pickler.lean` once more, with this question; functions that do not depend on it are used as they are.
-/
namespace JP
open PyM

/-- What is callable, and which callables are bound methods (`types.MethodType`, util.py:37-43).  Functions and lambdas have values of
their own, `.func` and `.lambda`, and their `repr` is harmless. -/
structure Probe where
  /-- `callable(v)`, for instances and classes -/
  calls : Val → Bool
  /-- `type(v) is types.MethodType` -/
  method : Val → Bool
  /-- `util.importable_name(v)` (util.py:464-501) -/
  name : Val → Except Exc Str

namespace Pickler.WithProbe
variable (q : Probe) (w : World) (cfg : PCfg) (fl : Val → P Json)

/-- util.py:335-341 `_is_cython_function` -/
def isCython (v : Val) : Except Exc Bool :=
  if q.calls v then
    match w.repr v with
    | .ok s => .ok (startsWith s p!"<cyfunction ")
    | .error e => .error e
  else .ok false

/-- util.py:239-257 `_is_module_function`; only instances and classes are neither functions nor of a type that cannot be called. -/
def isModuleFunction (v : Val) : Except Exc Bool :=
  match v with
  | .func _ => .ok true
  | .type _ => isCython q w v
  | .ref a =>
    match w.heap[a]? with
    | some (.inst _) => isCython q w v
    | _ => .ok false
  | _ => .ok false

/-- util.py:220-236 `_is_function` -/
def isFunction (v : Val) : Bool :=
  match v with
  | .func _ | .lambda _ => true
  | _ => q.method v

/-- util.py:260-277 `_is_picklable` -/
def isPicklable (k v : Val) : Except Exc Bool :=
  if (match k with | .str s => Tags.isReserved s | _ => false) then .ok false
  else
    match isModuleFunction q w v with
    | .ok m => .ok (m || !isFunction q v)
    | .error e => .error e

/-- pickler.py:448-454 `_flatten_function` -/
def flattenFunction (v : Val) : P Json :=
  if cfg.unpicklable then do
    let n ← ofExcept (q.name v)
    pure (.obj [(Tags.FUNCTION, .str n)])
  else pure .null

/-- pickler.py:464-491 -/
def flattenKeyValuePair (k v : Val) (data : List (Str × Json)) : P (List (Str × Json)) :=
  do
    let ok ← ofExcept (isPicklable q w k v)
    if ok then do
      let k ← ofExcept (reprKey w k)
      let j ← fl v
      pure (dset k j data)
    else pure data

/-- pickler.py:820-829 -/
def flattenNonString (k v : Val) (data : List (Str × Json)) : P (List (Str × Json)) :=
  do
    let ok ← ofExcept (isPicklable q w k v)
    if ok then
      match k with
      | .str _ => pure data
      | _ =>
        if cfg.keys then do
          let k' ← escapeKey w fl k
          let j ← fl v
          pure (dset k' j data)
        else pure data
    else pure data

/-- pickler.py:844-862 -/
def flattenStringTail (k v : Val) (data : List (Str × Json)) : P (List (Str × Json)) :=
  do
    let ok ← ofExcept (isPicklable q w k v)
    if ok then
      if cfg.keys then
        match k with
        | .str s => do
          let j ← fl v
          pure (dset s j data)
        | _ => pure data
      else do
        let k ← ofExcept (reprKey w k)
        let j ← fl v
        pure (dset k j data)
    else pure data

/-- pickler.py:831-862.  (In line 842 the right-hand side is evaluated before the key.) -/
def flattenString (k v : Val) (data : List (Str × Json)) : P (List (Str × Json)) :=
  match k with
  | .str s =>
    if needsEscape s && cfg.keys then do
      let j ← fl v
      let k' ← escapeKey w fl k
      pure (dset k' j data)
    else flattenStringTail q w cfg fl k v data
  | _ => flattenStringTail q w cfg fl k v data

/-- pickler.py:876-890: the entries of a dict. -/
def flattenEntries (kvs : List (Val × Val)) (exclude : List Str) (data : List (Str × Json)) :
    P (List (Str × Json)) :=
  let kvs := itemsExcl exclude kvs
  if cfg.keys then do
    let data ← foldM (fun d (kv : Val × Val) => flattenString q w cfg fl kv.1 kv.2 d) data kvs
    foldM (fun d (kv : Val × Val) => flattenNonString q w cfg fl kv.1 kv.2 d) data kvs
  else
    foldM (fun d (kv : Val × Val) => flattenKeyValuePair q w fl kv.1 kv.2 d) data kvs

/-- pickler.py:913: `self._flatten_obj_instance(handlers.CloneFactory(factory()))`; the clone is a plain
instance whose `__dict__` is `{"exemplar": factory()}` (handlers.py:273-285). -/
def flattenClone (exemplar : Val) : P Json := do
  let data := if cfg.unpicklable then [(Tags.OBJECT, Json.str CLONE)] else []
  let data ← flattenEntries q w cfg fl [(.str p!"exemplar", exemplar)] [] data
  pure (.obj data)

/-- pickler.py:902-918: the value stored for a default factory. -/
def flattenFactory (f : Val) (exemplar : Except Exc Val) : P Json :=
  match f with
  | .type n => pure (mktyperef n)
  | _ => do
    let new ← mkref cfg f.ident
    if new then do
      let x ← ofExcept exemplar
      flattenClone q w cfg fl x
    else getref f.ident

/-- pickler.py:893-919: the defaultdict protocol. -/
def flattenDefault (factory : Option Val) (exemplar : Except Exc Val) (data : List (Str × Json)) :
    P (List (Str × Json)) :=
  match factory with
  | none => pure data
  | some f => do
    let key := if dhas p!"default_factory" data then Tags.DEFAULT_FACTORY else p!"default_factory"
    let j ← flattenFactory q w cfg fl f exemplar
    pure (dset key j data)

/-- pickler.py:921-928: the `__dict__` of a dict subclass instance. -/
def flattenOwnDict (a : Addr) (i : Inst) (exclude : List Str) (data : List (Str × Json)) :
    P (List (Str × Json)) :=
  if i.info.hasDict && cfg.unpicklable && !i.eqOwnDict then do
    let new ← mkref cfg (dictIdent a i)
    if new then do
      let dd ← flattenEntries q w cfg fl (dictItems w i) exclude []
      pure (dset p!"__dict__" (.obj dd) data)
    else do
      let r ← getref (dictIdent a i)
      pure (dset p!"__dict__" r data)
  else pure data

/-- pickler.py:864-930 `_flatten_dict_obj` for an instance of a dict subclass. -/
def flattenDictSub (a : Addr) (i : Inst) (data : List (Str × Json)) : P (List (Str × Json)) := do
  let data ← flattenEntries q w cfg fl i.items i.exclude data
  let data ← flattenDefault q w cfg fl i.factory (outcome i.errs.factory i.exemplar) data
  flattenOwnDict q w cfg fl a i i.exclude data

/-- pickler.py:504-527 `_flatten_obj_attrs`; an `AttributeError`, also one from inside the nested
flatten, skips the attribute. -/
def flattenObjAttrs (i : Inst) (lookup : List (Str × Val)) (names : List Str)
    (data : List (Str × Json)) : P (Bool × List (Str × Json)) :=
  foldM (fun (acc : Bool × List (Str × Json)) k =>
    if i.exclude.contains k then pure acc
    else
      tryCatch (do
        let name := if startsWith k p!"__" then p!"_" ++ i.info.shortName ++ k else k
        let v ← ofExcept (match dget name lookup with
          | some v => .ok v
          | none => .error .attributeError)
        let d ← flattenKeyValuePair q w fl (.str k) v acc.2
        pure (true, d))
        (· == .attributeError)
        (fun _ => pure acc)) (false, data) names

/-- pickler.py:562-584 -/
def flattenSlots (i : Inst) (data : List (Str × Json)) : P Json := do
  let r ← flattenObjAttrs q w fl i i.attrs i.info.slots data
  if r.1 then pure (.obj r.2)
  else do
    let r ← flattenObjAttrs q w fl i i.dirAttrs (i.dirAttrs.map (·.1)) r.2
    pure (.obj r.2)

/-- pickler.py:968-969: attributes of a list/set/tuple subclass (no `exclude` here). -/
def flattenSeqAttrs (i : Inst) (data : List (Str × Json)) : P (List (Str × Json)) :=
  if i.info.hasDict then flattenEntries q w cfg fl (dictItems w i) [] data else pure data

/-- pickler.py:964-975 -/
def flattenSequence (i : Inst) (data : List (Str × Json)) : P Json := do
  let data ← flattenSeqAttrs q w cfg fl i data
  let value ← mapM fl i.elems
  if cfg.unpicklable then pure (.obj (dset Tags.SEQ (.arr value) data))
  else pure (.arr value)

/-- pickler.py:723-727 for a state dict from which excluded keys were removed: a new dict object is
built and flattened. -/
def flattenFilteredState (a : Addr) (kvs : List (Val × Val)) (excl : List Str) : P Json :=
  cached cfg (.stateOf a) (do
    push
    let j ← flattenObjWith cfg (.ref a) (.stateOf a) false (w.repr (.ref a)) (do
      let new ← mkref cfg (.stateOf a)
      if new then do
        let d ← flattenEntries q w cfg fl (itemsExcl excl kvs) [] []
        pure (.obj d)
      else getref (.stateOf a))
    pop j)

/-- pickler.py:729-787: what is left when no handler, reduce value or state applied. -/
def flattenRest (a : Addr) (i : Inst) (data : List (Str × Json)) : P Json :=
  match i.info.base with
  | .dict => do
    let d ← flattenDictSub q w cfg fl a i data
    pure (.obj d)
  | .list | .set | .tuple => flattenSequence q w cfg fl i data
  | .plain =>
    if i.info.isIterator then do
      let js ← mapM fl (iterated cfg i)
      ofExcept (outcome (iterErr cfg i) ())
      pure (.obj (dset Tags.ITERATOR (.arr js) data))
    else if i.info.hasDict then do
      let d ← flattenEntries q w cfg fl (dictItems w i) i.exclude data
      pure (.obj d)
    else if i.info.hasSlots then flattenSlots q w fl i data
    else if !data.isEmpty then pure (.obj data)
    else if cfg.unpicklable then pure .null
    else match (if i.info.reduces then i.reduce else .nothing) with
      | .tup xs =>
        if truthy w.heap (xs.getD 2 .none) then fl (xs.getD 2 .none)
        else if truthy w.heap (xs.getD 1 .none) then fl (xs.getD 1 .none)
        else pure .null
      | .raise e => if e == .typeError then pure .null else throw e
      | _ => pure .null

/-- pickler.py:715-727: `__getstate__`. -/
def flattenGetstate (a : Addr) (i : Inst) (data : List (Str × Json)) : P Json :=
  if i.info.ownGetstate then
    match i.state with
    | .error e => if e == .typeError then pure .null else throw e
    | .ok st =>
      match (match st with
        | .ref d => (match w.heap[d]? with
          | some (.dict kvs) => if i.exclude.isEmpty then none else some kvs
          | _ => none)
        | _ => none) with
      | some kvs =>
        if (itemsExcl i.exclude kvs).isEmpty then flattenRest q w cfg fl a i data
        else do
          let j ← flattenFilteredState q w cfg fl a kvs i.exclude
          pure (putState cfg j data)
      | none =>
        if truthy w.heap st then do
          let j ← fl st
          pure (putState cfg j data)
        else flattenRest q w cfg fl a i data
  else flattenRest q w cfg fl a i data

/-- pickler.py:700-713 then 715-787: constructor arguments, then the state. -/
def flattenBody (a : Addr) (i : Inst) : P Json := do
  let data ← flattenNewargs fl i (objTag cfg i)
  let data ← flattenInitargs fl i data
  flattenGetstate q w cfg fl a i data

/-- pickler.py:646-698: the reduce protocol. -/
def flattenReduce (a : Addr) (i : Inst) : P Json :=
  match (if cfg.unpicklable && i.info.reduces then i.reduce else .nothing) with
  | .nothing => flattenBody q w cfg fl a i
  | .raise e => if e == .typeError then flattenBody q w cfg fl a i else throw e
  | .str none => flattenBody q w cfg fl a i
  | .str (some v) =>
    tryCatch (fl v) (· == .keyError) (fun _ => flattenBody q w cfg fl a i)
  | .tup xs =>
    if xs.isEmpty then flattenBody q w cfg fl a i
    else if reduceSane w i xs then do
      let js ← mapM fl (newobjMark (padReduce xs))
      pure (.obj [(Tags.REDUCE, .arr (trimReduce js))])
    else flattenBody q w cfg fl a i

/-- pickler.py:602-787 `_flatten_obj_instance`. -/
def flattenInst (a : Addr) (i : Inst) : P Json :=
  match w.handler i.cls with
  | some .record => do
    let data ← foldM (fun d (kv : Str × Val) => do
      let j ← fl kv.2
      pure (dset kv.1 j d)) (objTag cfg i) i.hfields
    ofExcept (outcome i.errs.handler ())
    pure (.obj data)
  | some .datetime => flattenDate w cfg fl a i
  | some .opaque => do
    ofExcept (outcome i.errs.handler ())
    pure (.obj (objTag cfg i))
  | some .drop => do
    ofExcept (outcome i.errs.handler ())
    pure .null
  | none => flattenReduce q w cfg fl a i

/-- pickler.py:932-962 `_get_flattener` and the call at line 435. -/
def flattenBy (v : Val) : P Json :=
  match v with
  | .ref a =>
    match w.heap[a]? with
    | some (.list xs) => do
      let new ← mkref cfg (.addr a)
      if new then do
        let js ← mapM fl xs
        pure (.arr js)
      else getref (.addr a)
    | some (.dict kvs) => do
      let new ← mkref cfg (.addr a)
      if new then do
        let d ← flattenEntries q w cfg fl kvs [] []
        pure (.obj d)
      else getref (.addr a)
    | some (.inst i) => do
      let m ← ofExcept (isCython q w (.ref a))
      if m then flattenFunction q cfg (.ref a)
      else refObjInstance cfg (.addr a) i.info.isEnum (flattenInst q w cfg fl a i)
    | _ => throw (.other 0)
  | .tuple _ xs => do
    let js ← mapM fl xs
    pure (if cfg.unpicklable then .obj [(Tags.TUPLE, .arr js)] else .arr js)
  | .set _ xs => do
    let js ← mapM fl xs
    pure (if cfg.unpicklable then .obj [(Tags.SET, .arr js)] else .arr js)
  | .func n => pure (if cfg.unpicklable then .obj [(Tags.FUNCTION, .str n)] else .null)
  | .type n => do
    let m ← ofExcept (isCython q w (.type n))
    if m then flattenFunction q cfg (.type n)
    else pure (mktyperef n)
  | .module n => refObjInstance cfg (.mod n) false (flattenModule w cfg n)
  | .lambda _ => pure .null
  | _ => throw (.other 0)

/-- pickler.py:417-443 -/
def flattenObj (v : Val) : P Json :=
  flattenObjWith cfg v v.ident (isEnumV w v) (w.repr v) (flattenBy q w cfg fl v)

/-- pickler.py:388-408 `_flatten_impl`. -/
def flattenImpl (v : Val) : P Json :=
  match v with
  | .bytes _ b => pure (flattenBytestring cfg b)
  | .none => pure .null
  | .bool b => pure (.bool b)
  | .int i => pure (.int i)
  | .float f => pure (.float f)
  | .str s => pure (.str s)
  | .bytearray _ b => pure (.obj [(Tags.BYTEARRAY, flattenBytestring cfg b)])
  | v => do
    push
    let j ← flattenObj q w cfg fl v
    pop j

/-- pickler.py:340-349 `_flatten`.  (A cached scalar is returned unchanged, so scalars bypass the
cache here.) -/
def flattenStep (v : Val) : P Json :=
  match v with
  | .none | .bool _ | .int _ | .float _ | .str _ => flattenImpl q w cfg fl v
  | v => cached cfg v.ident (flattenImpl q w cfg fl v)

/-- `_flatten` with recursion bounded by fuel. -/
def flatten (q : Probe) (w : World) (cfg : PCfg) : Nat → Val → P Json
  | 0, _ => outOfFuel
  | n + 1, v => flattenStep q w cfg (flatten q w cfg n) v

end Pickler.WithProbe

namespace Api

/-- pickler.py:21-178 `encode`, as in `Api.encode`, with the question -/
def encodeProbe (q : Probe) (w : World) (cfg : PCfg) (n : Nat) (v : Val) : P Str := do
  let j ← do
    Pickler.reset
    Pickler.WithProbe.flatten q w cfg n v
  pure (w.dumps j)

end Api
end JP
