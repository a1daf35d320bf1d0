import Verif.Tags
import Verif.Base64
/-!
# The encoder — models jsonpickle/pickler.py:181-975

Every function takes `fl`, the recursive call `self._flatten` with one unit of fuel less; `flatten`
at the end ties the knot.  Options not modelled here: `warn` (see `Verif/Warn.lean`), `numeric_keys` (see `Verif/NumericKeys.lean`),
`use_decimal`, `include_properties` (see `Verif/Properties.lean`), `handle_readonly` (see `Verif/Readonly.lean`), the backend's
`sort_keys` (see there as well), `handler_context` (see `Verif/Registry.lean`).
-/
namespace JP
open PyM

/-- How a registered handler behaves (handlers.py:182-340).
* `record`: writes each of the object's `hfields` through `context.flatten(…, reset=False)` and reads
  them back with `context.restore(…, reset=False)` (ArrayHandler, RegexHandler, UUIDHandler, LockHandler, and user handlers of
  that form; scalars are flattened and restored to themselves).
* `datetime`: DatetimeHandler.  The fields of the object are what its `__reduce__` returns: the bytes of the state, further
  arguments, and last the class.
* `opaque`: writes nothing and restores a fresh object (QueueHandler).
* `drop`: `flatten` returns `None` (TextIOHandler). -/
inductive HKind | record | datetime | opaque | drop
  deriving Repr, DecidableEq, Inhabited

/-- Everything outside jsonpickle that the encoder consults. -/
structure World where
  heap : Heap
  /-- `repr(v)` -/
  repr : Val → Except Exc Str
  /-- `str(v)` -/
  pystr : Val → Except Exc Str
  /-- `backend.encode` on JSON documents -/
  dumps : Json → Str
  /-- `handlers.get(cls, handlers.get(class_name))` -/
  handler : Str → Option HKind

/-- The options of `Pickler.__init__` (pickler.py:210-265). -/
structure PCfg where
  unpicklable : Bool := true
  makeRefs : Bool := true
  keys : Bool := false
  maxDepth : Option Int := none
  maxIter : Option Nat := none
  useBase85 : Bool := false
  failSafe : Option (Exc → Except Exc Json) := none

/-- The mutable state of a `Pickler` (pickler.py:236-248).  `_objs` maps ids to consecutive numbers, so
it is the list of registered ids; `_flattened` maps ids to results. -/
structure PState where
  depth : Int := -1
  objs : List Ident := []
  seen : List Val := []
  flattened : List (Ident × Json) := []
  deriving Repr, Inhabited

abbrev P := PyM PState

namespace Pickler
variable (w : World) (cfg : PCfg) (fl : Val → P Json)

/-- pickler.py:294-298 -/
def reset : P Unit := modify (fun _ => {})

/-- pickler.py:300-302 -/
def push : P Unit := modify (fun s => { s with depth := s.depth + 1 })

/-- pickler.py:304-311 -/
def pop (j : Json) : P Json := fun s =>
  let s := { s with depth := s.depth - 1 }
  some (.ok j, if s.depth == -1 then {} else s)

/-- pickler.py:313-324 -/
def logRef (i : Ident) : P Bool := fun s =>
  if s.objs.contains i then some (.ok false, s)
  else some (.ok true, { s with objs := s.objs ++ [i] })

/-- pickler.py:326-334 -/
def mkref (i : Ident) : P Bool := do
  let isNew ← logRef i
  pure ((!cfg.unpicklable || !cfg.makeRefs) || isNew)

/-- pickler.py:336-338 -/
def getref (i : Ident) : P Json := fun s =>
  some (.ok (.obj [(Tags.ID, if s.objs.contains i then .int (s.objs.idxOf i) else .null)]), s)

/-- pickler.py:385-386 with 254-259 -/
def flattenBytestring (b : Bytes) : Json :=
  if cfg.useBase85 then .obj [(Tags.B85, .str (b85encode b))]
  else .obj [(Tags.B64, .str (b64encode b))]

/-- pickler.py:410-411 -/
def maxReached : P Bool := gets (fun s => some s.depth == cfg.maxDepth)

/-- pickler.py:181-189, for non-primitive values (primitives never get here, line 397) -/
def inCycle (i : Ident) (isEnum max makeRefs : Bool) : P Bool := fun s =>
  some (.ok ((max || (!makeRefs && s.objs.contains i)) && !isEnum), s)

/-- pickler.py:192-199 -/
def mktyperef (n : Str) : Json := .obj [(Tags.TYPE, .str n)]

/-- `util._is_picklable(k, v)` (util.py:260-277): not a reserved name, and not a function that cannot be
found by name. -/
def isPicklable (k v : Val) : Bool :=
  (match k with
    | .str s => !Tags.isReserved s
    | _ => true) &&
  (match v with
    | .lambda _ => false
    | _ => true)

/-- pickler.py:484-488 and 855-859: the JSON key for a non-string key when `keys=False`. -/
def reprKey (k : Val) : Except Exc Str :=
  match k with
  | .none => .ok p!"null"
  | .str s => .ok s
  | _ => match w.repr k with
    | .ok s => .ok s
    | .error e => if e.isException then w.pystr k else .error e

/-- pickler.py:464-491 -/
def flattenKeyValuePair (k v : Val) (data : List (Str × Json)) : P (List (Str × Json)) :=
  if isPicklable k v then do
    let k ← ofExcept (reprKey w k)
    let j ← fl v
    pure (dset k j data)
  else pure data

/-- pickler.py:810-818: `encode(k, reset=False, keys=True, context=self, …)` -/
def escapeKey (k : Val) : P Str := do
  let j ← fl k
  pure (Tags.JSON_KEY ++ w.dumps j)

/-- pickler.py:820-829 -/
def flattenNonString (k v : Val) (data : List (Str × Json)) : P (List (Str × Json)) :=
  if isPicklable k v then
    match k with
    | .str _ => pure data
    | _ =>
      if cfg.keys then do
        let k' ← escapeKey w fl k
        let j ← fl v
        pure (dset k' j data)
      else pure data
  else pure data

/-- pickler.py:837 -/
def needsEscape (s : Str) : Bool := startsWith s Tags.JSON_KEY || Tags.isReserved s

/-- pickler.py:844-862 -/
def flattenStringTail (k v : Val) (data : List (Str × Json)) : P (List (Str × Json)) :=
  if isPicklable k v then
    if cfg.keys then
      match k with
      | .str s => do
        let j ← fl v
        pure (dset s j data)
      | _ => pure data
    else do
      let k ← ofExcept (reprKey w k)
      let j ← fl v
      pure (dset k j data)
  else pure data

/-- pickler.py:831-862.  (In line 842 the right-hand side is evaluated before the key.) -/
def flattenString (k v : Val) (data : List (Str × Json)) : P (List (Str × Json)) :=
  match k with
  | .str s =>
    if needsEscape s && cfg.keys then do
      let j ← fl v
      let k' ← escapeKey w fl k
      pure (dset k' j data)
    else flattenStringTail w cfg fl k v data
  | _ => flattenStringTail w cfg fl k v data

/-- `util.items(obj, exclude)` (util.py:541-552) -/
def itemsExcl (exclude : List Str) (kvs : List (Val × Val)) : List (Val × Val) :=
  kvs.filter (fun kv => match kv.1 with
    | .str s => !exclude.contains s
    | _ => true)

/-- pickler.py:876-890: the entries of a dict. -/
def flattenEntries (kvs : List (Val × Val)) (exclude : List Str) (data : List (Str × Json)) :
    P (List (Str × Json)) :=
  let kvs := itemsExcl exclude kvs
  if cfg.keys then do
    let data ← foldM (fun d (kv : Val × Val) => flattenString w cfg fl kv.1 kv.2 d) data kvs
    foldM (fun d (kv : Val × Val) => flattenNonString w cfg fl kv.1 kv.2 d) data kvs
  else
    foldM (fun d (kv : Val × Val) => flattenKeyValuePair w fl kv.1 kv.2 d) data kvs

/-- string-keyed attributes seen as a dict -/
def asItems (attrs : List (Str × Val)) : List (Val × Val) := attrs.map (fun kv => (.str kv.1, kv.2))

/-- `obj.__dict__.items()` of an instance -/
def dictItems (i : Inst) : List (Val × Val) :=
  match i.dictCell with
  | none => asItems i.attrs
  | some d => match w.heap[d]? with
    | some (.dict kvs) => kvs
    | _ => []

/-- `id(obj.__dict__)` -/
def dictIdent (a : Addr) (i : Inst) : Ident :=
  match i.dictCell with
  | none => .dictOf a
  | some d => .addr d

def CLONE : Str := p!"jsonpickle.handlers.CloneFactory"

/-- pickler.py:913: `self._flatten_obj_instance(handlers.CloneFactory(factory()))`; the clone is a plain
instance whose `__dict__` is `{"exemplar": factory()}` (handlers.py:273-285). -/
def flattenClone (exemplar : Val) : P Json := do
  let data := if cfg.unpicklable then [(Tags.OBJECT, Json.str CLONE)] else []
  let data ← flattenEntries w cfg fl [(.str p!"exemplar", exemplar)] [] data
  pure (.obj data)

/-- pickler.py:902-918: the value stored for a default factory. -/
def flattenFactory (f : Val) (exemplar : Except Exc Val) : P Json :=
  match f with
  | .type n => pure (mktyperef n)
  | _ => do
    let new ← mkref cfg f.ident
    if new then do
      let x ← ofExcept exemplar
      flattenClone w cfg fl x
    else getref f.ident

/-- pickler.py:893-919: the defaultdict protocol. -/
def flattenDefault (factory : Option Val) (exemplar : Except Exc Val) (data : List (Str × Json)) :
    P (List (Str × Json)) :=
  match factory with
  | none => pure data
  | some f => do
    let key := if dhas p!"default_factory" data then Tags.DEFAULT_FACTORY else p!"default_factory"
    let j ← flattenFactory w cfg fl f exemplar
    pure (dset key j data)

/-- pickler.py:921-928: the `__dict__` of a dict subclass instance. -/
def flattenOwnDict (a : Addr) (i : Inst) (exclude : List Str) (data : List (Str × Json)) :
    P (List (Str × Json)) :=
  if i.info.hasDict && cfg.unpicklable && !i.eqOwnDict then do
    let new ← mkref cfg (dictIdent a i)
    if new then do
      let dd ← flattenEntries w cfg fl (dictItems w i) exclude []
      pure (dset p!"__dict__" (.obj dd) data)
    else do
      let r ← getref (dictIdent a i)
      pure (dset p!"__dict__" r data)
  else pure data

/-- pickler.py:864-930 `_flatten_dict_obj` for an instance of a dict subclass. -/
def flattenDictSub (a : Addr) (i : Inst) (data : List (Str × Json)) : P (List (Str × Json)) := do
  let data ← flattenEntries w cfg fl i.items i.exclude data
  let data ← flattenDefault w cfg fl i.factory (outcome i.errs.factory i.exemplar) data
  flattenOwnDict w cfg fl a i i.exclude data

/-- pickler.py:504-527 `_flatten_obj_attrs`; an `AttributeError`, also one from inside the nested
flatten, skips the attribute. -/
def flattenObjAttrs (i : Inst) (lookup : List (Str × Val)) (names : List Str)
    (data : List (Str × Json)) : P (Bool × List (Str × Json)) :=
  foldM (fun (acc : Bool × List (Str × Json)) k =>
    if i.exclude.contains k then pure acc
    else
      tryCatch (do
        let name := if startsWith k p!"__" then p!"_" ++ i.info.shortName ++ k else k
        let v ← ofExcept (match dget name lookup with
          | some v => .ok v
          | none => .error .attributeError)
        let d ← flattenKeyValuePair w fl (.str k) v acc.2
        pure (true, d))
        (· == .attributeError)
        (fun _ => pure acc)) (false, data) names

/-- pickler.py:562-584 -/
def flattenSlots (i : Inst) (data : List (Str × Json)) : P Json := do
  let r ← flattenObjAttrs w fl i i.attrs i.info.slots data
  if r.1 then pure (.obj r.2)
  else do
    let r ← flattenObjAttrs w fl i i.dirAttrs (i.dirAttrs.map (·.1)) r.2
    pure (.obj r.2)

/-- pickler.py:968-969: attributes of a list/set/tuple subclass (no `exclude` here). -/
def flattenSeqAttrs (i : Inst) (data : List (Str × Json)) : P (List (Str × Json)) :=
  if i.info.hasDict then flattenEntries w cfg fl (dictItems w i) [] data else pure data

/-- pickler.py:964-975 -/
def flattenSequence (i : Inst) (data : List (Str × Json)) : P Json := do
  let data ← flattenSeqAttrs w cfg fl i data
  let value ← mapM fl i.elems
  if cfg.unpicklable then pure (.obj (dset Tags.SEQ (.arr value) data))
  else pure (.arr value)

/-- pickler.py:667-671: pad the reduce tuple to six entries. -/
def padReduce (xs : List Val) : List Val := xs ++ List.replicate (6 - xs.length) .none

/-- last component of a dotted name -/
def shortOf (n : Str) : Str := (n.reverse.takeWhile (· != 46)).reverse

/-- pickler.py:673-674: `copyreg.__newobj__` becomes the marker string. -/
def newobjMark (xs : List Val) : List Val :=
  match xs with
  | .func n :: r => (if shortOf n == p!"__newobj__" then .str Tags.NEWOBJ else .func n) :: r
  | .type n :: r => (if shortOf n == p!"__newobj__" then .str Tags.NEWOBJ else .type n) :: r
  | xs => xs

def isNullJ : Json → Bool
  | .null => true
  | _ => false

/-- pickler.py:693-696: drop trailing `None`s but keep at least two entries. -/
def trimReduce (js : List Json) : List Json :=
  js.take 2 ++ ((js.drop 2).reverse.dropWhile isNullJ).reverse

/-- pickler.py:679-684: the reduce tuple is used unless it has a state that only a missing
`__setstate__` could consume. -/
def reduceSane (i : Inst) (xs : List Val) : Bool :=
  !(truthy w.heap (xs.getD 2 .none) && i.info.ownGetstate && !i.info.hasSetstate
    && i.info.base != .dict)

/-- pickler.py:456-462 `_getstate`, given the flattened state -/
def putState (j : Json) (data : List (Str × Json)) : Json :=
  if cfg.unpicklable then .obj (dset Tags.STATE j data) else j

/-- pickler.py:417-443 `_flatten_obj`, with the flattener passed in: `seenV` is what is appended to
`_seen`, `rep` is `repr(obj)`. -/
def flattenObjWith (seenV : Val) (id : Ident) (isEnum : Bool) (rep : Except Exc Str) (body : P Json) :
    P Json := do
  modify (fun s => { s with seen := s.seen ++ [seenV] })
  let max ← maxReached cfg
  tryCatch
    (do
      let cyc ← inCycle id isEnum max cfg.makeRefs
      if cyc then do
        let r ← ofExcept rep
        pure (.str r)
      else body)
    (fun e => e.isException && cfg.failSafe.isSome)
    (fun e => match cfg.failSafe with
      | some f => ofExcept (f e)
      | none => throw e)

/-- pickler.py:340-349 `_flatten`: the cache is only used when references are not. -/
def cached (id : Ident) (x : P Json) : P Json :=
  if cfg.unpicklable && cfg.makeRefs then x
  else do
    let s ← get
    match s.flattened.find? (fun p => p.1 == id) with
    | some p => pure p.2
    | none => do
      let j ← x
      modify (fun s => { s with flattened := (id, j) :: s.flattened })
      pure j

/-- pickler.py:723-727 for a state dict from which excluded keys were removed: a new dict object is
built and flattened. -/
def flattenFilteredState (a : Addr) (kvs : List (Val × Val)) (excl : List Str) : P Json :=
  cached cfg (.stateOf a) (do
    push
    let j ← flattenObjWith cfg (.ref a) (.stateOf a) false (w.repr (.ref a)) (do
      let new ← mkref cfg (.stateOf a)
      if new then do
        let d ← flattenEntries w cfg fl (itemsExcl excl kvs) [] []
        pure (.obj d)
      else getref (.stateOf a))
    pop j)

/-- pickler.py:749: the items that `islice(obj, self._max_iter)` takes from an iterator -/
def iterated (i : Inst) : List Val :=
  match cfg.maxIter with
  | none => i.elems
  | some n => i.elems.take n

/-- … and the exception that `__next__` raises, unless `islice` stops before -/
def iterErr (i : Inst) : Option Exc :=
  match cfg.maxIter with
  | none => i.errs.iter
  | some n => if n ≤ i.elems.length then none else i.errs.iter

/-- pickler.py:729-787: what is left when no handler, reduce value or state applied. -/
def flattenRest (a : Addr) (i : Inst) (data : List (Str × Json)) : P Json :=
  match i.info.base with
  | .dict => do
    let d ← flattenDictSub w cfg fl a i data
    pure (.obj d)
  | .list | .set | .tuple => flattenSequence w cfg fl i data
  | .plain =>
    if i.info.isIterator then do
      let js ← mapM fl (iterated cfg i)
      ofExcept (outcome (iterErr cfg i) ())
      pure (.obj (dset Tags.ITERATOR (.arr js) data))
    else if i.info.hasDict then do
      let d ← flattenEntries w cfg fl (dictItems w i) i.exclude data
      pure (.obj d)
    else if i.info.hasSlots then flattenSlots w fl i data
    else if !data.isEmpty then pure (.obj data)
    else if cfg.unpicklable then pure .null
    else match (if i.info.reduces then i.reduce else .nothing) with
      | .tup xs =>
        if truthy w.heap (xs.getD 2 .none) then fl (xs.getD 2 .none)
        else if truthy w.heap (xs.getD 1 .none) then fl (xs.getD 1 .none)
        else pure .null
      | .raise e => if e == .typeError then pure .null else throw e
      | _ => pure .null

/-- pickler.py:715-727: `__getstate__`. -/
def flattenGetstate (a : Addr) (i : Inst) (data : List (Str × Json)) : P Json :=
  if i.info.ownGetstate then
    match i.state with
    | .error e => if e == .typeError then pure .null else throw e
    | .ok st =>
      match (match st with
        | .ref d => (match w.heap[d]? with
          | some (.dict kvs) => if i.exclude.isEmpty then none else some kvs
          | _ => none)
        | _ => none) with
      | some kvs =>
        if (itemsExcl i.exclude kvs).isEmpty then flattenRest w cfg fl a i data
        else do
          let j ← flattenFilteredState w cfg fl a kvs i.exclude
          pure (putState cfg j data)
      | none =>
        if truthy w.heap st then do
          let j ← fl st
          pure (putState cfg j data)
        else flattenRest w cfg fl a i data
  else flattenRest w cfg fl a i data

/-- pickler.py:704-710 -/
def flattenNewargs (i : Inst) (data : List (Str × Json)) : P (List (Str × Json)) :=
  if i.info.hasNewargsEx then do
    let args ← ofExcept (outcome i.errs.newargsEx i.newargsEx)
    let x ← fl args.1
    let y ← fl args.2
    pure (dset Tags.NEWARGSEX (.arr [x, y]) data)
  else if i.info.hasNewargs then do
    let args ← ofExcept (outcome i.errs.newargs i.newargs)
    let x ← fl args
    pure (dset Tags.NEWARGS x data)
  else pure data

/-- pickler.py:712-713 -/
def flattenInitargs (i : Inst) (data : List (Str × Json)) : P (List (Str × Json)) :=
  if i.info.hasInitargs then do
    let args ← ofExcept (outcome i.errs.initargs i.initargs)
    let x ← fl args
    pure (dset Tags.INITARGS x data)
  else pure data

/-- pickler.py:636, 702: the class tag -/
def objTag (i : Inst) : List (Str × Json) :=
  if cfg.unpicklable then [(Tags.OBJECT, .str i.cls)] else []

/-- pickler.py:700-713 then 715-787: constructor arguments, then the state. -/
def flattenBody (a : Addr) (i : Inst) : P Json := do
  let data ← flattenNewargs fl i (objTag cfg i)
  let data ← flattenInitargs fl i data
  flattenGetstate w cfg fl a i data

/-- pickler.py:646-698: the reduce protocol. -/
def flattenReduce (a : Addr) (i : Inst) : P Json :=
  match (if cfg.unpicklable && i.info.reduces then i.reduce else .nothing) with
  | .nothing => flattenBody w cfg fl a i
  | .raise e => if e == .typeError then flattenBody w cfg fl a i else throw e
  | .str none => flattenBody w cfg fl a i
  | .str (some v) =>
    tryCatch (fl v) (· == .keyError) (fun _ => flattenBody w cfg fl a i)
  | .tup xs =>
    if xs.isEmpty then flattenBody w cfg fl a i
    else if reduceSane w i xs then do
      let js ← mapM fl (newobjMark (padReduce xs))
      pure (.obj [(Tags.REDUCE, .arr (trimReduce js))])
    else flattenBody w cfg fl a i

/-- the base64 text of the first field -/
def dateText : List (Str × Val) → Str
  | (_, .bytes _ b) :: _ => b64encode b
  | _ => []

/-- handlers.py:210-223 `DatetimeHandler.flatten`.  `str` stands for the method `isoformat`.  The class is flattened after the arguments and
written before them. -/
def flattenDate (a : Addr) (i : Inst) : P Json :=
  if cfg.unpicklable then do
    let js ← mapM fl (i.hfields.tail.map (·.2))
    ofExcept (outcome i.errs.handler ())
    pure (.obj (dset p!"__reduce__" (.arr [js.getLastD .null, .arr (.str (dateText i.hfields) :: js.dropLast)]) (objTag cfg i)))
  else do
    let s ← ofExcept (w.pystr (.ref a))
    ofExcept (outcome i.errs.handler ())
    pure (.str s)

/-- pickler.py:602-787 `_flatten_obj_instance`. -/
def flattenInst (a : Addr) (i : Inst) : P Json :=
  match w.handler i.cls with
  | some .record => do
    let data ← foldM (fun d (kv : Str × Val) => do
      let j ← fl kv.2
      pure (dset kv.1 j d)) (objTag cfg i) i.hfields
    ofExcept (outcome i.errs.handler ())
    pure (.obj data)
  | some .datetime => flattenDate w cfg fl a i
  | some .opaque => do
    ofExcept (outcome i.errs.handler ())
    pure (.obj (objTag cfg i))
  | some .drop => do
    ofExcept (outcome i.errs.handler ())
    pure .null
  | none => flattenReduce w cfg fl a i

/-- pickler.py:729-736 (and 602-700, which do nothing for a module) -/
def flattenModule (n : Str) : P Json :=
  if cfg.unpicklable then pure (.obj [(Tags.MODULE, .str (n ++ 47 :: n))])
  else do
    let s ← ofExcept (w.pystr (.module n))
    pure (.str s)

/-- pickler.py:789-808 `_ref_obj_instance`. -/
def refObjInstance (id : Ident) (isEnum : Bool) (body : P Json) : P Json :=
  if cfg.unpicklable then do
    let new ← mkref cfg id
    if new then body else getref id
  else do
    let max ← maxReached cfg
    let cyc ← inCycle id isEnum max false
    if cyc then pure .null
    else do
      let _ ← mkref cfg id
      body

/-- pickler.py:932-962 `_get_flattener` and the call at line 435. -/
def flattenBy (v : Val) : P Json :=
  match v with
  | .ref a =>
    match w.heap[a]? with
    | some (.list xs) => do
      let new ← mkref cfg (.addr a)
      if new then do
        let js ← mapM fl xs
        pure (.arr js)
      else getref (.addr a)
    | some (.dict kvs) => do
      let new ← mkref cfg (.addr a)
      if new then do
        let d ← flattenEntries w cfg fl kvs [] []
        pure (.obj d)
      else getref (.addr a)
    | some (.inst i) => refObjInstance cfg (.addr a) i.info.isEnum (flattenInst w cfg fl a i)
    | _ => throw (.other 0)
  | .tuple _ xs => do
    let js ← mapM fl xs
    pure (if cfg.unpicklable then .obj [(Tags.TUPLE, .arr js)] else .arr js)
  | .set _ xs => do
    let js ← mapM fl xs
    pure (if cfg.unpicklable then .obj [(Tags.SET, .arr js)] else .arr js)
  | .func n => pure (if cfg.unpicklable then .obj [(Tags.FUNCTION, .str n)] else .null)
  | .type n => pure (mktyperef n)
  | .module n => refObjInstance cfg (.mod n) false (flattenModule w cfg n)
  | .lambda _ => pure .null
  | _ => throw (.other 0)

/-- `util._is_enum` (util.py:172-174) -/
def isEnumV (v : Val) : Bool :=
  match v with
  | .ref a => match w.heap[a]? with
    | some (.inst i) => i.info.isEnum
    | _ => false
  | _ => false

/-- pickler.py:417-443 -/
def flattenObj (v : Val) : P Json :=
  flattenObjWith cfg v v.ident (isEnumV w v) (w.repr v) (flattenBy w cfg fl v)

/-- pickler.py:388-408 `_flatten_impl`. -/
def flattenImpl (v : Val) : P Json :=
  match v with
  | .bytes _ b => pure (flattenBytestring cfg b)
  | .none => pure .null
  | .bool b => pure (.bool b)
  | .int i => pure (.int i)
  | .float f => pure (.float f)
  | .str s => pure (.str s)
  | .bytearray _ b => pure (.obj [(Tags.BYTEARRAY, flattenBytestring cfg b)])
  | v => do
    push
    let j ← flattenObj w cfg fl v
    pop j

/-- pickler.py:340-349 `_flatten`.  (A cached scalar is returned unchanged, so scalars bypass the
cache here.) -/
def flattenStep (v : Val) : P Json :=
  match v with
  | .none | .bool _ | .int _ | .float _ | .str _ => flattenImpl w cfg fl v
  | v => cached cfg v.ident (flattenImpl w cfg fl v)

/-- `_flatten` with recursion bounded by fuel. -/
def flatten (w : World) (cfg : PCfg) : Nat → Val → P Json
  | 0, _ => outOfFuel
  | n + 1, v => flattenStep w cfg (flatten w cfg n) v

/-- pickler.py:351-383 `Pickler.flatten(obj, reset)` (without `sort_keys`). -/
def flattenTop (w : World) (cfg : PCfg) (n : Nat) (v : Val) (doReset : Bool) : P Json :=
  if doReset then do
    reset
    flatten w cfg n v
  else flatten w cfg n v

end Pickler
end JP
