import Verif.Pickler
/-!
# The options by which `encode` writes to the objects it is given

`Verif/Pickler.lean` reads the object graph from a fixed heap.  Three places of the code write to the graph instead:
`util._is_readonly` (used with `handle_readonly=True`) assigns an attribute of the object passed to `encode`;
`Pickler._sort_attrs` (used when the backend sorts keys) replaces its `__dict__`; and iterators are advanced.
This file models them with the heap in the state, branch by branch as in `Verif/Pickler.lean` and with the same options.  The
methods of the objects (`__getstate__`, `__reduce__`, …) and the handlers return what the heap says and change nothing themselves.  A `__dict__` that is also
reachable as an object (`dictCell`) is not considered, and neither is `include_properties`.  Recursion is by fuel.  Without iterators, without sorted keys
and with `handle_readonly=False` the two models agree (`Verif/Proofs/ReadonlyAgree.lean`).
-/
namespace JP.Readonly
open JP PyM

/-- Options and what the code can observe about the classes. -/
structure RCfg where
  /-- `handle_readonly` (pickler.py:224) -/
  handleReadonly : Bool := false
  /-- `self._determine_sort_keys()` (pickler.py:267-272) -/
  sortKeys : Bool := false
  warn : Bool := false
  /-- the other options -/
  opts : PCfg := {}
  /-- the names that `inspect.getmembers` finds on the class with this importable name -/
  members : Str → List Str := fun _ => []
  /-- assigning the attribute on an instance of the class stores the value in its `__dict__`; otherwise it raises
  `AttributeError`.  (Setters that do something else are not modelled.) -/
  stores : Str → Str → Bool := fun _ _ => true
  /-- `self._original_object`: the argument of `encode` (pickler.py:171) -/
  root : Val := .none
  /-- `repr` and `str` of dict keys -/
  world : World

/-- the heap, and the state of the `Pickler` -/
structure RState where
  heap : Heap
  base : PState := {}

abbrev R := PyM RState

/-- an operation of the `Pickler` that does not touch the objects -/
def lift {α : Type} (m : P α) : R α := fun s => (m s.base).map (fun q => (q.1, { s with base := q.2 }))

variable (cfg : RCfg) (fl : Val → R Json)

/-- pickler.py:326-334 -/
def mkref (i : Ident) : R Bool := lift (Pickler.mkref cfg.opts i)

/-- pickler.py:336-338 -/
def getref (i : Ident) : R Json := lift (Pickler.getref i)

/-- `{attr for attr, val in inspect.getmembers(obj)}` (pickler.py:474) -/
def memberNames (h : Heap) (v : Val) : List Str :=
  match v with
  | .ref a => match h[a]? with
    | some (.inst i) => i.attrs.map (·.1) ++ cfg.members i.cls
    | some (.dict _) => cfg.members p!"builtins.dict"
    | some (.list _) => cfg.members p!"builtins.list"
    | _ => []
  | .tuple _ _ => cfg.members p!"builtins.tuple"
  | _ => []

/-- `util._is_readonly(obj, attr, value)` (util.py:344-355): tries the assignment -/
def isReadonly (v : Val) (k : Str) (x : Val) : R Bool := fun s =>
  match v with
  | .ref a => match s.heap[a]? with
    | some (.inst i) =>
      if cfg.stores i.cls k then some (.ok false, { s with heap := s.heap.set a (.inst { i with attrs := dset k x i.attrs }) })
      else some (.ok true, s)
    | _ => some (.ok true, s)
  | _ => some (.ok true, s)

/-- pickler.py:472-478: the test for read-only attributes -/
def skips (k v : Val) : R Bool := fun s =>
  match k with
  | .str n =>
    if cfg.handleReadonly && (memberNames cfg s.heap cfg.root).contains n then isReadonly cfg cfg.root n v s
    else some (.ok false, s)
  | _ => some (.ok false, s)

/-- pickler.py:464-491 `_flatten_key_value_pair` -/
def keyValuePair (k v : Val) (data : List (Str × Json)) : R (List (Str × Json)) :=
  if Pickler.isPicklable k v then do
    let skip ← skips cfg k v
    if skip then pure data
    else do
      let k ← ofExcept (Pickler.reprKey cfg.world k)
      let j ← fl v
      pure (dset k j data)
  else pure data

/-- the order of strings -/
def strLe : Str → Str → Bool
  | [], _ => true
  | _ :: _, [] => false
  | c :: s, d :: t => if c < d then true else if d < c then false else strLe s t

def insertAttr (e : Str × Val) : List (Str × Val) → List (Str × Val)
  | [] => [e]
  | f :: fs => if strLe e.1 f.1 then e :: f :: fs else f :: insertAttr e fs

/-- `dict(sorted(obj.__dict__.items()))` -/
def sorted : List (Str × Val) → List (Str × Val)
  | [] => []
  | e :: es => insertAttr e (sorted es)

/-- pickler.py:274-292 `_sort_attrs` (assigning `__dict__` succeeds for the instances of this file) -/
def sortAttrs (v : Val) : R Unit := fun s =>
  match v with
  | .ref a => match s.heap[a]? with
    | some (.inst i) =>
      if i.info.hasSlots && cfg.warn then some (.error .typeError, s)
      else if i.info.hasDict then some (.ok (), { s with heap := s.heap.set a (.inst { i with attrs := sorted i.attrs }) })
      else some (.ok (), s)
    | _ => some (.ok (), s)
  | _ => some (.ok (), s)

/-- pickler.py:378-379: with sorted keys `flatten` first sorts the attributes of its argument -/
def sortFirst (v : Val) : R Unit := if cfg.sortKeys then sortAttrs cfg v else pure ()

/-- pickler.py:810-818: `encode(k, reset=False, keys=True, context=self, …)` -/
def escapeKey (k : Val) : R Str := do
  sortFirst cfg k
  let j ← fl k
  pure (Tags.JSON_KEY ++ cfg.world.dumps j)

/-- pickler.py:820-829, with `keys=True` -/
def nonStringPair (k v : Val) (data : List (Str × Json)) : R (List (Str × Json)) :=
  if Pickler.isPicklable k v then
    match k with
    | .str _ => pure data
    | _ => do
      let k' ← escapeKey cfg fl k
      let j ← fl v
      pure (dset k' j data)
  else pure data

/-- pickler.py:831-862, with `keys=True` -/
def stringPair (k v : Val) (data : List (Str × Json)) : R (List (Str × Json)) :=
  match k with
  | .str s =>
    if Pickler.needsEscape s then do
      let j ← fl v
      let k' ← escapeKey cfg fl k
      pure (dset k' j data)
    else if Pickler.isPicklable k v then do
      let j ← fl v
      pure (dset s j data)
    else pure data
  | _ => pure data

/-- pickler.py:876-890: an entry in the first pass -/
def firstPair (k v : Val) (data : List (Str × Json)) : R (List (Str × Json)) :=
  if cfg.opts.keys then stringPair cfg fl k v data else keyValuePair cfg fl k v data

/-- what `RuntimeError` (dictionary changed size during iteration) is called here -/
def runtimeError : Exc := .other 0

/-- the attributes of the instance in cell `a` as they are now -/
def attrsNow (a : Addr) : R (List (Str × Val)) := fun s =>
  match s.heap[a]? with
  | some (.inst i) => some (.ok i.attrs, s)
  | _ => some (.ok [], s)

/-- `for k, v in obj.__dict__.items()` (pickler.py:888-890, util.py:541-552): the values are read while iterating, and
each step first checks that the number of entries is still `size`.  (With `keys=True` the second pass does nothing for names.) -/
def attrLoop (a : Addr) (excl : List Str) (size : Nat) : List Str → List (Str × Json) → R (List (Str × Json))
  | [], data => do
    let now ← attrsNow a
    if now.length == size then pure data else PyM.throw runtimeError
  | k :: ks, data => do
    let now ← attrsNow a
    if now.length == size then
      if excl.contains k then attrLoop a excl size ks data
      else match dget k now with
        | some v => do
          let data ← firstPair cfg fl (.str k) v data
          attrLoop a excl size ks data
        | none => PyM.throw runtimeError
    else PyM.throw runtimeError

/-- pickler.py:864-890: the attributes in `obj.__dict__` -/
def ownAttrs (a : Addr) (excl : List Str) (data : List (Str × Json)) : R (List (Str × Json)) := do
  let now ← attrsNow a
  attrLoop cfg fl a excl now.length (now.map (·.1)) data

/-- pickler.py:876-890: the entries of a dict, or of an instance of a dict subclass -/
def entries (kvs : List (Val × Val)) (excl : List Str) (data : List (Str × Json)) : R (List (Str × Json)) :=
  if cfg.opts.keys then do
    let data ← foldM (fun d (kv : Val × Val) => stringPair cfg fl kv.1 kv.2 d) data (Pickler.itemsExcl excl kvs)
    foldM (fun d (kv : Val × Val) => nonStringPair cfg fl kv.1 kv.2 d) data (Pickler.itemsExcl excl kvs)
  else foldM (fun d (kv : Val × Val) => keyValuePair cfg fl kv.1 kv.2 d) data (Pickler.itemsExcl excl kvs)

/-- `next(iterator)`, if there is something left -/
def advance (a : Addr) : R (Option Val) := fun s =>
  match s.heap[a]? with
  | some (.inst i) => match i.elems with
    | x :: xs => some (.ok (some x), { s with heap := s.heap.set a (.inst { i with elems := xs }) })
    | [] => some (.ok none, s)
  | _ => some (.ok none, s)

/-- `list(map(self._flatten, islice(obj, n)))` (pickler.py:749) -/
def iterLoop (a : Addr) : Nat → R (List Json)
  | 0 => pure []
  | n + 1 => do
    let x ← advance a
    match x with
    | none => pure []
    | some x => do
      let j ← fl x
      let js ← iterLoop a n
      pure (j :: js)

/-- how many items are read at most -/
def limit (n : Nat) : Nat := match cfg.opts.maxIter with
  | none => n
  | some m => min m n

/-- pickler.py:445-454: an object seen before is written as a reference -/
def once (id : Ident) (body : R Json) : R Json := do
  let new ← mkref cfg id
  if new then body else getref id

/-- pickler.py:789-808 `_ref_obj_instance` -/
def refObjInstance (id : Ident) (isEnum : Bool) (body : R Json) : R Json :=
  if cfg.opts.unpicklable then once cfg id body
  else do
    let max ← lift (Pickler.maxReached cfg.opts)
    let cyc ← lift (Pickler.inCycle id isEnum max false)
    if cyc then pure .null
    else do
      let _ ← mkref cfg id
      body

/-- pickler.py:417-443 `_flatten_obj`, as `Pickler.flattenObjWith` -/
def flattenObjWith (seenV : Val) (id : Ident) (isEnum : Bool) (rep : Except Exc Str) (body : R Json) : R Json := do
  lift (PyM.modify (fun s => { s with seen := s.seen ++ [seenV] }))
  let max ← lift (Pickler.maxReached cfg.opts)
  PyM.tryCatch
    (do
      let cyc ← lift (Pickler.inCycle id isEnum max cfg.opts.makeRefs)
      if cyc then do
        let r ← ofExcept rep
        pure (.str r)
      else body)
    (fun e => e.isException && cfg.opts.failSafe.isSome)
    (fun e => match cfg.opts.failSafe with
      | some f => ofExcept (f e)
      | none => PyM.throw e)

/-- pickler.py:340-349 `_flatten`: the cache -/
def cached (id : Ident) (x : R Json) : R Json :=
  if cfg.opts.unpicklable && cfg.opts.makeRefs then x
  else do
    let s ← lift PyM.get
    match s.flattened.find? (fun p => p.1 == id) with
    | some p => pure p.2
    | none => do
      let j ← x
      lift (PyM.modify (fun s => { s with flattened := (id, j) :: s.flattened }))
      pure j

/-- pickler.py:402-408: the depth around a nested object -/
def nested (x : R Json) : R Json := do
  lift Pickler.push
  let j ← x
  lift (Pickler.pop j)

/-- the current heap -/
def withHeap {α : Type} (f : Heap → R α) : R α := fun s => f s.heap s

/-- pickler.py:902-918, with 913: the value stored for a default factory -/
def flattenFactory (f : Val) (exemplar : Except Exc Val) : R Json :=
  match f with
  | .type n => pure (Pickler.mktyperef n)
  | _ => do
    let new ← mkref cfg f.ident
    if new then do
      let x ← ofExcept exemplar
      let d ← entries cfg fl [(.str p!"exemplar", x)] [] (if cfg.opts.unpicklable then [(Tags.OBJECT, .str Pickler.CLONE)] else [])
      pure (.obj d)
    else getref f.ident

/-- pickler.py:893-919 -/
def flattenDefault (i : Inst) (data : List (Str × Json)) : R (List (Str × Json)) :=
  match i.factory with
  | none => pure data
  | some f => do
    let j ← flattenFactory cfg fl f (outcome i.errs.factory i.exemplar)
    pure (dset (if dhas p!"default_factory" data then Tags.DEFAULT_FACTORY else p!"default_factory") j data)

/-- pickler.py:921-928: the `__dict__` of a dict subclass instance -/
def flattenOwnDict (a : Addr) (i : Inst) (data : List (Str × Json)) : R (List (Str × Json)) :=
  if i.info.hasDict && cfg.opts.unpicklable && !i.eqOwnDict then do
    let new ← mkref cfg (.dictOf a)
    if new then do
      let dd ← ownAttrs cfg fl a i.exclude []
      pure (dset p!"__dict__" (.obj dd) data)
    else do
      let r ← getref (.dictOf a)
      pure (dset p!"__dict__" r data)
  else pure data

/-- the name under which `getattr` finds a slot (pickler.py:512-515) -/
def mangle (i : Inst) (k : Str) : Str := if startsWith k p!"__" then p!"_" ++ i.info.shortName ++ k else k

/-- one attribute of pickler.py:504-527 `_flatten_obj_attrs`; `lookup` gives the attributes as they are when it is read -/
def objAttr (i : Inst) (lookup : R (List (Str × Val))) (acc : Bool × List (Str × Json)) (k : Str) : R (Bool × List (Str × Json)) :=
  if i.exclude.contains k then pure acc
  else
    PyM.tryCatch (do
      let now ← lookup
      let v ← ofExcept (match dget (mangle i k) now with
        | some v => .ok v
        | none => .error .attributeError)
      let d ← keyValuePair cfg fl (.str k) v acc.2
      pure (true, d))
      (· == .attributeError)
      (fun _ => pure acc)

/-- pickler.py:504-527 `_flatten_obj_attrs` -/
def objAttrs (i : Inst) (lookup : R (List (Str × Val))) (names : List Str) (data : List (Str × Json)) : R (Bool × List (Str × Json)) :=
  foldM (objAttr cfg fl i lookup) (false, data) names

/-- pickler.py:562-584 -/
def flattenSlots (a : Addr) (i : Inst) (data : List (Str × Json)) : R Json := do
  let r ← objAttrs cfg fl i (attrsNow a) i.info.slots data
  if r.1 then pure (.obj r.2)
  else do
    let r ← objAttrs cfg fl i (pure i.dirAttrs) (i.dirAttrs.map (·.1)) r.2
    pure (.obj r.2)

/-- pickler.py:964-975 -/
def flattenSequence (a : Addr) (i : Inst) (data : List (Str × Json)) : R Json := do
  let data ← if i.info.hasDict then ownAttrs cfg fl a [] data else pure data
  let value ← mapM fl i.elems
  if cfg.opts.unpicklable then pure (.obj (dset Tags.SEQ (.arr value) data))
  else pure (.arr value)

/-- pickler.py:729-787: what is left when no handler, reduce value or state applied -/
def flattenRest (a : Addr) (i : Inst) (data : List (Str × Json)) : R Json :=
  match i.info.base with
  | .dict => do
    let d ← entries cfg fl i.items i.exclude data
    let d ← flattenDefault cfg fl i d
    let d ← flattenOwnDict cfg fl a i d
    pure (.obj d)
  | .list | .set | .tuple => flattenSequence cfg fl a i data
  | .plain =>
    if i.info.isIterator then do
      let js ← iterLoop fl a (limit cfg i.elems.length)
      ofExcept (outcome (Pickler.iterErr cfg.opts i) ())
      pure (.obj (dset Tags.ITERATOR (.arr js) data))
    else if i.info.hasDict then do
      let d ← ownAttrs cfg fl a i.exclude data
      pure (.obj d)
    else if i.info.hasSlots then flattenSlots cfg fl a i data
    else if !data.isEmpty then pure (.obj data)
    else if cfg.opts.unpicklable then pure .null
    else match (if i.info.reduces then i.reduce else .nothing) with
      | .tup xs => withHeap (fun h =>
        if truthy h (xs.getD 2 .none) then fl (xs.getD 2 .none)
        else if truthy h (xs.getD 1 .none) then fl (xs.getD 1 .none)
        else pure .null)
      | .raise e => if e == .typeError then pure .null else PyM.throw e
      | _ => pure .null

/-- pickler.py:723-724: the entries of a state dict, when there are excluded names -/
def stateEntries (h : Heap) (i : Inst) (st : Val) : Option (List (Val × Val)) :=
  match st with
  | .ref d => (match h[d]? with
    | some (.dict kvs) => if i.exclude.isEmpty then none else some kvs
    | _ => none)
  | _ => none

/-- pickler.py:723-727 for a state dict from which excluded keys were removed -/
def flattenFilteredState (a : Addr) (kvs : List (Val × Val)) (excl : List Str) : R Json :=
  cached cfg (.stateOf a) (nested (flattenObjWith cfg (.ref a) (.stateOf a) false (cfg.world.repr (.ref a)) (once cfg (.stateOf a) (do
    let d ← entries cfg fl (Pickler.itemsExcl excl kvs) [] []
    pure (.obj d)))))

/-- pickler.py:715-727: `__getstate__` -/
def flattenGetstate (a : Addr) (i : Inst) (data : List (Str × Json)) : R Json :=
  if i.info.ownGetstate then
    match i.state with
    | .error e => if e == .typeError then pure .null else PyM.throw e
    | .ok st => withHeap (fun h =>
      match stateEntries h i st with
      | some kvs =>
        if (Pickler.itemsExcl i.exclude kvs).isEmpty then flattenRest cfg fl a i data
        else do
          let j ← flattenFilteredState cfg fl a kvs i.exclude
          pure (Pickler.putState cfg.opts j data)
      | none =>
        if truthy h st then do
          let j ← fl st
          pure (Pickler.putState cfg.opts j data)
        else flattenRest cfg fl a i data)
  else flattenRest cfg fl a i data

/-- pickler.py:704-710 -/
def flattenNewargs (i : Inst) (data : List (Str × Json)) : R (List (Str × Json)) :=
  if i.info.hasNewargsEx then do
    let args ← ofExcept (outcome i.errs.newargsEx i.newargsEx)
    let x ← fl args.1
    let y ← fl args.2
    pure (dset Tags.NEWARGSEX (.arr [x, y]) data)
  else if i.info.hasNewargs then do
    let args ← ofExcept (outcome i.errs.newargs i.newargs)
    let x ← fl args
    pure (dset Tags.NEWARGS x data)
  else pure data

/-- pickler.py:712-713 -/
def flattenInitargs (i : Inst) (data : List (Str × Json)) : R (List (Str × Json)) :=
  if i.info.hasInitargs then do
    let args ← ofExcept (outcome i.errs.initargs i.initargs)
    let x ← fl args
    pure (dset Tags.INITARGS x data)
  else pure data

/-- pickler.py:700-787 -/
def flattenBody (a : Addr) (i : Inst) : R Json := do
  let data ← flattenNewargs fl i (Pickler.objTag cfg.opts i)
  let data ← flattenInitargs fl i data
  flattenGetstate cfg fl a i data

/-- pickler.py:646-698: the reduce protocol -/
def flattenReduce (a : Addr) (i : Inst) : R Json :=
  match (if cfg.opts.unpicklable && i.info.reduces then i.reduce else .nothing) with
  | .nothing => flattenBody cfg fl a i
  | .raise e => if e == .typeError then flattenBody cfg fl a i else PyM.throw e
  | .str none => flattenBody cfg fl a i
  | .str (some v) => PyM.tryCatch (fl v) (· == .keyError) (fun _ => flattenBody cfg fl a i)
  | .tup xs =>
    if xs.isEmpty then flattenBody cfg fl a i
    else withHeap (fun h =>
      if Pickler.reduceSane { cfg.world with heap := h } i xs then do
        let js ← mapM fl (Pickler.newobjMark (Pickler.padReduce xs))
        pure (.obj [(Tags.REDUCE, .arr (Pickler.trimReduce js))])
      else flattenBody cfg fl a i)

/-- handlers.py:210-223 `DatetimeHandler.flatten`, as `Pickler.flattenDate` -/
def flattenDate (a : Addr) (i : Inst) : R Json :=
  if cfg.opts.unpicklable then do
    let js ← mapM fl (i.hfields.tail.map (·.2))
    ofExcept (outcome i.errs.handler ())
    pure (.obj (dset p!"__reduce__" (.arr [js.getLastD .null, .arr (.str (Pickler.dateText i.hfields) :: js.dropLast)]) (Pickler.objTag cfg.opts i)))
  else do
    let s ← ofExcept (cfg.world.pystr (.ref a))
    ofExcept (outcome i.errs.handler ())
    pure (.str s)

/-- pickler.py:602-787 `_flatten_obj_instance`, with the handlers of `Verif/Pickler.lean` -/
def flattenInst (a : Addr) (i : Inst) : R Json :=
  match cfg.world.handler i.cls with
  | some .record => do
    let data ← foldM (fun d (kv : Str × Val) => do
      let j ← fl kv.2
      pure (dset kv.1 j d)) (Pickler.objTag cfg.opts i) i.hfields
    ofExcept (outcome i.errs.handler ())
    pure (.obj data)
  | some .datetime => flattenDate cfg fl a i
  | some .opaque => do
    ofExcept (outcome i.errs.handler ())
    pure (.obj (Pickler.objTag cfg.opts i))
  | some .drop => do
    ofExcept (outcome i.errs.handler ())
    pure .null
  | none => flattenReduce cfg fl a i

/-- pickler.py:932-962 `_get_flattener`, for a list, dict or instance -/
def flattenCell (a : Addr) : R Json := withHeap (fun h =>
  match h[a]? with
  | some (.list xs) => once cfg (.addr a) (do
    let js ← mapM fl xs
    pure (.arr js))
  | some (.dict kvs) => once cfg (.addr a) (do
    let data ← entries cfg fl kvs [] []
    pure (.obj data))
  | some (.inst i) => refObjInstance cfg (.addr a) i.info.isEnum (flattenInst cfg fl a i)
  | _ => PyM.throw (.other 0))

/-- pickler.py:932-962 `_get_flattener` and the call at line 435 -/
def flattenBy (v : Val) : R Json :=
  match v with
  | .ref a => flattenCell cfg fl a
  | .tuple _ xs => do
    let js ← mapM fl xs
    pure (if cfg.opts.unpicklable then .obj [(Tags.TUPLE, .arr js)] else .arr js)
  | .set _ xs => do
    let js ← mapM fl xs
    pure (if cfg.opts.unpicklable then .obj [(Tags.SET, .arr js)] else .arr js)
  | .module n => refObjInstance cfg (.mod n) false (lift (Pickler.flattenModule cfg.world cfg.opts n))
  | v => lift (Pickler.flattenBy cfg.world cfg.opts (fun _ => PyM.throw (.other 0)) v)

/-- pickler.py:417-443 -/
def flattenObj (v : Val) : R Json := withHeap (fun h =>
  flattenObjWith cfg v v.ident (Pickler.isEnumV { cfg.world with heap := h } v) (cfg.world.repr v) (flattenBy cfg fl v))

/-- pickler.py:388-408 `_flatten_impl` -/
def flattenImpl (v : Val) : R Json :=
  match v with
  | .bytes _ b => pure (Pickler.flattenBytestring cfg.opts b)
  | .none => pure .null
  | .bool b => pure (.bool b)
  | .int i => pure (.int i)
  | .float f => pure (.float f)
  | .str s => pure (.str s)
  | .bytearray _ b => pure (.obj [(Tags.BYTEARRAY, Pickler.flattenBytestring cfg.opts b)])
  | v => nested (flattenObj cfg fl v)

/-- pickler.py:340-349 `_flatten` -/
def flattenStep (v : Val) : R Json :=
  match v with
  | .none | .bool _ | .int _ | .float _ | .str _ => flattenImpl cfg fl v
  | v => cached cfg v.ident (flattenImpl cfg fl v)

/-- the recursion -/
def flatten : Nat → Val → R Json
  | 0 => fun _ => outOfFuel
  | n + 1 => flattenStep cfg (flatten n)

/-- pickler.py:351-383 `Pickler.flatten` as called by `encode` (pickler.py:157-178) on a fresh `Pickler` -/
def flattenTop (n : Nat) : R Json := do
  lift Pickler.reset
  sortFirst cfg cfg.root
  flatten cfg n cfg.root

end JP.Readonly
