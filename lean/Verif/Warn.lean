import Verif.Pickler
/-!
# The encoder with the option `warn` — models jsonpickle/pickler.py:413-415 and its uses at 432, 641, 720, 786, 961

Before an object is replaced by `None`, `_pickle_warning` reports it; the text of the report contains `str(obj)`.  The functions of
`Verif/Pickler.lean` once more, with the reports that were made; functions that make none are used as they are.  (The filters of the
module `warnings` are taken to let warnings pass: with the filter "error" every report would raise.  With `sort_keys`, `warn` also
makes `_sort_attrs` (pickler.py:274-284) refuse objects with `__slots__`.)
-/
namespace JP
open PyM

/-- The state of a `Pickler` and what has been reported so far: the objects. -/
structure WState where
  base : PState := {}
  reports : List Val := []
  deriving Inhabited

abbrev W := PyM WState

namespace Pickler.Warned

/-- a step that reports nothing -/
def lift {α : Type} (x : P α) : W α := fun s =>
  match x s.base with
  | none => none
  | some (r, p) => some (r, { s with base := p })

variable (w : World) (cfg : PCfg) (wr : Bool) (fl : Val → W Json)

/-- pickler.py:413-415 `_pickle_warning` -/
def warning (v : Val) : W Unit :=
  if wr then do
    let _ ← ofExcept (w.pystr v)
    modify (fun s => { s with reports := s.reports ++ [v] })
  else pure ()

/-- report the object and return `None` (pickler.py:432-433, 640-642, 720-721, 786-787) -/
def refuse (v : Val) : W Json := do
  warning w wr v
  pure .null

/-- pickler.py:464-491 -/
def flattenKeyValuePair (k v : Val) (data : List (Str × Json)) : W (List (Str × Json)) :=
  if isPicklable k v then do
    let k ← ofExcept (reprKey w k)
    let j ← fl v
    pure (dset k j data)
  else pure data

/-- pickler.py:810-818: `encode(k, reset=False, keys=True, context=self, …)` -/
def escapeKey (k : Val) : W Str := do
  let j ← fl k
  pure (Tags.JSON_KEY ++ w.dumps j)

/-- pickler.py:820-829 -/
def flattenNonString (k v : Val) (data : List (Str × Json)) : W (List (Str × Json)) :=
  if isPicklable k v then
    match k with
    | .str _ => pure data
    | _ =>
      if cfg.keys then do
        let k' ← escapeKey w fl k
        let j ← fl v
        pure (dset k' j data)
      else pure data
  else pure data

/-- pickler.py:844-862 -/
def flattenStringTail (k v : Val) (data : List (Str × Json)) : W (List (Str × Json)) :=
  if isPicklable k v then
    if cfg.keys then
      match k with
      | .str s => do
        let j ← fl v
        pure (dset s j data)
      | _ => pure data
    else do
      let k ← ofExcept (reprKey w k)
      let j ← fl v
      pure (dset k j data)
  else pure data

/-- pickler.py:831-862.  (In line 842 the right-hand side is evaluated before the key.) -/
def flattenString (k v : Val) (data : List (Str × Json)) : W (List (Str × Json)) :=
  match k with
  | .str s =>
    if needsEscape s && cfg.keys then do
      let j ← fl v
      let k' ← escapeKey w fl k
      pure (dset k' j data)
    else flattenStringTail w cfg fl k v data
  | _ => flattenStringTail w cfg fl k v data

/-- pickler.py:876-890: the entries of a dict. -/
def flattenEntries (kvs : List (Val × Val)) (exclude : List Str) (data : List (Str × Json)) :
    W (List (Str × Json)) :=
  let kvs := itemsExcl exclude kvs
  if cfg.keys then do
    let data ← foldM (fun d (kv : Val × Val) => flattenString w cfg fl kv.1 kv.2 d) data kvs
    foldM (fun d (kv : Val × Val) => flattenNonString w cfg fl kv.1 kv.2 d) data kvs
  else
    foldM (fun d (kv : Val × Val) => flattenKeyValuePair w fl kv.1 kv.2 d) data kvs

/-- pickler.py:913: `self._flatten_obj_instance(handlers.CloneFactory(factory()))`; the clone is a plain
instance whose `__dict__` is `{"exemplar": factory()}` (handlers.py:273-285). -/
def flattenClone (exemplar : Val) : W Json := do
  let data := if cfg.unpicklable then [(Tags.OBJECT, Json.str CLONE)] else []
  let data ← flattenEntries w cfg fl [(.str p!"exemplar", exemplar)] [] data
  pure (.obj data)

/-- pickler.py:902-918: the value stored for a default factory. -/
def flattenFactory (f : Val) (exemplar : Except Exc Val) : W Json :=
  match f with
  | .type n => pure (mktyperef n)
  | _ => do
    let new ← lift (mkref cfg f.ident)
    if new then do
      let x ← ofExcept exemplar
      flattenClone w cfg fl x
    else lift (getref f.ident)

/-- pickler.py:893-919: the defaultdict protocol. -/
def flattenDefault (factory : Option Val) (exemplar : Except Exc Val) (data : List (Str × Json)) :
    W (List (Str × Json)) :=
  match factory with
  | none => pure data
  | some f => do
    let key := if dhas p!"default_factory" data then Tags.DEFAULT_FACTORY else p!"default_factory"
    let j ← flattenFactory w cfg fl f exemplar
    pure (dset key j data)

/-- pickler.py:921-928: the `__dict__` of a dict subclass instance. -/
def flattenOwnDict (a : Addr) (i : Inst) (exclude : List Str) (data : List (Str × Json)) :
    W (List (Str × Json)) :=
  if i.info.hasDict && cfg.unpicklable && !i.eqOwnDict then do
    let new ← lift (mkref cfg (dictIdent a i))
    if new then do
      let dd ← flattenEntries w cfg fl (dictItems w i) exclude []
      pure (dset p!"__dict__" (.obj dd) data)
    else do
      let r ← lift (getref (dictIdent a i))
      pure (dset p!"__dict__" r data)
  else pure data

/-- pickler.py:864-930 `_flatten_dict_obj` for an instance of a dict subclass. -/
def flattenDictSub (a : Addr) (i : Inst) (data : List (Str × Json)) : W (List (Str × Json)) := do
  let data ← flattenEntries w cfg fl i.items i.exclude data
  let data ← flattenDefault w cfg fl i.factory (outcome i.errs.factory i.exemplar) data
  flattenOwnDict w cfg fl a i i.exclude data

/-- pickler.py:504-527 `_flatten_obj_attrs`; an `AttributeError`, also one from inside the nested
flatten, skips the attribute. -/
def flattenObjAttrs (i : Inst) (lookup : List (Str × Val)) (names : List Str)
    (data : List (Str × Json)) : W (Bool × List (Str × Json)) :=
  foldM (fun (acc : Bool × List (Str × Json)) k =>
    if i.exclude.contains k then pure acc
    else
      tryCatch (do
        let name := if startsWith k p!"__" then p!"_" ++ i.info.shortName ++ k else k
        let v ← ofExcept (match dget name lookup with
          | some v => .ok v
          | none => .error .attributeError)
        let d ← flattenKeyValuePair w fl (.str k) v acc.2
        pure (true, d))
        (· == .attributeError)
        (fun _ => pure acc)) (false, data) names

/-- pickler.py:562-584 -/
def flattenSlots (i : Inst) (data : List (Str × Json)) : W Json := do
  let r ← flattenObjAttrs w fl i i.attrs i.info.slots data
  if r.1 then pure (.obj r.2)
  else do
    let r ← flattenObjAttrs w fl i i.dirAttrs (i.dirAttrs.map (·.1)) r.2
    pure (.obj r.2)

/-- pickler.py:968-969: attributes of a list/set/tuple subclass (no `exclude` here). -/
def flattenSeqAttrs (i : Inst) (data : List (Str × Json)) : W (List (Str × Json)) :=
  if i.info.hasDict then flattenEntries w cfg fl (dictItems w i) [] data else pure data

/-- pickler.py:964-975 -/
def flattenSequence (i : Inst) (data : List (Str × Json)) : W Json := do
  let data ← flattenSeqAttrs w cfg fl i data
  let value ← mapM fl i.elems
  if cfg.unpicklable then pure (.obj (dset Tags.SEQ (.arr value) data))
  else pure (.arr value)

/-- pickler.py:417-443 `_flatten_obj`, with the flattener passed in: `seenV` is what is appended to
`_seen`, `rep` is `repr(obj)`. -/
def flattenObjWith (seenV : Val) (id : Ident) (isEnum : Bool) (rep : Except Exc Str) (body : W Json) :
    W Json := do
  lift (modify (fun s => { s with seen := s.seen ++ [seenV] }))
  let max ← lift (maxReached cfg)
  tryCatch
    (do
      let cyc ← lift (inCycle id isEnum max cfg.makeRefs)
      if cyc then do
        let r ← ofExcept rep
        pure (.str r)
      else body)
    (fun e => e.isException && cfg.failSafe.isSome)
    (fun e => match cfg.failSafe with
      | some f => ofExcept (f e)
      | none => throw e)

/-- pickler.py:340-349 `_flatten`: the cache is only used when references are not. -/
def cached (id : Ident) (x : W Json) : W Json :=
  if cfg.unpicklable && cfg.makeRefs then x
  else do
    let s ← lift PyM.get
    match s.flattened.find? (fun p => p.1 == id) with
    | some p => pure p.2
    | none => do
      let j ← x
      lift (modify (fun s => { s with flattened := (id, j) :: s.flattened }))
      pure j

/-- pickler.py:723-727 for a state dict from which excluded keys were removed: a new dict object is
built and flattened. -/
def flattenFilteredState (a : Addr) (kvs : List (Val × Val)) (excl : List Str) : W Json :=
  cached cfg (.stateOf a) (do
    lift push
    let j ← flattenObjWith cfg (.ref a) (.stateOf a) false (w.repr (.ref a)) (do
      let new ← lift (mkref cfg (.stateOf a))
      if new then do
        let d ← flattenEntries w cfg fl (itemsExcl excl kvs) [] []
        pure (.obj d)
      else lift (getref (.stateOf a)))
    lift (pop j))

/-- pickler.py:729-787: what is left when no handler, reduce value or state applied. -/
def flattenRest (a : Addr) (i : Inst) (data : List (Str × Json)) : W Json :=
  match i.info.base with
  | .dict => do
    let d ← flattenDictSub w cfg fl a i data
    pure (.obj d)
  | .list | .set | .tuple => flattenSequence w cfg fl i data
  | .plain =>
    if i.info.isIterator then do
      let js ← mapM fl (iterated cfg i)
      ofExcept (outcome (iterErr cfg i) ())
      pure (.obj (dset Tags.ITERATOR (.arr js) data))
    else if i.info.hasDict then do
      let d ← flattenEntries w cfg fl (dictItems w i) i.exclude data
      pure (.obj d)
    else if i.info.hasSlots then flattenSlots w fl i data
    else if !data.isEmpty then pure (.obj data)
    else if cfg.unpicklable then refuse w wr (.ref a)
    else match (if i.info.reduces then i.reduce else .nothing) with
      | .tup xs =>
        if truthy w.heap (xs.getD 2 .none) then fl (xs.getD 2 .none)
        else if truthy w.heap (xs.getD 1 .none) then fl (xs.getD 1 .none)
        else refuse w wr (.ref a)
      | .raise e => if e == .typeError then refuse w wr (.ref a) else throw e
      | _ => refuse w wr (.ref a)

/-- pickler.py:715-727: `__getstate__`. -/
def flattenGetstate (a : Addr) (i : Inst) (data : List (Str × Json)) : W Json :=
  if i.info.ownGetstate then
    match i.state with
    | .error e => if e == .typeError then refuse w wr (.ref a) else throw e
    | .ok st =>
      match (match st with
        | .ref d => (match w.heap[d]? with
          | some (.dict kvs) => if i.exclude.isEmpty then none else some kvs
          | _ => none)
        | _ => none) with
      | some kvs =>
        if (itemsExcl i.exclude kvs).isEmpty then flattenRest w cfg wr fl a i data
        else do
          let j ← flattenFilteredState w cfg fl a kvs i.exclude
          pure (putState cfg j data)
      | none =>
        if truthy w.heap st then do
          let j ← fl st
          pure (putState cfg j data)
        else flattenRest w cfg wr fl a i data
  else flattenRest w cfg wr fl a i data

/-- pickler.py:704-710 -/
def flattenNewargs (i : Inst) (data : List (Str × Json)) : W (List (Str × Json)) :=
  if i.info.hasNewargsEx then do
    let args ← ofExcept (outcome i.errs.newargsEx i.newargsEx)
    let x ← fl args.1
    let y ← fl args.2
    pure (dset Tags.NEWARGSEX (.arr [x, y]) data)
  else if i.info.hasNewargs then do
    let args ← ofExcept (outcome i.errs.newargs i.newargs)
    let x ← fl args
    pure (dset Tags.NEWARGS x data)
  else pure data

/-- pickler.py:712-713 -/
def flattenInitargs (i : Inst) (data : List (Str × Json)) : W (List (Str × Json)) :=
  if i.info.hasInitargs then do
    let args ← ofExcept (outcome i.errs.initargs i.initargs)
    let x ← fl args
    pure (dset Tags.INITARGS x data)
  else pure data

/-- pickler.py:700-713 then 715-787: constructor arguments, then the state. -/
def flattenBody (a : Addr) (i : Inst) : W Json := do
  let data ← flattenNewargs fl i (objTag cfg i)
  let data ← flattenInitargs fl i data
  flattenGetstate w cfg wr fl a i data

/-- pickler.py:646-698: the reduce protocol. -/
def flattenReduce (a : Addr) (i : Inst) : W Json :=
  match (if cfg.unpicklable && i.info.reduces then i.reduce else .nothing) with
  | .nothing => flattenBody w cfg wr fl a i
  | .raise e => if e == .typeError then flattenBody w cfg wr fl a i else throw e
  | .str none => flattenBody w cfg wr fl a i
  | .str (some v) =>
    tryCatch (fl v) (· == .keyError) (fun _ => flattenBody w cfg wr fl a i)
  | .tup xs =>
    if xs.isEmpty then flattenBody w cfg wr fl a i
    else if reduceSane w i xs then do
      let js ← mapM fl (newobjMark (padReduce xs))
      pure (.obj [(Tags.REDUCE, .arr (trimReduce js))])
    else flattenBody w cfg wr fl a i

/-- handlers.py:210-223 `DatetimeHandler.flatten`.  `str` stands for the method `isoformat`.  The class is flattened after the arguments and
written before them. -/
def flattenDate (a : Addr) (i : Inst) : W Json :=
  if cfg.unpicklable then do
    let js ← mapM fl (i.hfields.tail.map (·.2))
    ofExcept (outcome i.errs.handler ())
    pure (.obj (dset p!"__reduce__" (.arr [js.getLastD .null, .arr (.str (dateText i.hfields) :: js.dropLast)]) (objTag cfg i)))
  else do
    let s ← ofExcept (w.pystr (.ref a))
    ofExcept (outcome i.errs.handler ())
    pure (.str s)

/-- pickler.py:602-787 `_flatten_obj_instance`. -/
def flattenInst (a : Addr) (i : Inst) : W Json :=
  match w.handler i.cls with
  | some .record => do
    let data ← foldM (fun d (kv : Str × Val) => do
      let j ← fl kv.2
      pure (dset kv.1 j d)) (objTag cfg i) i.hfields
    ofExcept (outcome i.errs.handler ())
    pure (.obj data)
  | some .datetime => flattenDate w cfg fl a i
  | some .opaque => do
    ofExcept (outcome i.errs.handler ())
    pure (.obj (objTag cfg i))
  | some .drop => do
    ofExcept (outcome i.errs.handler ())
    refuse w wr (.ref a)
  | none => flattenReduce w cfg wr fl a i

/-- pickler.py:789-808 `_ref_obj_instance`. -/
def refObjInstance (id : Ident) (isEnum : Bool) (body : W Json) : W Json :=
  if cfg.unpicklable then do
    let new ← lift (mkref cfg id)
    if new then body else lift (getref id)
  else do
    let max ← lift (maxReached cfg)
    let cyc ← lift (inCycle id isEnum max false)
    if cyc then pure .null
    else do
      let _ ← lift (mkref cfg id)
      body

/-- pickler.py:932-962 `_get_flattener` and the call at line 435. -/
def flattenBy (v : Val) : W Json :=
  match v with
  | .ref a =>
    match w.heap[a]? with
    | some (.list xs) => do
      let new ← lift (mkref cfg (.addr a))
      if new then do
        let js ← mapM fl xs
        pure (.arr js)
      else lift (getref (.addr a))
    | some (.dict kvs) => do
      let new ← lift (mkref cfg (.addr a))
      if new then do
        let d ← flattenEntries w cfg fl kvs [] []
        pure (.obj d)
      else lift (getref (.addr a))
    | some (.inst i) => refObjInstance cfg (.addr a) i.info.isEnum (flattenInst w cfg wr fl a i)
    | _ => throw (.other 0)
  | .tuple _ xs => do
    let js ← mapM fl xs
    pure (if cfg.unpicklable then .obj [(Tags.TUPLE, .arr js)] else .arr js)
  | .set _ xs => do
    let js ← mapM fl xs
    pure (if cfg.unpicklable then .obj [(Tags.SET, .arr js)] else .arr js)
  | .func n => pure (if cfg.unpicklable then .obj [(Tags.FUNCTION, .str n)] else .null)
  | .type n => pure (mktyperef n)
  | .module n => refObjInstance cfg (.mod n) false (lift (flattenModule w cfg n))
  | .lambda n => do
    warning w wr (.lambda n)
    refuse w wr (.lambda n)
  | _ => throw (.other 0)

/-- pickler.py:417-443 -/
def flattenObj (v : Val) : W Json :=
  flattenObjWith cfg v v.ident (isEnumV w v) (w.repr v) (flattenBy w cfg wr fl v)

/-- pickler.py:388-408 `_flatten_impl`. -/
def flattenImpl (v : Val) : W Json :=
  match v with
  | .bytes _ b => pure (flattenBytestring cfg b)
  | .none => pure .null
  | .bool b => pure (.bool b)
  | .int i => pure (.int i)
  | .float f => pure (.float f)
  | .str s => pure (.str s)
  | .bytearray _ b => pure (.obj [(Tags.BYTEARRAY, flattenBytestring cfg b)])
  | v => do
    lift push
    let j ← flattenObj w cfg wr fl v
    lift (pop j)

/-- pickler.py:340-349 `_flatten`.  (A cached scalar is returned unchanged, so scalars bypass the
cache here.) -/
def flattenStep (v : Val) : W Json :=
  match v with
  | .none | .bool _ | .int _ | .float _ | .str _ => flattenImpl w cfg wr fl v
  | v => cached cfg v.ident (flattenImpl w cfg wr fl v)

/-- `_flatten` with recursion bounded by fuel. -/
def flatten (w : World) (cfg : PCfg) (wr : Bool) : Nat → Val → W Json
  | 0, _ => outOfFuel
  | n + 1, v => flattenStep w cfg wr (flatten w cfg wr n) v

end Pickler.Warned

namespace Api
/-- `encode(value, warn=wr, …)` (pickler.py:21-178): the text and the reports -/
def encodeWarned (w : World) (cfg : PCfg) (wr : Bool) (n : Nat) (v : Val) : Option (Except Exc Str × List Val) :=
  match Pickler.Warned.flatten w cfg wr n v {} with
  | none => none
  | some (r, s) => some (r.map w.dumps, s.reports)
end Api
end JP
