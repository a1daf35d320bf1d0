import Verif.Pickler
/-!
# The decoder — models jsonpickle/unpickler.py:137-1014

As in `Verif/Pickler.lean`, `rs` is the recursive call `self._restore`.  Not modelled: the `py/ref`
name dictionary `_namedict`/`_namestack` (written but never read), `handle_readonly`, numpy/SQLAlchemy
special cases at lines 724-744 and 755-757 (immutable mappings), `time.struct_time`.
User code is represented by data: see `ClassInfo` and `Inst`.
-/
namespace JP
open PyM

/-- Observable effects of decoding. -/
inductive Event
  /-- `loadclass`/`__import__` on a name from the document -/
  | imp (name : Str)
  /-- a callable found by name is called -/
  | call (name : Str)
  /-- `eval` on text from the document (unpickler.py:281) -/
  | eval (text : Str)
  /-- the `on_missing` callback, a warning, or the error raised for a missing class -/
  | missing (name : Str)
  /-- a `py/object` entry is processed -/
  | obj (name : Str)
  deriving Repr, DecidableEq

/-- `on_missing` (unpickler.py:637-648). -/
inductive OnMissing | ignore | warn | error | callback
  deriving Repr, DecidableEq, Inhabited

/-- Everything outside jsonpickle that the decoder consults, and its options (unpickler.py:332-351). -/
structure UEnv where
  keys : Bool := false
  safe : Bool := true
  v1 : Bool := false
  onMissing : OnMissing := .ignore
  /-- `util.loadclass(name, classes=self._classes)` -/
  loadclass : Str → Option Val
  /-- facts about the class of that name -/
  classInfo : Str → ClassInfo
  /-- `handlers.get(cls, handlers.get(class_name))` -/
  handler : Str → Option HKind
  /-- `_loadmodule(s)` (`none` = `None`) -/
  loadmodule : Str → Except Exc (Option Val)
  /-- `loadrepr(s)` -/
  loadrepr : Str → Except Exc Val
  /-- `backend.decode` -/
  loads : Str → Option Json

/-- Which part of an object holds a proxy to be replaced (unpickler.py:193-200). -/
inductive Slot
  | idx (n : Nat)
  | key (k : Val)
  | attr (k : Val)
  deriving Repr, Inhabited

/-- The mutable state of an `Unpickler` (unpickler.py:353-367) and the Python heap. -/
structure UState where
  heap : Heap := []
  objs : List Val := []
  idx : List (Ident × Nat) := []
  /-- `(object, slot, proxy)` -/
  proxies : List (Addr × Slot × Addr) := []
  nextId : Nat := 0
  log : List Event := []
  deriving Inhabited

abbrev U := PyM UState

namespace Unpickler
variable (env : UEnv) (rs : Json → U Val)

/-- create a Python object -/
def alloc (o : Obj) : U Addr := fun s =>
  some (.ok s.heap.length, { s with heap := s.heap ++ [o] })

/-- overwrite a Python object -/
def setCell (a : Addr) (o : Obj) : U Unit := modify (fun s => { s with heap := s.heap.set a o })

/-- update an instance -/
def modInst (a : Addr) (f : Inst → Inst) : U Unit := modify (fun s =>
  match s.heap[a]? with
  | some (.inst i) => { s with heap := s.heap.set a (.inst (f i)) }
  | _ => s)

/-- a fresh `id()` for an inline object (never 0, the label of the constant `()`) -/
def fresh : U Nat := fun s => some (.ok (s.nextId + 1), { s with nextId := s.nextId + 1 })

def emit (e : Event) : U Unit := modify (fun s => { s with log := s.log ++ [e] })

/-- unpickler.py:353-367 -/
def reset : U Unit := modify (fun s => { s with objs := [], idx := [], proxies := [] })

def idxGet (i : Ident) (l : List (Ident × Nat)) : Option Nat := (l.find? (fun p => p.1 == i)).map (·.2)

/-- unpickler.py:473-483 -/
def mkref (v : Val) : U Val := fun s =>
  match idxGet v.ident s.idx with
  | some _ => some (.ok v, s)
  | none => some (.ok v, { s with idx := s.idx ++ [(v.ident, s.objs.length)], objs := s.objs ++ [v] })

/-- unpickler.py:505-514; `KeyError` if the proxy is unknown -/
def swapref (p : Addr) (v : Val) : U Unit := fun s =>
  match idxGet (.addr p) s.idx with
  | none => some (.error .keyError, s)
  | some n => some (.ok (), { s with
      idx := (s.idx.filter (fun q => q.1 != .addr p && q.1 != v.ident)) ++ [(v.ident, n)]
      objs := s.objs.set n v })

/-- `isinstance(v, _Proxy)` -/
def proxyAddr (h : Heap) (v : Val) : Option Addr :=
  match v with
  | .ref a => match h[a]? with
    | some (.proxy _) | some (.idproxy _) => some a
    | _ => none
  | _ => none

/-- `self._proxies.append((obj, slot, value, method))` if `value` is a proxy -/
def noteProxy (a : Addr) (sl : Slot) (v : Val) : U Unit := modify (fun s =>
  match proxyAddr s.heap v with
  | some p => { s with proxies := s.proxies ++ [(a, sl, p)] }
  | none => s)

/-- Python list indexing with an integer, negative indices counting from the end -/
def pyIndex {α} (l : List α) (i : Int) : Option α :=
  if 0 ≤ i then l[i.toNat]?
  else if 0 ≤ i + l.length then l[(i + l.length).toNat]? else none

/-- `_Proxy.get` / `_IDProxy.get` (unpickler.py:174-190) -/
def proxyGet (s : UState) (p : Addr) : Val :=
  match s.heap[p]? with
  | some (.proxy (some v)) => v
  | some (.idproxy i) => (pyIndex s.objs i).getD .none
  | _ => .none

/-- The name under which `setattr(instance, "__x", …)` at unpickler.py:745 stores. -/
def mangle (i : Inst) (k : Str) : Str := p!"_" ++ i.info.shortName ++ k

/-- `setattr` accepts this name: the class has a `__dict__` or a slot of that (mangled) name. -/
def attrOk (i : Inst) (k : Str) : Bool :=
  i.info.hasDict || i.info.slots.contains k || i.info.slots.any (fun s => mangle i s == k)

/-- `setattr(obj, k, v)` on the instance in cell `a`. -/
def setattr (a : Addr) (k : Str) (v : Val) : U Unit := fun s =>
  match s.heap[a]? with
  | some (.inst i) =>
    if attrOk i k then
      match i.dictCell with
      | none => some (.ok (), { s with heap := s.heap.set a (.inst { i with attrs := dset k v i.attrs }) })
      | some d => match s.heap[d]? with
        | some (.dict kvs) => some (.ok (), { s with heap := s.heap.set d (.dict (vset (.str k) v kvs)) })
        | _ => some (.ok (), s)
    else some (.error .attributeError, s)
  | _ => some (.error .attributeError, s)

/-- one step of `_swap_proxies` (unpickler.py:371-372) -/
def swapOne (e : Addr × Slot × Addr) : U Unit := fun s =>
  let v := proxyGet s e.2.2
  match e.2.1, s.heap[e.1]? with
  | .idx n, some (.list xs) => some (.ok (), { s with heap := s.heap.set e.1 (.list (xs.set n v)) })
  | .key k, some (.dict kvs) => some (.ok (), { s with heap := s.heap.set e.1 (.dict (vset k v kvs)) })
  | .attr (.str k), _ => setattr e.1 k v s
  | .attr _, _ => some (.error .typeError, s)
  | _, _ => some (.ok (), s)

/-- unpickler.py:369-373 -/
def swapProxies : U Unit := do
  let s ← get
  let _ ← mapM swapOne s.proxies
  modify (fun s => { s with proxies := [] })

mutual
/-- A JSON document as the Python object the backend returned (used where the decoder hands back its
input: unpickler.py:611, 857, 889). -/
def raw : Json → U Val
  | .null => pure .none
  | .bool b => pure (.bool b)
  | .int i => pure (.int i)
  | .float f => pure (.float f)
  | .str s => pure (.str s)
  | .arr xs => do
    let vs ← raws xs
    let a ← alloc (.list vs)
    pure (.ref a)
  | .obj kvs => do
    let vs ← rawKvs kvs
    let a ← alloc (.dict vs)
    pure (.ref a)
def raws : List Json → U (List Val)
  | [] => pure []
  | x :: xs => do
    let v ← raw x
    let vs ← raws xs
    pure (v :: vs)
def rawKvs : List (Str × Json) → U (List (Val × Val))
  | [] => pure []
  | (k, x) :: xs => do
    let v ← raw x
    let vs ← rawKvs xs
    pure ((.str k, v) :: vs)
end

/-- iterate over a JSON value: lists give their elements, dicts their keys, strings their characters;
anything else is a `TypeError` -/
def jsonIter : Json → Except Exc (List Json)
  | .arr xs => .ok xs
  | .obj kvs => .ok (kvs.map (fun kv => .str kv.1))
  | .str s => .ok (s.map (fun c => .str [c]))
  | _ => .error .typeError

/-- `bool(x)` for a JSON value -/
def jsonTruthy : Json → Bool
  | .null => false
  | .bool b => b
  | .int i => i != 0
  | .float f => floatInt f != some 0
  | .str s => !s.isEmpty
  | .arr xs => !xs.isEmpty
  | .obj kvs => !kvs.isEmpty

/-- `obj[tag]` -/
def item (tag : Str) (kvs : List (Str × Json)) : Except Exc Json :=
  match dget tag kvs with
  | some j => .ok j
  | none => .error .keyError

/-- unpickler.py:429-433 -/
def restoreBase64 (kvs : List (Str × Json)) : Except Exc Bytes :=
  match dget Tags.B64 kvs with
  | some (.str s) => .ok (if utf8ok s then b64decode s else [])
  | some _ => .ok []
  | none => .error .keyError

/-- unpickler.py:435-439 -/
def restoreBase85 (kvs : List (Str × Json)) : Except Exc Bytes :=
  match dget Tags.B85 kvs with
  | some (.str s) => .ok (if utf8ok s then b85decode s else [])
  | some _ => .ok []
  | none => .error .keyError

/-- unpickler.py:441-447.  A payload that is not a dict fails: `in` on a number is a `TypeError`, and
indexing a str or list with a str is a `TypeError`. -/
def restoreBytearray (kvs : List (Str × Json)) : Except Exc Bytes :=
  match dget Tags.BYTEARRAY kvs with
  | some (.obj p) => if dhas Tags.B85 p then restoreBase85 p else restoreBase64 p
  | some _ => .error .typeError
  | none => .error .keyError

/-- unpickler.py:490-496: note the proxies among the elements -/
def noteList (a : Addr) : Nat → List Val → U Unit
  | _, [] => pure ()
  | n, v :: vs => do
    noteProxy a (.idx n) v
    noteList a (n + 1) vs

/-- unpickler.py:485-497 -/
def restoreList (xs : Except Exc (List Json)) : U Addr := do
  let a ← alloc (.list [])
  let _ ← mkref (.ref a)
  let xs ← ofExcept xs
  let vs ← mapM rs xs
  setCell a (.list vs)
  noteList a 0 vs
  pure a

/-- the iterator `iter(l)` for the list in cell `a` -/
def iterOf (a : Addr) : Inst :=
  { cls := p!"builtins.list_iterator", info := { hasDict := false, isIterator := true },
    hfields := [(p!"list", .ref a)] }

/-- unpickler.py:499-503 -/
def restoreIterator (kvs : List (Str × Json)) : U Val := do
  let a ← tryCatch (do
      let j ← ofExcept (item Tags.ITERATOR kvs)
      restoreList rs (jsonIter j))
    (· == .typeError) (fun _ => alloc (.list []))
  let b ← alloc (.inst (iterOf a))
  pure (.ref b)

/-- `util.loadclass(x, …)` on a JSON value: a non-string has no `split`.  (With a non-empty `classes`
argument an unhashable value would give `TypeError` instead; not modelled.) -/
def loadclassJ (j : Json) : U (Option Val) :=
  match j with
  | .str s => do
    emit (.imp s)
    pure (env.loadclass s)
  | _ => throw .attributeError

/-- the list produced when a reduce value cannot be used (unpickler.py:527-530, 543-546) -/
def reduceFallback (p : Addr) : U Val := do
  let a ← alloc (.list [])
  setCell p (.proxy (some (.ref a)))
  swapref p (.ref a)
  pure (.ref a)

/-- the positional arguments denoted by `*args` -/
def starArgs (h : Heap) (v : Val) : Option (List Val) :=
  match v with
  | .tuple _ xs | .set _ xs => some xs
  | .str s => some (s.map (fun c => .str [c]))
  | .bytes _ b | .bytearray _ b => some (b.map (fun c => .int c.toNat))
  | .ref a => match h[a]? with
    | some (.list xs) => some xs
    | some (.dict kvs) => some (kvs.map (·.1))
    | some (.inst i) => match i.info.base with
      | .dict => some (i.items.map (·.1))
      | .plain => none
      | _ => some i.elems
    | _ => none
  | _ => none

/-- `isinstance(v, dict)`, with its entries -/
def dictEntries (h : Heap) (v : Val) : Option (List (Val × Val)) :=
  match v with
  | .ref a => match h[a]? with
    | some (.dict kvs) => some kvs
    | some (.inst i) => if i.info.base == .dict then some i.items else none
    | _ => none
  | _ => none

/-- The object built by `f(*args)`/`cls.__new__(cls, *args[1:])`: recorded as the recipe it was built from, and what was done to it
afterwards. -/
def reduceInst (cls : Str) (vals : List Val) (ops : List Op) : Inst :=
  { cls := cls, info := env.classInfo cls, reduce := .tup vals, ops := ops }

/-- `for k, v in kvs: setattr(obj, k, v)`: the calls that succeeded, and the exception that ended the loop -/
def setattrs (info : ClassInfo) : List (Val × Val) → List Op × Option Exc
  | [] => ([], none)
  | (.str k, v) :: r =>
    if attrOk { info := info } k then ((.setattr k v) :: (setattrs info r).1, (setattrs info r).2)
    else ([], some .attributeError)
  | _ :: _ => ([], some .typeError)

/-- unpickler.py:572-577: a state that unpacks to `(dict_state, slots_state)`, for an object without `__dict__` -/
def pairState (h : Heap) (info : ClassInfo) (st : Val) : Except Exc (List Op) :=
  match starArgs h st with
  | none => .error .typeError
  | some [d, sl] =>
    if truthy h d then .error .attributeError
    else if truthy h sl then
      match dictEntries h sl with
      | none => .error .attributeError
      | some kvs => match setattrs info kvs with
        | (ops, none) => .ok ops
        | (_, some e) => .error e
    else .ok []
  | some _ => .error .valueError

/-- unpickler.py:554-580: what is done with the state.  The `__dict__` of an object that was just made is taken to be empty, so
that the `setdefault` loop (563-564) does nothing; user methods are taken to succeed. -/
def stateOps (h : Heap) (info : ClassInfo) (st setter : Val) : Except Exc (List Op) :=
  if truthy h st then
    match setter with
    | .none =>
      if info.hasSetstate then .ok [.setstate st]
      else if info.hasDict then
        -- `__dict__` can only be set to a dict; the `TypeError` is not caught
        match dictEntries h st with
        | some _ => .ok [.setDict st]
        | none => .error .typeError
      else match dictEntries h st with
        | some kvs => match setattrs info kvs with
          | (ops, none) => .ok ops
          | (ops, some _) => (pairState h info st).map (ops ++ ·)
        | none => pairState h info st
    | .func n => .ok [.setter (.func n) st]
    | .type n => .ok [.setter (.type n) st]
    | _ => .error .typeError
  else .ok []

/-- unpickler.py:582-588 -/
def listOps (h : Heap) (info : ClassInfo) (items : Val) : Except Exc (List Op) :=
  if truthy h items then
    match starArgs h items with
    | none => .error .typeError
    | some xs =>
      if info.canExtend then .ok [.extend xs]
      else if info.canAppend || xs.isEmpty then .ok (xs.map .append)
      else .error .attributeError
  else .ok []

/-- `for k, v in items: obj.__setitem__(k, v)` -/
def setitems (h : Heap) (info : ClassInfo) : List Val → Except Exc (List Op)
  | [] => .ok []
  | x :: xs => match starArgs h x with
    | none => .error .typeError
    | some [k, v] => if info.canSetitem then (setitems h info xs).map (.setitem k v :: ·) else .error .attributeError
    | some _ => .error .valueError

/-- unpickler.py:590-592 -/
def dictOps (h : Heap) (info : ClassInfo) (items : Val) : Except Exc (List Op) :=
  if truthy h items then
    match starArgs h items with
    | none => .error .typeError
    | some xs => setitems h info xs
  else .ok []

/-- the call of the state setter -/
def emitSetter : List Op → U Unit
  | .setter (.func n) _ :: _ => emit (.call n)
  | .setter (.type n) _ :: _ => emit (.call n)
  | _ => pure ()

/-- finish `_restore_reduce` (unpickler.py:554-596): state, list items, dict items; then the placeholder is replaced -/
def reduceFinish (p : Addr) (cls : Str) (vals : List Val) (state listitems dictitems setter : Val) : U Val := do
  let s ← get
  let st ← ofExcept (stateOps s.heap (env.classInfo cls) state setter)
  emitSetter st
  let ls ← ofExcept (listOps s.heap (env.classInfo cls) listitems)
  let ds ← ofExcept (dictOps s.heap (env.classInfo cls) dictitems)
  let a ← alloc (.inst (reduceInst env cls vals (st ++ ls ++ ds)))
  setCell p (.proxy (some (.ref a)))
  swapref p (.ref a)
  pure (.ref a)

def padVals (vs : List Val) : List Val := vs ++ List.replicate (6 - vs.length) .none

/-- `f(*args)` or `f.__new__(f, *args)` succeeds (unpickler.py:547-552) -/
def callOk (info : ClassInfo) (n : Nat) : Bool := info.callAccepts n || info.newAccepts n

/-- `f == tags.NEWOBJ or getattr(f, "__name__", "") == "__newobj__"` (unpickler.py:535), for the `f` of the model -/
def isNewobj : Val → Bool
  | .str t => t == Tags.NEWOBJ
  | .func n | .type n => Pickler.shortOf n == p!"__newobj__"
  | _ => false

/-- the first element and the others -/
def headArgs : Option (List Val) → Except Exc (Val × List Val)
  | none => .error .typeError
  | some [] => .error .indexError
  | some (c :: r) => .ok (c, r)

/-- `args[0]` and `args[1:]` (unpickler.py:537-540) -/
def newobjArgs (h : Heap) (args : Val) : Except Exc (Val × List Val) :=
  match args with
  | .set _ _ => .error .typeError
  | .ref a => match h[a]? with
    | some (.dict _) => .error .keyError
    | some (.inst i) => match i.info.base with
      | .dict => .error .keyError
      | .set => .error .typeError
      | _ => headArgs (starArgs h args)
    | _ => headArgs (starArgs h args)
  | _ => headArgs (starArgs h args)

/-- unpickler.py:533-596, on the restored values.  More than six values cannot be unpacked.  A function is called, and must accept
that many arguments; a class is called, else `__new__` is tried.  (A first argument of `__newobj__` that is not a class is
restored once more before the `TypeError` (538-539): not modelled.  Neither is a dict with the key 0 as arguments of `__newobj__`.) -/
def reduceBuild (p : Addr) (vals : List Val) : U Val :=
  match vals with
  | [f, args, c, d, e, g] => do
    let s ← get
    if isNewobj f then do
      let a ← ofExcept (newobjArgs s.heap args)
      match a.1 with
      | .type n =>
        if (env.classInfo n).newAccepts a.2.length then do
          emit (.call n)
          reduceFinish env p n vals c d e g
        else throw .typeError
      | _ => throw .typeError
    else match f with
    | .type n =>
      match starArgs s.heap args with
      | none => throw .typeError
      | some xs =>
        if callOk (env.classInfo n) xs.length then do
          emit (.call n)
          reduceFinish env p n vals c d e g
        else throw .typeError
    | .func n =>
      match starArgs s.heap args with
      | none => throw .typeError
      | some xs =>
        if (env.classInfo n).callAccepts xs.length then do
          emit (.call n)
          reduceFinish env p n vals c d e g
        else throw .typeError
    | _ => reduceFallback p
  | _ => throw .valueError

/-- unpickler.py:516-596 -/
def restoreReduce (kvs : List (Str × Json)) : U Val := do
  let p ← alloc (.proxy none)
  let _ ← mkref (.ref p)
  let r ← tryCatch (do
      let j ← ofExcept (item Tags.REDUCE kvs)
      let xs ← ofExcept (jsonIter j)
      let vs ← mapM rs xs
      pure (some vs))
    (· == .typeError) (fun _ => pure none)
  match r with
  | none => reduceFallback p
  | some vs => reduceBuild env p (padVals vs)

/-- `self._objs[n]`, or an `_IDProxy` (unpickler.py:601-603) -/
def idLookup (n : Int) : U Val := do
  let s ← get
  match pyIndex s.objs n with
  | some v => pure v
  | none => do
    let a ← alloc (.idproxy n)
    pure (.ref a)

/-- unpickler.py:598-605 -/
def restoreId (kvs : List (Str × Json)) : U Val := do
  let j ← ofExcept (item Tags.ID kvs)
  match j with
  | .int n => idLookup n
  | .bool b => idLookup (if b then 1 else 0)
  | _ => pure .none

/-- unpickler.py:607-611 -/
def restoreType (kvs : List (Str × Json)) : U Val := do
  let j ← ofExcept (item Tags.TYPE kvs)
  let c ← loadclassJ env j
  match c with
  | some v => pure v
  | none => raw (.obj kvs)

/-- unpickler.py:613-619 with 284-306 -/
def restoreModule (j : Json) : U Val :=
  match j with
  | .str s => do
    emit (.imp s)
    let r ← ofExcept (env.loadmodule s)
    mkref (r.getD .none)
  | _ => throw .attributeError

/-- unpickler.py:621-623 with 262-281 -/
def restoreRepr (j : Json) : U Val :=
  match j with
  | .str s => do
    emit (.eval s)
    let v ← ofExcept (env.loadrepr s)
    mkref v
  | _ => throw .attributeError

/-- unpickler.py:637-648 -/
def processMissing (name : Str) : U Unit :=
  match env.onMissing with
  | .ignore => pure ()
  | .warn | .callback => emit (.missing name)
  | .error => do
    emit (.missing name)
    throw .classNotFound

/-- unpickler.py:625-635: which entry of the object holds the factory -/
def factoryKey (kvs : List (Str × Json)) : Option Str :=
  if dhas Tags.DEFAULT_FACTORY kvs then some Tags.DEFAULT_FACTORY
  else if dhas p!"default_factory" kvs then some p!"default_factory"
  else none

/-- unpickler.py:625-635: the factory and the remaining entries (`pop` mutates the document) -/
def loadFactory (kvs : List (Str × Json)) : U (Val × List (Str × Json)) :=
  match factoryKey kvs with
  | none => pure (.none, kvs)
  | some k =>
    match dget k kvs with
    | none | some .null => pure (.none, ddel k kvs)
    | some j => do
      let v ← rs j
      pure (v, ddel k kvs)

/-- unpickler.py:137-139 -/
def isJsonKey (k : Str) : Bool := startsWith k Tags.JSON_KEY

/-- unpickler.py:650-660 -/
def restorePickledKey (k : Str) : U Val :=
  if isJsonKey k then
    match env.loads (k.drop Tags.JSON_KEY.length) with
    | none => throw .valueError
    | some j => rs j
  else pure (.str k)

/-- unpickler.py:662-680 -/
def restoreKey (k : Str) : U Val :=
  if env.keys then restorePickledKey env rs k else pure (.str k)

/-- unpickler.py:708-719: `instance[k] = value` for an instance of a dict subclass.  `__dict__` replaces
the attribute dictionary (a non-dict is refused and skipped). -/
def setItem (a : Addr) (k v : Val) : U Unit := fun s =>
  match s.heap[a]? with
  | some (.inst i) =>
    match k with
    | .str t =>
      if t == p!"__dict__" then
        match v with
        | .ref d => match s.heap[d]? with
          | some (.dict _) =>
            if i.info.hasDict then
              some (.ok (), { s with heap := s.heap.set a (.inst { i with dictCell := some d, attrs := [] }) })
            else some (.error .attributeError, s)
          | _ => some (.ok (), s)
        | _ => some (.ok (), s)
      else some (.ok (), { s with heap := s.heap.set a (.inst { i with items := vset k v i.items }) })
    | _ =>
      if hashable s.heap k then
        some (.ok (), { s with heap := s.heap.set a (.inst { i with items := vset k v i.items }) })
      else some (.error .typeError, s)
  | _ => some (.error .typeError, s)

/-- unpickler.py:720-745: `setattr`, with names starting with `__` mangled. -/
def setAttrMangled (a : Addr) (k v : Val) : U Unit := fun s =>
  match k with
  | .str t =>
    if startsWith t p!"__" then
      match s.heap[a]? with
      | some (.inst i) => setattr a (mangle i t) v s
      | _ => some (.error .attributeError, s)
    else setattr a t v s
  -- `b"…".startswith("__")`; anything else has no `startswith`
  | .bytes _ _ | .bytearray _ _ => some (.error .typeError, s)
  | _ => some (.error .attributeError, s)

/-- is the cell an instance of a dict subclass? -/
def isDictSub (h : Heap) (a : Addr) : Bool :=
  match h[a]? with
  | some (.inst i) => i.info.base == .dict
  | _ => false

/-- unpickler.py:708-745 -/
def storeRaw (a : Addr) (k v : Val) : U Unit := fun s =>
  if isDictSub s.heap a then setItem a k v s else setAttrMangled a k v s

/-- `k == "__dict__"` -/
def isDictKey : Val → Bool
  | .str t => t == p!"__dict__"
  | _ => false

/-- unpickler.py:748-750: note the value if it is a placeholder.  A placeholder for the `__dict__` of a dict subclass was refused
(714-719, it is not a dict) and is not noted. -/
def noteEntry (a : Addr) (k v : Val) : U Unit := fun s =>
  if isDictSub s.heap a && isDictKey k then some (.ok (), s) else noteProxy a (.attr k) v s

/-- unpickler.py:708-750: store one restored entry. -/
def storeEntry (a : Addr) (k v : Val) : U Unit := do
  storeRaw a k v
  noteEntry a k v

/-- unpickler.py:682-759 with `restore_dict_items=True` -/
def restoreFromJson (a : Addr) (kvs : List (Str × Json)) : U Unit := do
  let _ ← mapM (fun (kv : Str × Json) =>
    if Tags.isReserved kv.1 then pure ()
    else do
      let k ← restoreKey env rs kv.1
      let v ← rs kv.2
      storeEntry a k v) kvs
  pure ()

/-- unpickler.py:682-759 with `ignorereserved=False, restore_dict_items=False` -/
def restoreFromVals (a : Addr) (kvs : List (Val × Val)) : U Unit := do
  let _ ← mapM (fun (kv : Val × Val) => storeEntry a kv.1 kv.2) kvs
  pure ()

/-- the info of the instance in a cell -/
def infoOf (h : Heap) (a : Addr) : ClassInfo :=
  match h[a]? with
  | some (.inst i) => i.info
  | _ => {}

/-- unpickler.py:776-791: a state that is neither consumed by `__setstate__` nor a dict. -/
def applyOtherState (a : Addr) (st : Val) : U Val := do
  let s ← get
  match st with
  | .tuple _ [x, y] =>
    match dictEntries s.heap y with
    | some kvs => do
      restoreFromVals a kvs
      match dictEntries s.heap x with
      | some kvs0 => do
        restoreFromVals a kvs0
        pure (.ref a)
      | none => pure (.ref a)
    | none =>
      if (infoOf s.heap a).hasNewargs || (infoOf s.heap a).hasNewargsEx then pure (.ref a) else pure st
  | _ =>
    if (infoOf s.heap a).hasNewargs || (infoOf s.heap a).hasNewargsEx then pure (.ref a) else pure st

/-- unpickler.py:761-792 -/
def restoreState (a : Addr) (j : Json) : U Val := do
  let st ← rs j
  let s ← get
  if (infoOf s.heap a).hasSetstate then do
    modInst a (fun i => { i with state := .ok st })
    pure (.ref a)
  else match dictEntries s.heap st with
    | some kvs => do
      restoreFromVals a kvs
      pure (.ref a)
    | none => applyOtherState a st

/-- unpickler.py:800-806: elements of list and set subclasses -/
def restoreSeq (a : Addr) (j : Json) : U Unit := do
  let s ← get
  match (infoOf s.heap a).base with
  | .list => do
    let xs ← ofExcept (jsonIter j)
    let _ ← mapM (fun x => do
      let v ← rs x
      modInst a (fun i => { i with elems := i.elems ++ [v] })) xs
    pure ()
  | .set => do
    let xs ← ofExcept (jsonIter j)
    let _ ← mapM (fun x => do
      let v ← rs x
      let s ← get
      if hashable s.heap v then modInst a (fun i => { i with elems := sadd v i.elems })
      else throw .typeError) xs
    pure ()
  | _ => pure ()

/-- the `py/seq` part, if present -/
def restoreSeqTag (a : Addr) (kvs : List (Str × Json)) : U Unit :=
  match dget Tags.SEQ kvs with
  | none => pure ()
  | some j => restoreSeq rs a j

/-- unpickler.py:794-811 -/
def restoreVariables (a : Addr) (kvs : List (Str × Json)) : U Val := do
  restoreFromJson env rs a kvs
  restoreSeqTag rs a kvs
  match dget Tags.STATE kvs with
  | none => pure (.ref a)
  | some j => restoreState rs a j

/-- `len(x)` of a JSON value -/
def jsonLen : Json → Option Nat
  | .arr xs => some xs.length
  | .obj kvs => some kvs.length
  | .str s => some s.length
  | _ => none

/-- unpickler.py:226-242 `getargs` -/
def getargs (kvs : List (Str × Json)) : U Json :=
  match dget Tags.NEWARGS kvs with
  | some j => pure j
  | none => match dget Tags.INITARGS kvs with
    | some j => pure j
    | none => match dget Tags.SEQ kvs, dget Tags.OBJECT kvs with
      | some sq, some o => do
        let c ← loadclassJ env o
        match c with
        | some (.type n) =>
          match (env.classInfo n).numFields with
          | none => pure (.arr [])
          | some k => match jsonLen sq with
            | none => throw .typeError
            | some m => pure (if k == m then sq else .arr [])
        | _ => pure (.arr [])
      | _, _ => pure (.arr [])

/-- keyword arguments as they are used: `**[]` fails as `**None` does (unlike `**{}`) -/
def kwArg : Json → Json
  | .arr [] => .null
  | j => j

/-- unpickler.py:825-829: the unrestored constructor arguments -/
def ctorArgs (kvs : List (Str × Json)) : U (Json × Json) :=
  match dget Tags.NEWARGSEX kvs with
  | some j => do
    let xs ← ofExcept (jsonIter j)
    match xs with
    | [a, k] => pure (a, kwArg k)
    | _ => throw .valueError
  | none => do
    let a ← getargs env kvs
    pure (a, .obj [])

/-- unpickler.py:830-833: falsy arguments are used as they are -/
def restoreArg (j : Json) : U Val :=
  if jsonTruthy j then rs j
  else match j with
    | .arr _ | .obj _ => pure (.tuple 0 [])
    | .str _ => pure (.str [])
    | .bool b => pure (.bool b)
    | .int i => pure (.int i)
    | .float f => pure (.float f)
    | .null => pure .none

/-- the key is a string -/
def isStrKey (kv : Val × Val) : Bool :=
  match kv.1 with
  | .str _ => true
  | _ => false

/-- `**kwargs` works: a dict with string keys, or the empty default -/
def kwOk (h : Heap) (v : Val) : Bool :=
  match v with
  | .tuple _ [] => true
  | v => match dictEntries h v with
    | some kvs => kvs.all isStrKey
    | none => false

/-- elements of a tuple subclass instance made by `__new__(cls, *args)`: namedtuples take them as
arguments, other subclasses take one iterable -/
def tupleElems (h : Heap) (info : ClassInfo) (args : List Val) : List Val :=
  match info.numFields with
  | some _ => args
  | none => match args with
    | x :: _ => (starArgs h x).getD []
    | [] => []

/-- The instance right after construction (unpickler.py:836-857): `none` if construction failed
altogether.  `fac` is the restored factory. -/
def construct (h : Heap) (n : Str) (info : ClassInfo) (fac args kw : Val) : Option Inst :=
  let base : Inst := { cls := n, info := info, newargs := args, newargsEx := (args, kw) }
  match starArgs h args with
  | none => if info.blankOk then some { cls := n, info := info } else none
  | some xs =>
    let nargs := if truthy h fac then xs.length + 1 else xs.length
    if info.newAccepts nargs && kwOk h kw then
      let inst := { base with
        elems := if info.base == .tuple then tupleElems h info xs else [] }
      if truthy h fac then
        if info.base == .dict then some { inst with factory := some fac }
        else some { inst with attrs := [(p!"default_factory", fac)] }
      else some inst
    else if info.callAccepts xs.length then some { base with viaCall := true }
    else if info.blankOk then some { cls := n, info := info } else none

/-- unpickler.py:867-870: a factory that is still a proxy is replaced -/
def fixFactory (v : Val) : U Unit := modify (fun s =>
  match v with
  | .ref a => match s.heap[a]? with
    | some (.inst i) =>
      match (match i.factory with
        | some f => some f
        | none => dget p!"default_factory" i.attrs) with
      | some f => match proxyAddr s.heap f with
        | some p =>
          if i.factory.isSome then
            { s with heap := s.heap.set a (.inst { i with factory := some (proxyGet s p) }) }
          else { s with heap := s.heap.set a (.inst { i with
              attrs := dset p!"default_factory" (proxyGet s p) i.attrs }) }
        | none => s
      | none => s
    | _ => s
  | _ => s)

/-- unpickler.py:813-872 -/
def restoreInstance (n : Str) (kvs : List (Str × Json)) : U Val := do
  let p ← alloc (.proxy none)
  let _ ← mkref (.ref p)
  let (fac, kvs) ← loadFactory rs kvs
  let (ja, jk) ← ctorArgs env kvs
  let args ← restoreArg rs ja
  let kw ← restoreArg rs jk
  let s ← get
  emit (.call n)
  match construct s.heap n (env.classInfo n) fac args kw with
  | none => do
    processMissing env n
    let r ← raw (.obj kvs)
    mkref r
  | some inst => do
    let a ← alloc (.inst inst)
    setCell p (.proxy (some (.ref a)))
    swapref p (.ref a)
    if inst.info.base == .tuple then pure (.ref a)
    else do
      let v ← restoreVariables env rs a kvs
      fixFactory v
      pure v

/-- `util.b64decode(x)` (util.py:507-514) of a JSON value: text that is not ASCII is a `ValueError`, which is not caught -/
def dateBytes : Json → Except Exc Bytes
  | .str p => if p.all (· < 128) then .ok (b64decode p) else .error .valueError
  | _ => .ok []

/-- `args[0]` and `args[1:]` -/
def dateArgs : Json → Except Exc (Json × List Json)
  | .arr (p :: ps) => .ok (p, ps)
  | .arr [] => .error .indexError
  | .str (c :: s) => .ok (.str [c], s.map (fun c => .str [c]))
  | .str [] => .error .indexError
  | .obj _ => .error .keyError
  | _ => .error .typeError

/-- handlers.py:225-232 `DatetimeHandler.restore`; what `cls.__new__` is given is recorded in the object (as for other constructors, it
is taken to succeed if `cls` is a class). -/
def restoreDate (kvs : List (Str × Json)) : U Val := do
  let r ← ofExcept (item p!"__reduce__" kvs)
  let parts ← ofExcept (jsonIter r)
  match parts with
  | [c, a] => do
    let cls ← rs c
    let pa ← ofExcept (dateArgs a)
    let b ← ofExcept (dateBytes pa.1)
    let params ← mapM rs pa.2
    match cls with
    | .type m => do
      emit (.call m)
      let a ← alloc (.inst { cls := m, info := env.classInfo m, hfields := (p!"state", .bytes 0 b) :: params.map (fun v => (p!"tzinfo", v)) ++ [(p!"class", .type m)] })
      pure (.ref a)
    | _ => throw .typeError
  | _ => throw .valueError

/-- `handler.restore(obj)` for the handler kinds of `HKind`; the object's fields are the entries other
than the class tag. -/
def handlerRestore (k : HKind) (n : Str) (kvs : List (Str × Json)) : U Val :=
  match k with
  | .record => do
    let fs ← mapM (fun (kv : Str × Json) => do
      let v ← rs kv.2
      pure (kv.1, v)) (ddel Tags.OBJECT kvs)
    let a ← alloc (.inst { cls := n, info := env.classInfo n, hfields := fs })
    pure (.ref a)
  | .datetime => restoreDate env rs kvs
  | .opaque => do
    let a ← alloc (.inst { cls := n, info := env.classInfo n })
    pure (.ref a)
  | .drop => throw .assertionError

/-- unpickler.py:878-885 -/
def restoreHandled (k : HKind) (n : Str) (kvs : List (Str × Json)) : U Val := do
  let p ← alloc (.proxy none)
  let _ ← mkref (.ref p)
  let v ← handlerRestore env rs k n kvs
  setCell p (.proxy (some v))
  swapref p v
  pure v

/-- unpickler.py:874-891.  A name that denotes a non-class object is called (lines 835, 849-851). -/
def restoreObject (kvs : List (Str × Json)) : U Val := do
  let j ← ofExcept (item Tags.OBJECT kvs)
  let c ← loadclassJ env j
  match j with
  | .str n => do
    emit (.obj n)
    match env.handler n with
    | some k => restoreHandled env rs k n kvs
    | none => match c with
      | none => do
        processMissing env n
        let r ← raw (.obj kvs)
        mkref r
      | some _ => restoreInstance env rs n kvs
  | _ => throw .attributeError

/-- unpickler.py:893-894 -/
def restoreFunction (kvs : List (Str × Json)) : U Val := do
  let j ← ofExcept (item Tags.FUNCTION kvs)
  let c ← loadclassJ env j
  pure (c.getD .none)

/-- unpickler.py:952-956 -/
def restoreTuple (kvs : List (Str × Json)) : U Val := do
  let vs ← tryCatch (do
      let j ← ofExcept (item Tags.TUPLE kvs)
      let xs ← ofExcept (jsonIter j)
      mapM rs xs)
    (· == .typeError) (fun _ => pure [])
  let n ← fresh
  pure (.tuple n vs)

/-- unpickler.py:896-900 -/
def restoreSet (kvs : List (Str × Json)) : U Val := do
  let vs ← tryCatch (do
      let j ← ofExcept (item Tags.SET kvs)
      let xs ← ofExcept (jsonIter j)
      foldM (fun acc x => do
        let v ← rs x
        let s ← get
        if hashable s.heap v then pure (sadd v acc) else throw .typeError) [] xs)
    (· == .typeError) (fun _ => pure [])
  let n ← fresh
  pure (.set n vs)

/-- `data[k] = v` on the dict in cell `a` -/
def dictSet (a : Addr) (k v : Val) : U Unit := fun s =>
  if hashable s.heap k then
    match s.heap[a]? with
    | some (.dict kvs) => some (.ok (), { s with heap := s.heap.set a (.dict (vset k v kvs)) })
    | _ => some (.ok (), s)
  else some (.error .typeError, s)

/-- unpickler.py:940-949: one entry with `keys=False` -/
def dictEntry (a : Addr) (kv : Str × Json) : U Unit := do
  let v ← rs kv.2
  dictSet a (.str kv.1) v
  noteProxy a (.key (.str kv.1)) v

/-- unpickler.py:913-923: one entry of phase 1 with `keys=True` (proxies are *not* noted) -/
def dictEntry1 (a : Addr) (kv : Str × Json) : U Unit :=
  if isJsonKey kv.1 then pure ()
  else do
    let v ← rs kv.2
    dictSet a (.str kv.1) v

/-- unpickler.py:926-937: one entry of phase 2 with `keys=True` -/
def dictEntry2 (a : Addr) (kv : Str × Json) : U Unit :=
  if isJsonKey kv.1 then do
    let k ← restorePickledKey env rs kv.1
    let v ← rs kv.2
    dictSet a k v
    noteProxy a (.key k) v
  else pure ()

/-- `if not self.v1_decode: self._mkref(data)` -/
def mkrefUnlessV1 (a : Addr) : U Unit :=
  if env.v1 then pure ()
  else do
    let _ ← mkref (.ref a)
    pure ()

/-- unpickler.py:902-950 -/
def restoreDict (kvs : List (Str × Json)) : U Val := do
  let a ← alloc (.dict [])
  mkrefUnlessV1 env a
  if env.keys then do
    let _ ← mapM (dictEntry1 rs a) kvs
    let _ ← mapM (dictEntry2 env rs a) kvs
    pure (.ref a)
  else do
    let _ ← mapM (dictEntry rs a) kvs
    pure (.ref a)

/-- unpickler.py:967-998: dispatch on the tags of a dict -/
def restoreTags (kvs : List (Str × Json)) : U Val :=
  if dhas Tags.TUPLE kvs then restoreTuple rs kvs
  else if dhas Tags.SET kvs then restoreSet rs kvs
  else if dhas Tags.B64 kvs then do
    let b ← ofExcept (restoreBase64 kvs)
    let n ← fresh
    pure (.bytes n b)
  else if dhas Tags.B85 kvs then do
    let b ← ofExcept (restoreBase85 kvs)
    let n ← fresh
    pure (.bytes n b)
  else if dhas Tags.BYTEARRAY kvs then do
    let b ← ofExcept (restoreBytearray kvs)
    let n ← fresh
    pure (.bytearray n b)
  else if dhas Tags.ID kvs then restoreId kvs
  else if dhas Tags.ITERATOR kvs then restoreIterator rs kvs
  else if dhas Tags.OBJECT kvs then restoreObject env rs kvs
  else if dhas Tags.TYPE kvs then restoreType env kvs
  else if dhas Tags.REDUCE kvs then restoreReduce env rs kvs
  else if dhas Tags.FUNCTION kvs then restoreFunction env kvs
  else if dhas Tags.MODULE kvs then do
    let j ← ofExcept (item Tags.MODULE kvs)
    restoreModule env j
  else if dhas Tags.REPR kvs then do
    let j ← ofExcept (item Tags.REPR kvs)
    if env.safe then restoreModule env j else restoreRepr env j
  else restoreDict env rs kvs

/-- unpickler.py:375-384 `_restore` -/
def restoreStep (j : Json) : U Val :=
  match j with
  | .null => pure .none
  | .bool b => pure (.bool b)
  | .int i => pure (.int i)
  | .float f => pure (.float f)
  | .str s => pure (.str s)
  | .arr xs => do
    let a ← restoreList rs (.ok xs)
    pure (.ref a)
  | .obj kvs => restoreTags env rs kvs

/-- `_restore` with recursion bounded by fuel. -/
def restore (env : UEnv) : Nat → Json → U Val
  | 0, _ => outOfFuel
  | n + 1, j => restoreStep env (restore env n) j

/-- unpickler.py:386-407 `Unpickler.restore(obj, reset)` -/
def restoreTop (env : UEnv) (n : Nat) (j : Json) (doReset : Bool) : U Val :=
  if doReset then do
    reset
    let v ← restore env n j
    swapProxies
    pure v
  else restore env n j

end Unpickler
end JP
