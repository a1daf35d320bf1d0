import Verif.Pickler
import Verif.Touch
/-!
# The document without references

Specification of what the encoder writes when it writes no references (`unpicklable=False`, or
`make_refs=False`): every object is written out wherever it occurs.  There are no tables and no cache here:
`doc n v` is computed from the object graph alone.  `n` bounds the number of levels.
-/
namespace JP.Expand
open JP

/-- the text for a key that is not written as a key of its own: `None` is `null`, a string is itself, everything else is its `repr`, or
its `str` if `repr` raises -/
def keyText (w : World) (k : Val) : Str :=
  match k with
  | .none => p!"null"
  | .str s => s
  | k => match w.repr k, w.pystr k with
    | .ok s, _ => s
    | _, .ok s => s
    | _, _ => []

/-- entries written into a dict one after the other -/
def put : List (Str × Json) → List (Str × Json) → List (Str × Json)
  | d, [] => d
  | d, (k, j) :: r => put (dset k j d) r

def isLambda : Val → Bool
  | .lambda _ => true
  | _ => false

/-- with `keys=True`, string keys that would be misread are written like other keys -/
def special (s : Str) : Bool := startsWith s Tags.JSON_KEY || Tags.RESERVED.contains s

variable (w : World) (cfg : PCfg) (ex : Val → Json)

/-- a key that is itself a document -/
def quoted (k : Val) : Str := Tags.JSON_KEY ++ w.dumps (ex k)

/-- `keys=False`: reserved names and functions without a name are left out -/
def plainEntry (kv : Val × Val) : Option (Str × Json) :=
  if isLambda kv.2 then none
  else match kv.1 with
    | .str s => if Tags.RESERVED.contains s then none else some (s, ex kv.2)
    | k => some (keyText w k, ex kv.2)

/-- `keys=True`: string keys -/
def stringEntry (kv : Val × Val) : Option (Str × Json) :=
  match kv.1 with
  | .str s =>
    if special s then some (quoted w ex (.str s), ex kv.2)
    else if isLambda kv.2 then none else some (s, ex kv.2)
  | _ => none

/-- `keys=True`: the other keys -/
def otherEntry (kv : Val × Val) : Option (Str × Json) :=
  match kv.1 with
  | .str _ => none
  | k => if isLambda kv.2 then none else some (quoted w ex k, ex kv.2)

/-- the entries of a dict -/
def entries (kvs : List (Val × Val)) : List (Str × Json) :=
  if cfg.keys then kvs.filterMap (stringEntry w ex) ++ kvs.filterMap (otherEntry w ex)
  else kvs.filterMap (plainEntry w ex)

/-- the entries whose key is not excluded -/
def kept (excl : List Str) (kvs : List (Val × Val)) : List (Val × Val) :=
  kvs.filter (fun kv => match kv.1 with
    | .str s => !excl.contains s
    | _ => true)

/-- the `__dict__` of an instance -/
def dictOf (i : Inst) : List (Val × Val) :=
  match i.dictCell with
  | none => i.attrs.map (fun kv => (.str kv.1, kv.2))
  | some d => match w.heap[d]? with
    | some (.dict kvs) => kvs
    | _ => []

/-- the attributes with these names that are set and not excluded; names that start with `__` are private to the class -/
def present (i : Inst) (lookup : List (Str × Val)) (names : List Str) : List (Val × Val) :=
  names.filterMap (fun k =>
    if i.exclude.contains k then none
    else (dget (if startsWith k p!"__" then p!"_" ++ i.info.shortName ++ k else k) lookup).map (fun v => (.str k, v)))

/-- attributes of an instance with slots; if no slot is set, all attributes that `dir` shows -/
def slotEntries (i : Inst) : List (Str × Json) :=
  let es := present i i.attrs i.info.slots
  if es.isEmpty then (present i i.dirAttrs (i.dirAttrs.map (·.1))).filterMap (plainEntry w ex)
  else es.filterMap (plainEntry w ex)

/-- the class, with `unpicklable=True` -/
def classTag (i : Inst) : List (Str × Json) :=
  if cfg.unpicklable then [(Tags.OBJECT, .str i.cls)] else []

/-- arguments for the constructor -/
def args (i : Inst) : List (Str × Json) :=
  (if i.info.hasNewargsEx then [(Tags.NEWARGSEX, .arr [ex i.newargsEx.1, ex i.newargsEx.2])]
   else if i.info.hasNewargs then [(Tags.NEWARGS, ex i.newargs)] else []) ++
  (if i.info.hasInitargs then [(Tags.INITARGS, ex i.initargs)] else [])

/-- a class as default factory -/
def factoryEntry (d : List (Str × Json)) (i : Inst) : List (Str × Json) :=
  match i.factory with
  | some (.type n) => [(if dhas p!"default_factory" d then Tags.DEFAULT_FACTORY else p!"default_factory", .obj [(Tags.TYPE, .str n)])]
  | _ => []

/-- what an object without state is: its entries, elements, items or attributes -/
def members (i : Inst) (d : List (Str × Json)) : Json :=
  match i.info.base with
  | .dict =>
    let d := put d (entries w cfg ex (kept i.exclude i.items))
    let d := put d (factoryEntry d i)
    .obj (if i.info.hasDict && cfg.unpicklable && !i.eqOwnDict then
      put d [(p!"__dict__", .obj (put [] (entries w cfg ex (kept i.exclude (dictOf w i)))))] else d)
  | .list | .set | .tuple =>
    if cfg.unpicklable then
      .obj (put (if i.info.hasDict then put d (entries w cfg ex (dictOf w i)) else d) [(Tags.SEQ, .arr (i.elems.map ex))])
    else .arr (i.elems.map ex)
  | .plain =>
    if i.info.isIterator then
      .obj (put d [(Tags.ITERATOR, .arr ((match cfg.maxIter with | none => i.elems | some n => i.elems.take n).map ex))])
    else if i.info.hasDict then .obj (put d (entries w cfg ex (kept i.exclude (dictOf w i))))
    else if i.info.hasSlots then .obj (put d (slotEntries w ex i))
    else if !d.isEmpty then .obj d
    else if cfg.unpicklable then .null
    else match i.info.reduces, i.reduce with
      | true, .tup xs =>
        if truthy w.heap (xs.getD 2 .none) then ex (xs.getD 2 .none)
        else if truthy w.heap (xs.getD 1 .none) then ex (xs.getD 1 .none)
        else .null
      | _, _ => .null

/-- the class and constructor arguments, then the state, or else the members -/
def byState (i : Inst) : Json :=
  let d := put (classTag cfg i) (args ex i)
  if i.info.ownGetstate then
    match i.state with
    | .error _ => .null
    | .ok st =>
      if truthy w.heap st then
        if cfg.unpicklable then .obj (put d [(Tags.STATE, ex st)]) else ex st
      else members w cfg ex i d
  else members w cfg ex i d

/-- a reduce tuple: six values, with the marker for `copyreg.__newobj__`; trailing `None`s after the second are not written -/
def recipe (xs : List Val) : Json :=
  let six : List Val := xs ++ List.replicate (6 - xs.length) .none
  let marked : List Val := match six with
    | .func n :: r => (if Pickler.shortOf n == p!"__newobj__" then .str Tags.NEWOBJ else .func n) :: r
    | .type n :: r => (if Pickler.shortOf n == p!"__newobj__" then .str Tags.NEWOBJ else .type n) :: r
    | xs => xs
  let js := marked.map ex
  .obj [(Tags.REDUCE, .arr (js.take 2 ++ ((js.drop 2).reverse.dropWhile (fun j : Json => match j with | .null => true | _ => false)).reverse))]

/-- the reduce tuple is used unless it has a state that a class with `__getstate__` and without `__setstate__` could not take back -/
def usesReduce (i : Inst) (xs : List Val) : Bool :=
  !xs.isEmpty && !(truthy w.heap (xs.getD 2 .none) && i.info.ownGetstate && !i.info.hasSetstate && i.info.base != .dict)

/-- an instance -/
def inst (a : Addr) (i : Inst) : Json :=
  match w.handler i.cls with
  | some .record => .obj (put (classTag cfg i) (i.hfields.map (fun kv => (kv.1, ex kv.2))))
  | some .datetime =>
    if cfg.unpicklable then
      .obj (put (classTag cfg i) [(p!"__reduce__", .arr [((i.hfields.tail.map (fun kv => ex kv.2)).getLastD .null),
        .arr (.str (Pickler.dateText i.hfields) :: (i.hfields.tail.map (fun kv => ex kv.2)).dropLast)])])
    else match w.pystr (.ref a) with
      | .ok s => .str s
      | .error _ => .null
  | some .opaque => .obj (classTag cfg i)
  | some .drop => .null
  | none =>
    if cfg.unpicklable && i.info.reduces then
      match i.reduce with
      | .str (some v) => ex v
      | .tup xs => if usesReduce w i xs then recipe ex xs else byState w cfg ex i
      | _ => byState w cfg ex i
    else byState w cfg ex i

def bytesDoc (b : Bytes) : Json :=
  if cfg.useBase85 then .obj [(Tags.B85, .str (b85encode b))] else .obj [(Tags.B64, .str (b64encode b))]

/-- one level -/
def level (v : Val) : Json :=
  match v with
  | .none => .null
  | .bool b => .bool b
  | .int i => .int i
  | .float f => .float f
  | .str s => .str s
  | .bytes _ b => bytesDoc cfg b
  | .bytearray _ b => .obj [(Tags.BYTEARRAY, bytesDoc cfg b)]
  | .tuple _ xs => if cfg.unpicklable then .obj [(Tags.TUPLE, .arr (xs.map ex))] else .arr (xs.map ex)
  | .set _ xs => if cfg.unpicklable then .obj [(Tags.SET, .arr (xs.map ex))] else .arr (xs.map ex)
  | .func n => if cfg.unpicklable then .obj [(Tags.FUNCTION, .str n)] else .null
  | .type n => .obj [(Tags.TYPE, .str n)]
  | .module n =>
    if cfg.unpicklable then .obj [(Tags.MODULE, .str (n ++ 47 :: n))]
    else match w.pystr (.module n) with
      | .ok s => .str s
      | .error _ => .null
  | .lambda _ => .null
  | .ref a => match w.heap[a]? with
    | some (.list xs) => .arr (xs.map ex)
    | some (.dict kvs) => .obj (put [] (entries w cfg ex kvs))
    | some (.inst i) => inst w cfg ex a i
    | _ => .null

/-- the document of a value -/
def doc (w : World) (cfg : PCfg) : Nat → Val → Json
  | 0 => fun _ => .null
  | n + 1 => level w cfg (doc w cfg n)

/-! ### which graphs -/

/-- no chain of references that starts at the value has more than `n` steps -/
def Below (h : Heap) : Nat → Val → Prop
  | 0, _ => False
  | n + 1, v => ∀ x, Touches h v x → Below h n x

/-- user code does not raise, except that `__getstate__` and `__reduce__` may raise `TypeError`; default factories are classes; an excluded
attribute is not part of a state; the `__dict__` of a dict subclass is not used as a dict elsewhere -/
structure Calm (cfg : PCfg) (i : Inst) : Prop where
  errs : i.errs = {}
  state : ∀ e, i.state = .error e → e = .typeError
  reduce : ∀ e, i.reduce = .raise e → e = .typeError
  exclude : i.exclude = [] ∨ i.info.ownGetstate = false
  factory : ∀ f, i.factory = some f → ∃ n, f = .type n
  ownDict : i.info.base = .dict → cfg.unpicklable = true → i.dictCell = none

/-- no identity: `None`, booleans, numbers, strings -/
def Scalar : Val → Prop
  | .none | .bool _ | .int _ | .float _ | .str _ => True
  | _ => False

/-- a graph, possibly with cycles -/
structure Shape (w : World) (cfg : PCfg) (root : Val) : Prop where
  calm : ∀ a i, Within w.heap root (.ref a) → w.heap[a]? = some (.inst i) → Calm cfg i
  cells : ∀ a, Within w.heap root (.ref a) → ∃ o, w.heap[a]? = some o ∧ ((∃ xs, o = .list xs) ∨ (∃ kvs, o = .dict kvs) ∨ ∃ i, o = .inst i)
  /-- different objects have different ids -/
  ids : ∀ x y, Within w.heap root x → Within w.heap root y → ¬ Scalar x → x.ident = y.ident → x = y
  repr : ∀ v, ∃ s, w.repr v = .ok s
  pystr : ∀ v, ∃ s, w.pystr v = .ok s

structure Graph (w : World) (cfg : PCfg) (root : Val) : Prop extends Shape w cfg root where
  /-- there are no cycles -/
  finite : ∃ n, Below w.heap n root

end JP.Expand
