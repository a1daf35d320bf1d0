import Verif.Value
/-!
# When two object graphs are the same

Specification of "`decode(encode(x))` rebuilds the object graph": a correspondence `R` between heap
cells of the original and of the rebuilt graph.  Nothing here mentions the encoder or the decoder.
-/
namespace JP

/-- two lists of equal length whose elements correspond one by one -/
def All2 {α β : Type} (p : α → β → Prop) : List α → List β → Prop
  | [], [] => True
  | x :: xs, y :: ys => p x y ∧ All2 p xs ys
  | _, _ => False

mutual
/-- The two values are the same up to the correspondence `R` of heap cells.  `id()` labels of immutable
inline objects are ignored; sets and tuples are compared element by element. -/
def VIso (R : Addr → Addr → Prop) : Val → Val → Prop
  | .none, .none => True
  | .bool a, .bool b => a = b
  | .int a, .int b => a = b
  | .float a, .float b => a = b
  | .str a, .str b => a = b
  | .bytes _ a, .bytes _ b => a = b
  | .bytearray _ a, .bytearray _ b => a = b
  | .tuple _ xs, .tuple _ ys => VIsos R xs ys
  | .set _ xs, .set _ ys => VIsos R xs ys
  | .type a, .type b => a = b
  | .func a, .func b => a = b
  | .module a, .module b => a = b
  | .ref a, .ref b => R a b
  | _, _ => False
def VIsos (R : Addr → Addr → Prop) : List Val → List Val → Prop
  | [], [] => True
  | x :: xs, y :: ys => VIso R x y ∧ VIsos R xs ys
  | _, _ => False
end

/-- corresponding entries of two dicts, in the given order -/
def ItemsIso (R : Addr → Addr → Prop) : List (Val × Val) → List (Val × Val) → Prop :=
  All2 (fun p q => VIso R p.1 q.1 ∧ VIso R p.2 q.2)

/-- the same attribute names, in the same order, with corresponding values -/
def FieldsIso (R : Addr → Addr → Prop) : List (Str × Val) → List (Str × Val) → Prop :=
  All2 (fun p q => p.1 = q.1 ∧ VIso R p.2 q.2)

def isStrV : Val → Bool
  | .str _ => true
  | _ => false

/-- `keys=True` writes the entries with string keys first. -/
def stringsFirst (kvs : List (Val × Val)) : List (Val × Val) :=
  kvs.filter (fun kv => isStrV kv.1) ++ kvs.filter (fun kv => !isStrV kv.1)

/-- the order in which the entries of a dict are written -/
def writeOrder (keys : Bool) : List (Val × Val) → List (Val × Val) := if keys then stringsFirst else id

/-- the attributes of an instance: the entries of its `__dict__` -/
def instAttrs (h : Heap) (i : Inst) : List (Val × Val) :=
  match i.dictCell with
  | none => i.attrs.map (fun kv => (.str kv.1, kv.2))
  | some d => match h[d]? with
    | some (.dict kvs) => kvs
    | _ => []

/-- the state that `__getstate__` returned, if the class defines it and it is truthy -/
def savedState (h : Heap) (i : Inst) : Option Val :=
  if i.info.ownGetstate then
    match i.state with
    | .ok st => if truthy h st then some st else none
    | .error _ => none
  else none

/-- the entries of the dict that `__getstate__` returned, if there is no `__setstate__`; otherwise the attributes -/
def savedAttrs (h : Heap) (i : Inst) : List (Val × Val) :=
  match i.info.hasSetstate, savedState h i with
  | false, some (.ref d) => (match h[d]? with
    | some (.dict kvs) => kvs
    | _ => [])
  | _, _ => instAttrs h i

/-- a reduce tuple in the six-element form that the protocol describes: absent elements are `None`, and
`copyreg.__newobj__` is represented by its marker `newobj` -/
def recipe (newobj : Str) (xs : List Val) : List Val :=
  (match xs with
    | .func n :: r => if (n.reverse.takeWhile (· != 46)).reverse == p!"__newobj__" then .str newobj :: r
        else .func n :: r
    | xs => xs) ++ List.replicate (6 - xs.length) .none

/-! ### The steps that finish an object made from a reduce tuple -/

/-- what the class of an object offers for these steps -/
structure Finish where
  setstate : Bool
  dict : Bool
  slots : List Str
  extend : Bool
  append : Bool
  setitem : Bool
  deriving DecidableEq

def ClassInfo.finish (c : ClassInfo) : Finish :=
  ⟨c.hasSetstate, c.hasDict, c.slots, c.canExtend, c.canAppend, c.canSetitem⟩

/-- What is done with the state (third element) and the state setter (sixth element): a falsy state is ignored; a state setter is
called; otherwise `__setstate__` is called, or the state dict becomes the `__dict__`, or its entries are stored in the slots.  In
the last case the state may be `(None, dict)` as well. -/
inductive StateSteps (h : Heap) (c : Finish) : Val → Val → List Op → Prop
  | nothing {st f : Val} : truthy h st = false → StateSteps h c st f []
  | setter {st f : Val} : truthy h st = true → ((∃ n, f = .func n) ∨ ∃ n, f = .type n) → StateSteps h c st f [.setter f st]
  | setstate {st : Val} : truthy h st = true → c.setstate = true → StateSteps h c st .none [.setstate st]
  | dict {d : Addr} {kvs : List (Val × Val)} : c.setstate = false → c.dict = true → h[d]? = some (.dict kvs) → kvs ≠ [] →
      StateSteps h c (.ref d) .none [.setDict (.ref d)]
  | slots {d : Addr} {kvs : List (Str × Val)} : c.setstate = false → c.dict = false →
      h[d]? = some (.dict (kvs.map (fun kv => (.str kv.1, kv.2)))) → kvs ≠ [] → (∀ kv ∈ kvs, kv.1 ∈ c.slots) →
      StateSteps h c (.ref d) .none (kvs.map (fun kv => .setattr kv.1 kv.2))
  | pair {l : Nat} {d : Addr} {kvs : List (Str × Val)} : c.setstate = false → c.dict = false →
      h[d]? = some (.dict (kvs.map (fun kv => (.str kv.1, kv.2)))) → kvs ≠ [] → (∀ kv ∈ kvs, kv.1 ∈ c.slots) →
      StateSteps h c (.tuple l [.none, .ref d]) .none (kvs.map (fun kv => .setattr kv.1 kv.2))

/-- what is done with the list items (fourth element): `extend`, or else `append` for each -/
inductive ListSteps (h : Heap) (c : Finish) : Val → List Op → Prop
  | nothing {v : Val} : truthy h v = false → ListSteps h c v []
  | extend {l : Nat} {xs : List Val} : xs ≠ [] → c.extend = true → ListSteps h c (.tuple l xs) [.extend xs]
  | append {l : Nat} {xs : List Val} : xs ≠ [] → c.extend = false → c.append = true → ListSteps h c (.tuple l xs) (xs.map .append)

/-- what is done with the dict items (fifth element), a tuple of pairs: `__setitem__` for each -/
inductive DictSteps (h : Heap) (c : Finish) : Val → List Op → Prop
  | nothing {v : Val} : truthy h v = false → DictSteps h c v []
  | items {l : Nat} {ps : List (Nat × Val × Val)} : ps ≠ [] → c.setitem = true →
      DictSteps h c (.tuple l (ps.map (fun p => .tuple p.1 [p.2.1, p.2.2]))) (ps.map (fun p => .setitem p.2.1 p.2.2))

/-- the steps for a reduce tuple in the six-element form: state, list items, dict items -/
def Steps (h : Heap) (c : Finish) (vals : List Val) (ops : List Op) : Prop :=
  ∃ f args st ls ds g o1 o2 o3, vals = [f, args, st, ls, ds, g] ∧ StateSteps h c st g o1 ∧ ListSteps h c ls o2 ∧ DictSteps h c ds o3 ∧
    ops = o1 ++ o2 ++ o3

/-- corresponding steps -/
def OpIso (R : Addr → Addr → Prop) : Op → Op → Prop
  | .setstate v, .setstate v' => VIso R v v'
  | .setDict v, .setDict v' => VIso R v v'
  | .setattr k v, .setattr k' v' => k = k' ∧ VIso R v v'
  | .setter f v, .setter f' v' => VIso R f f' ∧ VIso R v v'
  | .extend xs, .extend xs' => VIsos R xs xs'
  | .append v, .append v' => VIso R v v'
  | .setitem k v, .setitem k' v' => VIso R k k' ∧ VIso R v v'
  | _, _ => False

/-- the object was made by `__new__` (`__init__` was not called, nor a reduce function), which was given the saved arguments:
`__getnewargs_ex__`, else `__getnewargs__`, else `__getinitargs__` -/
structure SameCtor (R : Addr → Addr → Prop) (i i' : Inst) : Prop where
  noInit : i'.viaCall = false
  noReduce : i'.reduce = .nothing
  newargs : i.info.hasNewargsEx = false → i.info.hasNewargs = true → VIso R i.newargs i'.newargs
  newargsEx : i.info.hasNewargsEx = true →
    VIso R i.newargsEx.1 i'.newargsEx.1 ∧ VIso R i.newargsEx.2 i'.newargsEx.2
  initargs : i.info.hasNewargsEx = false → i.info.hasNewargs = false → i.info.hasInitargs = true →
    VIso R i.initargs i'.newargs

/-- The rebuilt instance `i'` (in heap `hT`) is the same as `i` (in heap `hS`).
* An object with a registered handler: the fields the handler wrote.
* An object with a reduce value: it was built from the same recipe, and what the recipe says was done with its state, list items
  and dict items.
* Otherwise the same class and constructor arguments; then either `__setstate__` was given the saved state, or there is no
  `__setstate__` and the entries of the saved state, a dict, became the attributes, or there was no saved state, `__setstate__` was
  not called, and attributes, dict entries, elements and default factory agree. -/
inductive SameInst (order : List (Val × Val) → List (Val × Val)) (handled : Str → Bool) (hS hT : Heap) (R : Addr → Addr → Prop) : Inst → Inst → Prop
  | handled {i i' : Inst} : handled i.cls = true → i'.cls = i.cls → i'.reduce = .nothing →
      FieldsIso R i.hfields i'.hfields → SameInst order handled hS hT R i i'
  | reduced {i i' : Inst} {xs vals : List Val} {ops : List Op} : handled i.cls = false → i.info.reduces = true →
      i.reduce = .tup xs → i'.reduce = .tup vals → VIsos R (recipe p!"py/newobj" xs) vals →
      Steps hS i.info.finish (recipe p!"py/newobj" xs) ops → All2 (OpIso R) ops i'.ops →
      SameInst order handled hS hT R i i'
  | state {i i' : Inst} {st st' : Val} : handled i.cls = false → i.info.reduces = false → i'.cls = i.cls →
      i.info.hasSetstate = true → savedState hS i = some st → i'.state = .ok st' → VIso R st st' →
      SameCtor R i i' → SameInst order handled hS hT R i i'
  | stateAttrs {i i' : Inst} {d : Addr} {kvs : List (Str × Val)} : handled i.cls = false → i.info.reduces = false → i'.cls = i.cls →
      i.info.hasSetstate = false → savedState hS i = some (.ref d) → hS[d]? = some (.dict (kvs.map (fun kv => (.str kv.1, kv.2)))) →
      i'.state = .ok .none → FieldsIso R kvs i'.attrs → i'.dictCell = none → i'.items = [] → i'.elems = [] → i'.factory = none →
      SameCtor R i i' → SameInst order handled hS hT R i i'
  | fields {i i' : Inst} : handled i.cls = false → i.info.reduces = false → i'.cls = i.cls →
      savedState hS i = none → i'.state = .ok .none →
      ItemsIso R (instAttrs hS i) (instAttrs hT i') →
      ItemsIso R (order i.items) i'.items →
      VIsos R i.elems i'.elems →
      (match i.factory, i'.factory with
        | some f, some f' => VIso R f f'
        | none, none => True
        | _, _ => False) →
      SameCtor R i i' → SameInst order handled hS hT R i i'

/-- The two objects have the same type and corresponding contents.  `order` says how the entries of a
rebuilt dict are arranged relative to the original. -/
def SameCell (order : List (Val × Val) → List (Val × Val)) (handled : Str → Bool) (hS hT : Heap)
    (R : Addr → Addr → Prop) : Obj → Obj → Prop
  | .list xs, .list ys => VIsos R xs ys
  | .dict kvs, .dict kvs' => ItemsIso R (order kvs) kvs'
  | .inst i, .inst i' => SameInst order handled hS hT R i i'
  | _, _ => False

/-- The graph reachable from `v` in `hS` and the one reachable from `x` in `hT` are isomorphic: there is a
one-to-one correspondence of objects under which the roots correspond and all corresponding objects
have the same type and corresponding contents. -/
def SameGraph (order : List (Val × Val) → List (Val × Val)) (handled : Str → Bool)
    (hS : Heap) (v : Val) (hT : Heap) (x : Val) : Prop :=
  ∃ R : Addr → Addr → Prop,
    (∀ a b b', R a b → R a b' → b = b') ∧
    (∀ a a' b, R a b → R a' b → a = a') ∧
    VIso R v x ∧
    ∀ a b, R a b → ∃ o o', hS[a]? = some o ∧ hT[b]? = some o' ∧ SameCell order handled hS hT R o o'

end JP
