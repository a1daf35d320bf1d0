import Verif.Covered
/-!
# Data graphs, and when two of them are the same

Objects of classes without any pickling protocol: what is written for them is what they hold.  Nothing here mentions the encoder or
the decoder.
-/
namespace JP

/-- A class without pickling protocol: no reduce value, no `__getstate__` of its own, no constructor arguments, no iterator.  (The
`__dict__` of an instance of a dict subclass is written as a separate object, so dict subclasses with `__dict__` are not included.) -/
structure DataClass (c : ClassInfo) : Prop where
  reduces : c.reduces = false
  ownGetstate : c.ownGetstate = false
  newargs : c.hasNewargs = false
  newargsEx : c.hasNewargsEx = false
  initargs : c.hasInitargs = false
  iterator : c.isIterator = false
  dict : c.base = .dict → c.hasDict = false

/-- An instance of such a class.  The default factory of a dict subclass is a class; if the class has slots, one of them is set. -/
structure DataInst (i : Inst) : Prop where
  cls : DataClass i.info
  exclude : i.exclude = []
  dictCell : i.dictCell = none
  factory : i.info.base = .dict → i.factory = none ∨ ∃ n, i.factory = some (.type n)
  slots : i.info.base = .plain → i.info.hasDict = false → i.info.hasSlots = true →
    (∀ k ∈ i.info.slots, startsWith k p!"__" = false) ∧ ∃ k ∈ i.info.slots, dget k i.attrs ≠ none

/-- A list, a dict or such an instance, for whose class no handler is registered.  With `keys=False` the keys of dicts are strings. -/
def DataObj (keys : Bool) (handled : Str → Bool) : Obj → Prop
  | .list _ => True
  | .dict kvs => keys = false → ∀ kv ∈ kvs, isStrV kv.1 = true
  | .inst i => handled i.cls = false ∧ DataInst i ∧ (keys = false → ∀ kv ∈ i.items, isStrV kv.1 = true)
  | _ => False

/-- everything reachable from the value is such an object -/
def DataGraph (keys : Bool) (handled : Str → Bool) (h : Heap) (v : Val) : Prop :=
  ∀ a, Reach h v a → ∃ o, h[a]? = some o ∧ DataObj keys handled o

/-- the instances of the graph are of classes without pickling protocol and without handler -/
def DataClasses (w : World) (v : Val) : Prop :=
  ∀ (a : Addr) (i : Inst), Reach w.heap v a → w.heap[a]? = some (.inst i) → hasHandler w i.cls = false ∧ DataClass i.info ∧
    i.cls ≠ p!"builtins.list_iterator"

/-- Two objects of the same class with corresponding contents.  The entries of dicts are compared in the order `order`. -/
def SameObj (order : List (Val × Val) → List (Val × Val)) (R : Addr → Addr → Prop) : Obj → Obj → Prop
  | .list xs, .list ys => VIsos R xs ys
  | .dict kvs, .dict kvs' => ItemsIso R (order kvs) (order kvs')
  | .inst i, .inst i' => i'.cls = i.cls ∧ i'.info = i.info ∧ FieldsIso R i.attrs i'.attrs ∧ ItemsIso R (order i.items) (order i'.items) ∧
      VIsos R i.elems i'.elems ∧ (match i.factory, i'.factory with
        | some f, some f' => VIso R f f'
        | none, none => True
        | _, _ => False)
  | _, _ => False

/-- The two graphs are isomorphic: there is a one-to-one correspondence of objects under which the roots correspond and corresponding
objects are the same. -/
def SameData (order : List (Val × Val) → List (Val × Val)) (h : Heap) (v : Val) (h' : Heap) (v' : Val) : Prop :=
  ∃ R : Addr → Addr → Prop,
    (∀ a b b', R a b → R a b' → b = b') ∧
    (∀ a a' b, R a b → R a' b → a = a') ∧
    VIso R v v' ∧
    ∀ a b, R a b → ∃ o o', h[a]? = some o ∧ h'[b]? = some o' ∧ SameObj order R o o'

end JP
