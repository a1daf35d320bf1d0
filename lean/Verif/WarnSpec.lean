import Verif.Warn
/-!
# What is reported, and documents without `null`

Vocabulary of C80.
-/
namespace JP

/-- a document in which `null` does not occur -/
inductive Json.NoNull : Json → Prop
  | bool {b} : NoNull (.bool b)
  | int {i} : NoNull (.int i)
  | float {f} : NoNull (.float f)
  | str {s} : NoNull (.str s)
  | arr {xs} : (∀ x ∈ xs, NoNull x) → NoNull (.arr xs)
  | obj {kvs} : (∀ kv ∈ kvs, NoNull kv.2) → NoNull (.obj kvs)

namespace Warn
open JP

/-- An object that cannot be written: a lambda, an instance whose handler returns `None`, an instance whose `__getstate__` cannot be called,
and, with `unpicklable=False`, an instance that has neither `__dict__` nor `__slots__` and is no container. -/
inductive Refused (w : World) (cfg : PCfg) : Val → Prop
  | lambda {n} : Refused w cfg (.lambda n)
  | handler {a : Addr} {i} : w.heap[a]? = some (.inst i) → w.handler i.cls = some .drop → Refused w cfg (.ref a)
  | getstate {a : Addr} {i} : w.heap[a]? = some (.inst i) → w.handler i.cls = none → i.info.ownGetstate = true → i.state = .error .typeError →
      Refused w cfg (.ref a)
  | nothing {a : Addr} {i} : w.heap[a]? = some (.inst i) → w.handler i.cls = none → cfg.unpicklable = false → i.info.base = .plain →
      i.info.isIterator = false → i.info.hasDict = false → i.info.hasSlots = false → Refused w cfg (.ref a)

/-- What a reduce value may be: at least two values from `V`, then any number of `None`s. -/
def ReduceFree (V : Val → Prop) (xs : List Val) : Prop :=
  ∃ ys k, xs = ys ++ List.replicate k .none ∧ 2 ≤ ys.length ∧ ∀ y ∈ ys, V y

/-- `V` does not contain `None`, and contains what its members hold: elements, keys, values, attributes, and what the methods return
that are called when they are written.  (A date has at least the fields state and class.) -/
structure NoneFree (w : World) (V : Val → Prop) : Prop where
  none : ¬ V .none
  str : ∀ s, V (.str s)
  tuple : ∀ {i xs}, V (.tuple i xs) → ∀ x ∈ xs, V x
  set : ∀ {i xs}, V (.set i xs) → ∀ x ∈ xs, V x
  list : ∀ {a : Addr} {xs}, V (.ref a) → w.heap[a]? = some (.list xs) → ∀ x ∈ xs, V x
  dict : ∀ {a : Addr} {kvs}, V (.ref a) → w.heap[a]? = some (.dict kvs) → ∀ kv ∈ kvs, V kv.1 ∧ V kv.2
  attrs : ∀ {a : Addr} {i}, V (.ref a) → w.heap[a]? = some (.inst i) → ∀ kv ∈ i.attrs, V kv.2
  dirAttrs : ∀ {a : Addr} {i}, V (.ref a) → w.heap[a]? = some (.inst i) → ∀ kv ∈ i.dirAttrs, V kv.2
  dictCell : ∀ {a d : Addr} {i kvs}, V (.ref a) → w.heap[a]? = some (.inst i) → i.dictCell = some d → w.heap[d]? = some (.dict kvs) →
      ∀ kv ∈ kvs, V kv.1 ∧ V kv.2
  items : ∀ {a : Addr} {i}, V (.ref a) → w.heap[a]? = some (.inst i) → ∀ kv ∈ i.items, V kv.1 ∧ V kv.2
  elems : ∀ {a : Addr} {i}, V (.ref a) → w.heap[a]? = some (.inst i) → ∀ x ∈ i.elems, V x
  newargs : ∀ {a : Addr} {i}, V (.ref a) → w.heap[a]? = some (.inst i) → i.info.hasNewargs = true → V i.newargs
  newargsEx : ∀ {a : Addr} {i}, V (.ref a) → w.heap[a]? = some (.inst i) → i.info.hasNewargsEx = true → V i.newargsEx.1 ∧ V i.newargsEx.2
  initargs : ∀ {a : Addr} {i}, V (.ref a) → w.heap[a]? = some (.inst i) → i.info.hasInitargs = true → V i.initargs
  state : ∀ {a : Addr} {i st}, V (.ref a) → w.heap[a]? = some (.inst i) → i.info.ownGetstate = true → i.state = .ok st → truthy w.heap st = true → V st
  reduce : ∀ {a : Addr} {i xs}, V (.ref a) → w.heap[a]? = some (.inst i) → i.info.reduces = true → i.reduce = .tup xs → ReduceFree V xs
  target : ∀ {a : Addr} {i v}, V (.ref a) → w.heap[a]? = some (.inst i) → i.info.reduces = true → i.reduce = .str (some v) → V v
  exemplar : ∀ {a : Addr} {i}, V (.ref a) → w.heap[a]? = some (.inst i) → i.factory.isSome = true → V i.exemplar
  fields : ∀ {a : Addr} {i}, V (.ref a) → w.heap[a]? = some (.inst i) → (w.handler i.cls).isSome = true → ∀ kv ∈ i.hfields, V kv.2
  date : ∀ {a : Addr} {i}, V (.ref a) → w.heap[a]? = some (.inst i) → w.handler i.cls = some .datetime → 2 ≤ i.hfields.length

/-- `fail_safe` does not return `None` -/
def SafeFull (cfg : PCfg) : Prop := ∀ f e j, cfg.failSafe = some f → f e = .ok j → j.NoNull

/-- `str` succeeds for the objects that cannot be written -/
def StrOk (w : World) (cfg : PCfg) : Prop := ∀ v, Refused w cfg v → ∃ s, w.pystr v = .ok s

end Warn
end JP
