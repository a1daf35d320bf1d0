import Verif.Value
/-!
# What an object refers to

Specification: the values that encoding an object may look at, as a relation.  Nothing here mentions the
encoder.
-/
namespace JP

/-- the instance refers to the value: attributes, entries, elements, and whatever its protocol methods
return -/
inductive Holds (h : Heap) (i : Inst) : Val → Prop
  | attrName {k v} : (k, v) ∈ i.attrs → Holds h i (.str k)
  | attr {k v} : (k, v) ∈ i.attrs → Holds h i v
  | slotName {k} : k ∈ i.info.slots → Holds h i (.str k)
  | dictKey {d kvs k v} : i.dictCell = some d → h[d]? = some (.dict kvs) → (k, v) ∈ kvs → Holds h i k
  | dictVal {d kvs k v} : i.dictCell = some d → h[d]? = some (.dict kvs) → (k, v) ∈ kvs → Holds h i v
  | itemKey {k v} : (k, v) ∈ i.items → Holds h i k
  | itemVal {k v} : (k, v) ∈ i.items → Holds h i v
  | elem {x} : x ∈ i.elems → Holds h i x
  | newargs : Holds h i i.newargs
  | newargsEx1 : Holds h i i.newargsEx.1
  | newargsEx2 : Holds h i i.newargsEx.2
  | initargs : Holds h i i.initargs
  | state {st} : i.state = .ok st → Holds h i st
  | stateKey {d kvs k v} : i.state = .ok (.ref d) → h[d]? = some (.dict kvs) → (k, v) ∈ kvs → Holds h i k
  | stateVal {d kvs k v} : i.state = .ok (.ref d) → h[d]? = some (.dict kvs) → (k, v) ∈ kvs → Holds h i v
  | reduceElem {xs x} : i.reduce = .tup xs → x ∈ xs → Holds h i x
  | reduceTarget {v} : i.reduce = .str (some v) → Holds h i v
  | factory {f} : i.factory = some f → Holds h i f
  | exemplar : Holds h i i.exemplar
  | dirName {k v} : (k, v) ∈ i.dirAttrs → Holds h i (.str k)
  | dirAttr {k v} : (k, v) ∈ i.dirAttrs → Holds h i v
  | hfieldName {k v} : (k, v) ∈ i.hfields → Holds h i (.str k)
  | hfield {k v} : (k, v) ∈ i.hfields → Holds h i v

/-- the first value directly refers to the second -/
inductive Touches (h : Heap) : Val → Val → Prop
  | tuple {i xs x} : x ∈ xs → Touches h (.tuple i xs) x
  | set {i xs x} : x ∈ xs → Touches h (.set i xs) x
  | list {a xs x} : h[a]? = some (.list xs) → x ∈ xs → Touches h (.ref a) x
  | dictKey {a kvs k v} : h[a]? = some (.dict kvs) → (k, v) ∈ kvs → Touches h (.ref a) k
  | dictVal {a kvs k v} : h[a]? = some (.dict kvs) → (k, v) ∈ kvs → Touches h (.ref a) v
  | inst {a i x} : h[a]? = some (.inst i) → Holds h i x → Touches h (.ref a) x

/-- the value itself and everything it refers to, directly or indirectly -/
inductive Within (h : Heap) (v : Val) : Val → Prop
  | self : Within h v v
  | step {x y} : Within h v x → Touches h x y → Within h v y

/-- values that a tuple or set holds, or that an object of the given kind refers to -/
inductive Sub (h : Heap) (open_ : Obj → Bool) : Val → Val → Prop
  | tuple {i xs x} : Touches h (.tuple i xs) x → Sub h open_ x (.tuple i xs)
  | set {i xs x} : Touches h (.set i xs) x → Sub h open_ x (.set i xs)
  | ref {a o x} : h[a]? = some o → open_ o = true → Touches h (.ref a) x → Sub h open_ x (.ref a)

/-- No object of the given kind, among those that `root` reaches, gets back to itself through objects of
that kind (and tuples and sets) alone. -/
def NoLoop (h : Heap) (open_ : Obj → Bool) (root : Val) : Prop :=
  ∀ a, Within h root (.ref a) → ¬ Relation.TransGen (Sub h open_) (.ref a) (.ref a)

end JP
