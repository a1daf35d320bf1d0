import Verif.Touch
import Verif.Tags
/-!
# What the options of `encode` are about

Specification, in terms of the object graph only: the keys of dictionaries and attribute names of objects.
-/
namespace JP.Options

/-- `k` is a key of the dict `v`, or the object `v` has it as a key or as the name of an attribute -/
inductive KeyOf (h : Heap) : Val → Val → Prop
  | entry {a kvs k v} : h[a]? = some (.dict kvs) → (k, v) ∈ kvs → KeyOf h (.ref a) k
  | item {a i k v} : h[a]? = some (.inst i) → (k, v) ∈ i.items → KeyOf h (.ref a) k
  | attr {a i k v} : h[a]? = some (.inst i) → (k, v) ∈ i.attrs → KeyOf h (.ref a) (.str k)
  | own {a i d kvs k v} : h[a]? = some (.inst i) → i.dictCell = some d → h[d]? = some (.dict kvs) → (k, v) ∈ kvs →
      KeyOf h (.ref a) k

/-- a string that is no tag of jsonpickle and does not look like an escaped key -/
def Ordinary (k : Val) : Prop := ∃ s, k = .str s ∧ startsWith s Tags.JSON_KEY = false ∧ Tags.isReserved s = false

end JP.Options
