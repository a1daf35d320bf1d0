import Verif.JsonSpec
import Verif.Touch
import Verif.Pickler
/-!
# References in a document

Specification: which references a document contains, and what can be referred to.
-/
namespace JP

/-- `x` is a part of the document `j` -/
inductive Json.Inside (x : Json) : Json → Prop
  | self : Inside x x
  | arr {js j} : j ∈ js → Inside x j → Inside x (.arr js)
  | obj {kvs kv} : kv ∈ kvs → Inside x kv.2 → Inside x (.obj kvs)

/-- every `"py/id"` in the document carries a natural number below `n` -/
def RefsBelow (n : Nat) (j : Json) : Prop :=
  ∀ kvs x, Json.Inside (.obj kvs) j → (Tags.ID, x) ∈ kvs → ∃ k : Nat, k < n ∧ x = .int k

/-- the things that get a number: objects that the value reaches, the `__dict__` of an instance, and the dict that
stands for a state from which keys were excluded -/
inductive Numbered (h : Heap) (root : Val) : Ident → Prop
  | val {x} : Within h root x → Numbered h root x.ident
  | state {a i} : Within h root (.ref a) → h[a]? = some (.inst i) → Numbered h root (.stateOf a)
  | dict {a i} : Within h root (.ref a) → h[a]? = some (.inst i) → i.dictCell = none → Numbered h root (.dictOf a)
  | dictCell {a i d} : Within h root (.ref a) → h[a]? = some (.inst i) → i.dictCell = some d → Numbered h root (.addr d)

/-- nothing in the graph writes a `"py/id"` of its own: no handler has a field of that name, no key that is
not a string is written that way, and `fail_safe` does not return one -/
structure NoFakeIds (w : World) (cfg : PCfg) (root : Val) : Prop where
  field : ∀ (a : Addr) i kv, Within w.heap root (.ref a) → w.heap[a]? = some (.inst i) → kv ∈ i.hfields → kv.1 ≠ Tags.ID
  repr : ∀ k, Within w.heap root k → w.repr k ≠ .ok Tags.ID ∧ w.pystr k ≠ .ok Tags.ID
  safe : ∀ f e j, cfg.failSafe = some f → f e = .ok j → RefsBelow 0 j

end JP
