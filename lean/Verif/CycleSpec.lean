import Verif.ExpandSpec
/-!
# The document without references, of a graph with cycles

Specification of what the encoder writes with `make_refs=False` or `unpicklable=False`: every object is written out wherever it occurs, except that an object met while
it is being written is cut.  With `make_refs=False` this is so for all objects, and what is written instead is the `repr`; otherwise it is so for instances of classes,
but not for lists and dicts, and `null` is written.  As in `ExpandSpec.lean` there are no tables and no cache: the document is computed from the object graph and the
objects in progress.
-/
namespace JP.Cycle
open JP Expand

/-- the objects that are cut -/
def cut (w : World) (cfg : PCfg) (a : Addr) : Bool :=
  !cfg.makeRefs || match w.heap[a]? with
    | some (.inst _) => true
    | _ => false

/-- the value is one of the objects in progress -/
def met (op : List Addr) : Val → Bool
  | .ref a => op.contains a
  | _ => false

/-- the objects in progress inside the value; `c` are the objects that are cut -/
def into (c : Addr → Bool) (v : Val) (op : List Addr) : List Addr :=
  match v with
  | .ref a => if c a then a :: op else op
  | _ => op

/-- what is written for an object in progress -/
def cutDoc (w : World) (cfg : PCfg) (v : Val) : Json :=
  if cfg.makeRefs then .null
  else match w.repr v with
    | .ok s => .str s
    | .error _ => .null

/-- the document of a value inside the objects `op` -/
def doc (w : World) (cfg : PCfg) : Nat → List Addr → Val → Json
  | 0, _, _ => .null
  | n + 1, op, v => if met op v then cutDoc w cfg v else level w cfg (doc w cfg n (into (cut w cfg) v op)) v

/-- no chain of references from the value, ending where an object in progress is met, has more than `n` steps -/
def Ends (h : Heap) (c : Addr → Bool) : Nat → List Addr → Val → Prop
  | 0, _, _ => False
  | n + 1, op, v => met op v = true ∨ ∀ x, Touches h v x → Ends h c n (into c v op) x

/-- Inside the objects `op`, at `v`: the second value occurs at a place inside the objects given last. -/
inductive Occurs (h : Heap) (c : Addr → Bool) (op : List Addr) (v : Val) : List Addr → Val → Prop
  | self : Occurs h c op v op v
  | step {q x y} : Occurs h c op v q x → met q x = false → Touches h x y → Occurs h c op v (into c x q) y

/-- Whatever is written out at two places meets at both the same objects in progress. -/
def Coherent (h : Heap) (c : Addr → Bool) (root : Val) : Prop :=
  ∀ x op op', Occurs h c [] root op x → Occurs h c [] root op' x → met op x = false → met op' x = false →
    ∀ q a, Occurs h c op x q (.ref a) → (a ∈ op ↔ a ∈ op')

/-- no enum member is met while it is being written -/
def NoEnum (h : Heap) (c : Addr → Bool) (root : Val) : Prop :=
  ∀ op a i, Occurs h c [] root op (.ref a) → a ∈ op → h[a]? = some (.inst i) → i.info.isEnum = false

end JP.Cycle
