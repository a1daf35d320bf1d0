import Verif.Pickler
import Verif.Extent
/-!
# The size of an object graph

Specification only: nothing here is used by the model.
-/
namespace JP

/-- the attribute that is found under the name `k` of a slot (private names are mangled) -/
def Inst.slotSize (i : Inst) (lookup : List (Str × Val)) (k : Str) : Nat :=
  match dget (if startsWith k p!"__" then p!"_" ++ i.info.shortName ++ k else k) lookup with
  | some v => v.size
  | none => 0

/-- what `__getstate__` returns; with `_jsonpickle_exclude` a dict is copied without what is excluded -/
def Inst.stateSize (h : Heap) (i : Inst) : Nat :=
  match i.state with
  | .ok (.ref d) => match h[d]? with
    | some (.dict kvs) => total (fun kv => kv.2.size) kvs + 1
    | _ => 1
  | .ok st => st.size
  | .error _ => 0

/-- what the reduce protocol returns -/
def Inst.reduceSize (i : Inst) : Nat :=
  match i.reduce with
  | .tup xs => Val.sizes xs
  | .str (some v) => v.size
  | _ => 0

/-- what an object holds: attributes (in `__dict__` or slots), items, elements, constructor arguments, state, reduce value, what its handler writes, and
the value that its default factory makes.  Only what the class has. -/
def Inst.holds (w : World) (i : Inst) : Nat :=
  (if i.info.hasDict then total (fun kv => kv.2.size) (Pickler.dictItems w i) else 0) +
  (if i.info.hasSlots then total (i.slotSize i.attrs) i.info.slots + total (i.slotSize i.dirAttrs) (i.dirAttrs.map (·.1)) else 0) +
  (if i.info.base = .dict then total (fun kv => kv.2.size) i.items else 0) +
  Val.sizes i.elems +
  (if i.info.hasNewargsEx then i.newargsEx.1.size + i.newargsEx.2.size else if i.info.hasNewargs then i.newargs.size else 0) +
  (if i.info.hasInitargs then i.initargs.size else 0) +
  (if i.info.ownGetstate then i.stateSize w.heap else 0) +
  (if i.info.reduces then i.reduceSize else 0) +
  (if i.factory.isSome then i.exemplar.size else 0) +
  total (fun kv => kv.2.size) i.hfields

/-- how many values there are in the lists, dicts and instances of the program -/
def World.entries (w : World) : Nat :=
  total (fun o => match o with
    | .list xs => Val.sizes xs
    | .dict kvs => total (fun kv => kv.2.size) kvs
    | .inst i => i.holds w
    | _ => 0) w.heap

/-- the number of instances -/
def World.instances (w : World) : Nat :=
  total (fun o => match o with
    | .inst _ => 1
    | _ => 0) w.heap

end JP
