import Verif.GraphSpec
/-!
# Following access paths

Specification: expressions such as `x[3].left["a"]`, evaluated in a heap.
-/
namespace JP

/-- one access -/
inductive Access
  /-- the n-th element of a list, tuple, set (in the order of iteration) or an instance of a subclass -/
  | elem (n : Nat)
  /-- the value of the n-th entry of a dict or an instance of a dict subclass -/
  | entry (n : Nat)
  /-- the n-th attribute, or entry of the saved state if it is turned into attributes -/
  | attr (n : Nat)
  /-- what `__getstate__` returned, or what `__setstate__` was given -/
  | state
  /-- the n-th element of the reduce tuple in its six-element form -/
  | recipe (n : Nat)
  /-- the n-th field that the handler of the class wrote or read -/
  | field (n : Nat)
  deriving Repr, DecidableEq

/-- a part of an instance -/
def instPart (order : List (Val × Val) → List (Val × Val)) (h : Heap) (i : Inst) : Access → Option Val
  | .elem n => i.elems[n]?
  | .entry n => (order i.items)[n]?.map (·.2)
  | .attr n => (savedAttrs h i)[n]?.map (·.2)
  | .state => match i.state with
    | .ok st => some st
    | .error _ => none
  | .recipe n => match i.reduce with
    | .tup xs => (recipe p!"py/newobj" xs)[n]?
    | _ => none
  | .field n => i.hfields[n]?.map (·.2)

/-- the value found by one access; `sel` says into which parts of an instance one may look, `order` how the
entries of a dict are numbered -/
def access (order : List (Val × Val) → List (Val × Val)) (sel : Inst → Access → Bool) (h : Heap) (v : Val) (p : Access) :
    Option Val :=
  match v, p with
  | .tuple _ xs, .elem n | .set _ xs, .elem n => xs[n]?
  | .ref a, p => match h[a]?, p with
    | some (.list xs), .elem n => xs[n]?
    | some (.dict kvs), .entry n => (order kvs)[n]?.map (·.2)
    | some (.inst i), p => if sel i p then instPart order h i p else none
    | _, _ => none
  | _, _ => none

/-- the value found by a sequence of accesses -/
def walk (order : List (Val × Val) → List (Val × Val)) (sel : Inst → Access → Bool) (h : Heap) : Val → List Access → Option Val
  | v, [] => some v
  | v, p :: ps => (access order sel h v p).bind (fun x => walk order sel h x ps)

/-- The parts of an instance that its document contains: fields if there is a handler, else the reduce tuple, else
the saved state (as attributes if there is no `__setstate__`), else attributes, entries and elements. -/
def saved (handled : Str → Bool) (h : Heap) (i : Inst) : Access → Bool
  | .field _ => handled i.cls
  | .recipe _ => !handled i.cls && i.info.reduces
  | .state => !handled i.cls && !i.info.reduces && i.info.hasSetstate && (savedState h i).isSome
  | .attr _ => !handled i.cls && !i.info.reduces && (!i.info.hasSetstate || (savedState h i).isNone)
  | .elem _ | .entry _ => !handled i.cls && !i.info.reduces && (savedState h i).isNone

/-- The parts of a rebuilt instance that were filled in from a document: the recipe it was built from, else the fields its handler
read, else the state given to `__setstate__`, else attributes, entries and elements. -/
def filled (handled : Str → Bool) (i : Inst) (p : Access) : Bool :=
  match i.reduce with
  | .nothing =>
    if handled i.cls then (match p with
      | .field _ => true
      | _ => false)
    else match i.state, p with
      | .ok .none, .elem _ | .ok .none, .entry _ | .ok .none, .attr _ => true
      | .ok .none, _ => false
      | .ok _, .state => true
      | _, _ => false
  | _ => (match p with
      | .recipe _ => true
      | _ => false)

/-- all parts of every instance -/
def anyPart (_ : Inst) (_ : Access) : Bool := true

end JP
