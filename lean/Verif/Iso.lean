import Verif.Api
/-!
# The same object graph at other addresses

`ren f g` moves the object at address `a` to `f a`, and gives the label `g i` to the inline object with label `i`.  Specification only.
-/
namespace JP

variable (f g : Nat → Nat)

mutual
def Val.ren : Val → Val
  | .bytes i b => .bytes (g i) b
  | .bytearray i b => .bytearray (g i) b
  | .tuple i xs => .tuple (g i) (Val.rens xs)
  | .set i xs => .set (g i) (Val.rens xs)
  | .lambda i => .lambda (g i)
  | .ref a => .ref (f a)
  | .none => .none
  | .bool b => .bool b
  | .int i => .int i
  | .float x => .float x
  | .str s => .str s
  | .type n => .type n
  | .func n => .func n
  | .module n => .module n
def Val.rens : List Val → List Val
  | [] => []
  | x :: xs => x.ren :: Val.rens xs
end

def renPair (e : Val × Val) : Val × Val := (e.1.ren f g, e.2.ren f g)
def renField (e : Str × Val) : Str × Val := (e.1, e.2.ren f g)

def ReduceVal.ren : ReduceVal → ReduceVal
  | .nothing => .nothing
  | .str t => .str (t.map (Val.ren f g))
  | .tup xs => .tup (Val.rens f g xs)
  | .raise e => .raise e

/-- everything that the encoder can ask an instance for -/
def Inst.ren (i : Inst) : Inst :=
  { i with
    attrs := i.attrs.map (renField f g)
    dictCell := i.dictCell.map f
    items := i.items.map (renPair f g)
    elems := Val.rens f g i.elems
    newargs := i.newargs.ren f g
    newargsEx := renPair f g i.newargsEx
    initargs := i.initargs.ren f g
    state := i.state.map (Val.ren f g)
    reduce := i.reduce.ren f g
    factory := i.factory.map (Val.ren f g)
    exemplar := i.exemplar.ren f g
    dirAttrs := i.dirAttrs.map (renField f g)
    hfields := i.hfields.map (renField f g) }

def Obj.ren : Obj → Obj
  | .list xs => .list (Val.rens f g xs)
  | .dict kvs => .dict (kvs.map (renPair f g))
  | .inst i => .inst (i.ren f g)
  | .proxy t => .proxy (t.map (Val.ren f g))
  | .idproxy i => .idproxy i

def Ident.ren : Ident → Ident
  | .addr a => .addr (f a)
  | .dictOf a => .dictOf (f a)
  | .stateOf a => .stateOf (f a)
  | .inl i => .inl (g i)
  | .mod n => .mod n
  | .glob n => .glob n
  | .scalar k => .scalar k

/-- `w'` holds the objects of `w` at other addresses, and possibly further objects. -/
structure Moved (w w' : World) : Prop where
  /-- different objects stay different -/
  inj : ∀ a b, f a = f b → a = b
  injLabel : ∀ a b, g a = g b → a = b
  heap : ∀ a : Nat, w'.heap[f a]? = (w.heap[a]?).map (Obj.ren f g)
  /-- `repr` and `str` do not show addresses -/
  repr : ∀ v, w'.repr (v.ren f g) = w.repr v
  pystr : ∀ v, w'.pystr (v.ren f g) = w.pystr v
  dumps : ∀ j, w'.dumps j = w.dumps j
  handler : ∀ c, w'.handler c = w.handler c

end JP
