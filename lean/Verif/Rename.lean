import Verif.Unpickler
/-!
# Renaming the objects of a heap

`shift m k` renames every heap address `a` to `a + m` and every label `i` of an inline object to `i + k`
(the label 0 of the constant `()` stays).  Specification only: it says what "the same objects, somewhere else
in memory" means.
-/
namespace JP

variable (m k : Nat)

/-- labels of inline objects -/
def shiftId (i : Nat) : Nat := if i = 0 then 0 else i + k

mutual
def Val.shift : Val → Val
  | .bytes i b => .bytes (shiftId k i) b
  | .bytearray i b => .bytearray (shiftId k i) b
  | .tuple i xs => .tuple (shiftId k i) (Val.shifts xs)
  | .set i xs => .set (shiftId k i) (Val.shifts xs)
  | .lambda i => .lambda (shiftId k i)
  | .ref a => .ref (a + m)
  | .none => .none
  | .bool b => .bool b
  | .int i => .int i
  | .float f => .float f
  | .str s => .str s
  | .type n => .type n
  | .func n => .func n
  | .module n => .module n
def Val.shifts : List Val → List Val
  | [] => []
  | x :: xs => x.shift :: Val.shifts xs
end

def shiftPair (e : Val × Val) : Val × Val := (e.1.shift m k, e.2.shift m k)
def shiftField (e : Str × Val) : Str × Val := (e.1, e.2.shift m k)

def ReduceVal.shift : ReduceVal → ReduceVal
  | .nothing => .nothing
  | .str t => .str (t.map (Val.shift m k))
  | .tup xs => .tup (Val.shifts m k xs)
  | .raise e => .raise e

def Op.shift : Op → Op
  | .setstate st => .setstate (st.shift m k)
  | .setDict st => .setDict (st.shift m k)
  | .setattr n v => .setattr n (v.shift m k)
  | .setter f st => .setter (f.shift m k) (st.shift m k)
  | .extend xs => .extend (Val.shifts m k xs)
  | .append x => .append (x.shift m k)
  | .setitem x y => .setitem (x.shift m k) (y.shift m k)

def Inst.shift (i : Inst) : Inst where
  cls := i.cls
  info := i.info
  attrs := i.attrs.map (shiftField m k)
  dictCell := i.dictCell.map (· + m)
  items := i.items.map (shiftPair m k)
  elems := Val.shifts m k i.elems
  newargs := i.newargs.shift m k
  newargsEx := shiftPair m k i.newargsEx
  initargs := i.initargs.shift m k
  viaCall := i.viaCall
  state := i.state.map (Val.shift m k)
  reduce := i.reduce.shift m k
  exclude := i.exclude
  factory := i.factory.map (Val.shift m k)
  exemplar := i.exemplar.shift m k
  dirAttrs := i.dirAttrs.map (shiftField m k)
  hfields := i.hfields.map (shiftField m k)
  eqOwnDict := i.eqOwnDict
  ops := i.ops.map (Op.shift m k)

def Obj.shift : Obj → Obj
  | .list xs => .list (Val.shifts m k xs)
  | .dict kvs => .dict (kvs.map (shiftPair m k))
  | .inst i => .inst (i.shift m k)
  | .proxy t => .proxy (t.map (Val.shift m k))
  | .idproxy i => .idproxy i

def Ident.shift : Ident → Ident
  | .addr a => .addr (a + m)
  | .dictOf a => .dictOf (a + m)
  | .stateOf a => .stateOf (a + m)
  | .inl i => .inl (shiftId k i)
  | .mod n => .mod n
  | .glob n => .glob n
  | .scalar k => .scalar k

def Slot.shift : Slot → Slot
  | .idx n => .idx n
  | .key v => .key (v.shift m k)
  | .attr v => .attr (v.shift m k)

/-- The value is an object that exists independently of the heap: a scalar, or a global object known by name. -/
def Val.Global : Val → Prop
  | .none | .bool _ | .int _ | .float _ | .str _ | .type _ | .func _ | .module _ => True
  | _ => False

/-- What can be found by name (classes, functions, modules, `eval`) are global objects. -/
structure UEnv.Globals (env : UEnv) : Prop where
  cls : ∀ n v, env.loadclass n = some v → v.Global
  mod : ∀ n v, env.loadmodule n = .ok (some v) → v.Global
  repr : ∀ n v, env.loadrepr n = .ok v → v.Global

end JP
