import Verif.Handlers
/-!
# Objects of the standard library in a heap

`Handlers.lean` models what the handlers do with dates, UUIDs, arrays and so on.  In the heap of the core model such an object is an instance
with the fields that its handler saves (`Inst.hfields`).  Here: which object an instance stands for, and what `restore` makes of the fields.
-/
namespace JP.Std
open JP PyM Handlers

/-- an object of one of the types (handlers.py:182-330) -/
inductive Obj
  | temporal (t : Temporal)
  | uuid (u : UUID)
  | lock (locked : Bool)
  | regex (pattern : Str) (flags : Nat)
  | array (typecode : Nat) (items : List Val)
  | queue (q : Queue)

/-- the handler's kind: `DatetimeHandler`, `QueueHandler`, or fields written one by one -/
def Obj.kind : Obj → HKind
  | .temporal _ => .datetime
  | .queue _ => .opaque
  | _ => .record

/-- The instance stands for the object.  What the handler does not look at (`fold`, `is_safe`, the items of a queue) is not in the heap.  The list that
`tolist` makes of an array is a cell of its own. -/
inductive StandsFor (h : Heap) (i : Inst) : Obj → Prop
  | temporal {t : Temporal} (l : Nat) : i.hfields = (p!"state", .bytes l t.reduce.1) :: (t.reduce.2.map (fun z => (p!"tzinfo", z)) ++ [(p!"class", .type i.cls)]) → StandsFor h i (.temporal t)
  | uuid {u : UUID} : i.hfields = [(p!"hex", .str (hexText 32 u.int))] → StandsFor h i (.uuid u)
  | lock {b : Bool} : i.hfields = [(p!"locked", .bool b)] → StandsFor h i (.lock b)
  | regex {s : Str} {n : Nat} : i.hfields = [(p!"pattern", .str s), (p!"flags", .int n)] → StandsFor h i (.regex s n)
  | array {tc : Nat} {xs : List Val} (a : Addr) : i.hfields = [(p!"typecode", .str [tc]), (p!"values", .ref a)] → h[a]? = some (.list xs) → StandsFor h i (.array tc xs)
  | queue {q : Queue} : i.hfields = [] → StandsFor h i (.queue q)

/-! ### what the last lines of the `restore` methods make of the restored fields -/

/-- handlers.py:231-232 -/
def readDate (isTz : Val → Bool) (k : Kind) (i : Inst) : Except Exc Temporal :=
  match i.hfields with
  | (_, .bytes _ b) :: rest => Temporal.new isTz k b (rest.dropLast.map (·.2))
  | _ => .error .typeError

/-- handlers.py:295 -/
def readUUID (i : Inst) : Except Exc UUID :=
  match dget p!"hex" i.hfields with
  | some (.str s) => UUID.ofHex s
  | _ => .error .typeError

/-- handlers.py:308-312 -/
def readLock (i : Inst) : Bool :=
  match dget p!"locked" i.hfields with
  | some (.bool b) => b
  | _ => false

/-- handlers.py:249: the arguments of `re.compile` -/
def readRegex (i : Inst) : Option (Val × Val) :=
  match dget p!"pattern" i.hfields with
  | some p => some (p, (dget p!"flags" i.hfields).getD (.int 0))
  | none => none

/-- handlers.py:195 -/
def readArray (f32 : UInt64 → UInt64) (h : Heap) (i : Inst) : Except Exc (Nat × List Val) :=
  match dget p!"typecode" i.hfields, dget p!"values" i.hfields with
  | some (.str [tc]), some (.ref a) => match h[a]? with
    | some (.list xs) => (arrayNew f32 tc xs).map (fun ys => (tc, ys))
    | _ => .error .typeError
  | _, _ => .error .typeError

/-- The object that `restore` returns for the fields in the instance, for an object like `o`; `isTz` tells the `tzinfo` objects. -/
def Reads (isTz : Val → Bool) (f32 : UInt64 → UInt64) (h : Heap) (i : Inst) : Obj → Prop
  | .temporal t => readDate isTz t.kind i = .ok t
  | .uuid u => readUUID i = .ok u
  | .lock b => readLock i = b
  | .regex s n => readRegex i = some (.str s, .int n)
  | .array tc xs => readArray f32 h i = .ok (tc, xs)
  | .queue q => q.items = [] ∧ q.maxsize = 0

end JP.Std
