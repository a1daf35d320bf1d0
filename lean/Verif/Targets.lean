import Verif.Api
/-!
# Objects that refuse assignment — models jsonpickle/unpickler.py:684, 705-759

The functions of `Verif/Unpickler.lean` that store entries in an instance, once more, with classes whose instances refuse it: frozen
dataclasses (`FrozenInstanceError`, 731-734) and mappings without item assignment (`TypeError`, 708-719, 755-757).  Not modelled:
attributes without a setter (735-744), and the second attempt after a `KeyError` (726-730).
-/
namespace JP
open PyM

/-- What the classes refuse. -/
structure Targets where
  /-- `@dataclass(frozen=True)` -/
  frozen : Str → Bool := fun _ => false
  /-- `obj[k] = v` raises `TypeError` -/
  immutable : Str → Bool := fun _ => false

namespace Unpickler.WithTargets
variable (tg : Targets) (env : UEnv) (rs : Json → U Val)

/-- the class of the instance in a cell -/
def clsOf (h : Heap) (a : Addr) : Str :=
  match h[a]? with
  | some (.inst i) => i.cls
  | _ => []

/-- the key `'__dict__'` (unpickler.py:709) -/
def isDictName : Val → Bool
  | .str t => t == p!"__dict__"
  | _ => false

/-- unpickler.py:708-750: store an entry; or, if the instance cannot be changed, return it (716).  A proxy in such an entry is not noted
(719).  A frozen instance is changed with `object.__setattr__` (734), which has the effect that `setattr` has otherwise. -/
def store (a : Addr) (k v : Val) : U (Option (Val × Val)) := do
  let s ← get
  if isDictSub s.heap a then
    if tg.immutable (clsOf s.heap a) && !isDictName k then
      if hashable s.heap k then pure (some (k, v)) else throw .typeError
    else do
      storeEntry a k v
      pure none
  else do
    storeEntry a k v
    pure none

/-- unpickler.py:755-759: the instance, or a new one made of the entries that could not be stored -/
def finish (a : Addr) (deferred : List (Val × Val)) : U Addr :=
  if deferred.isEmpty then pure a
  else do
    let s ← get
    emit (.call (clsOf s.heap a))
    alloc (.inst { cls := clsOf s.heap a, info := infoOf s.heap a, items := deferred.foldl (fun d kv => vset kv.1 kv.2 d) [] })

/-- unpickler.py:682-759 with `restore_dict_items=True` -/
def restoreFromJson (a : Addr) (kvs : List (Str × Json)) : U Addr := do
  let ds ← mapM (fun (kv : Str × Json) =>
    if Tags.isReserved kv.1 then pure none
    else do
      let k ← restoreKey env rs kv.1
      let v ← rs kv.2
      store tg a k v) kvs
  finish a (ds.filterMap id)

/-- unpickler.py:682-759 with `ignorereserved=False, restore_dict_items=False` -/
def restoreFromVals (a : Addr) (kvs : List (Val × Val)) : U Addr := do
  let ds ← mapM (fun (kv : Val × Val) => store tg a kv.1 kv.2) kvs
  finish a (ds.filterMap id)

/-- unpickler.py:776-791 -/
def applyOtherState (a : Addr) (st : Val) : U Val := do
  let s ← get
  match st with
  | .tuple _ [x, y] =>
    match dictEntries s.heap y with
    | some kvs => do
      let a ← restoreFromVals tg a kvs
      match dictEntries s.heap x with
      | some kvs0 => do
        let a ← restoreFromVals tg a kvs0
        pure (.ref a)
      | none => pure (.ref a)
    | none =>
      if (infoOf s.heap a).hasNewargs || (infoOf s.heap a).hasNewargsEx then pure (.ref a) else pure st
  | _ =>
    if (infoOf s.heap a).hasNewargs || (infoOf s.heap a).hasNewargsEx then pure (.ref a) else pure st

/-- unpickler.py:761-792 -/
def restoreState (a : Addr) (j : Json) : U Val := do
  let st ← rs j
  let s ← get
  if (infoOf s.heap a).hasSetstate then do
    modInst a (fun i => { i with state := .ok st })
    pure (.ref a)
  else match dictEntries s.heap st with
    | some kvs => do
      let a ← restoreFromVals tg a kvs
      pure (.ref a)
    | none => applyOtherState tg a st

/-- unpickler.py:794-811 -/
def restoreVariables (a : Addr) (kvs : List (Str × Json)) : U Val := do
  let a ← restoreFromJson tg env rs a kvs
  restoreSeqTag rs a kvs
  match dget Tags.STATE kvs with
  | none => pure (.ref a)
  | some j => restoreState tg rs a j

/-- unpickler.py:813-872; what replaces the instance is not entered in the table of objects -/
def restoreInstance (n : Str) (kvs : List (Str × Json)) : U Val := do
  let p ← alloc (.proxy none)
  let _ ← mkref (.ref p)
  let (fac, kvs) ← loadFactory rs kvs
  let (ja, jk) ← ctorArgs env kvs
  let args ← restoreArg rs ja
  let kw ← restoreArg rs jk
  let s ← get
  emit (.call n)
  match construct s.heap n (env.classInfo n) fac args kw with
  | none => do
    processMissing env n
    let r ← raw (.obj kvs)
    mkref r
  | some inst => do
    let a ← alloc (.inst inst)
    setCell p (.proxy (some (.ref a)))
    swapref p (.ref a)
    if inst.info.base == .tuple then pure (.ref a)
    else do
      let v ← restoreVariables tg env rs a kvs
      fixFactory v
      pure v

/-- unpickler.py:874-891 -/
def restoreObject (kvs : List (Str × Json)) : U Val := do
  let j ← ofExcept (item Tags.OBJECT kvs)
  let c ← loadclassJ env j
  match j with
  | .str n => do
    emit (.obj n)
    match env.handler n with
    | some k => restoreHandled env rs k n kvs
    | none => match c with
      | none => do
        processMissing env n
        let r ← raw (.obj kvs)
        mkref r
      | some _ => restoreInstance tg env rs n kvs
  | _ => throw .attributeError

/-- unpickler.py:967-998: as `Unpickler.restoreTags`, except for objects -/
def restoreTags (kvs : List (Str × Json)) : U Val :=
  if [Tags.TUPLE, Tags.SET, Tags.B64, Tags.B85, Tags.BYTEARRAY, Tags.ID, Tags.ITERATOR].any (fun t => dhas t kvs) then
    Unpickler.restoreTags env rs kvs
  else if dhas Tags.OBJECT kvs then restoreObject tg env rs kvs
  else Unpickler.restoreTags env rs kvs

/-- unpickler.py:375-384 -/
def restoreStep (j : Json) : U Val :=
  match j with
  | .obj kvs => restoreTags tg env rs kvs
  | j => Unpickler.restoreStep env rs j

def restore (tg : Targets) (env : UEnv) : Nat → Json → U Val
  | 0, _ => outOfFuel
  | n + 1, j => restoreStep tg env (restore tg env n) j

/-- the cell is an instance of a frozen class -/
def isFrozen (h : Heap) (a : Addr) : Bool :=
  match h[a]? with
  | some (.inst i) => tg.frozen i.cls
  | _ => false

/-- unpickler.py:371-372, 193-195: `_obj_setattr` is `setattr`, which a frozen instance refuses -/
def swapOne (e : Addr × Slot × Addr) : U Unit := fun s =>
  match e.2.1 with
  | .attr (.str _) =>
    if isFrozen tg s.heap e.1 then some (.error .attributeError, s) else Unpickler.swapOne e s
  | _ => Unpickler.swapOne e s

/-- unpickler.py:369-373 -/
def swapProxies : U Unit := do
  let s ← get
  let _ ← mapM (swapOne tg) s.proxies
  modify (fun s => { s with proxies := [] })

/-- unpickler.py:386-407 -/
def restoreTop (tg : Targets) (env : UEnv) (n : Nat) (j : Json) (doReset : Bool) : U Val :=
  if doReset then do
    reset
    let v ← restore tg env n j
    swapProxies tg
    pure v
  else restore tg env n j

end Unpickler.WithTargets

namespace Api

/-- unpickler.py:99-125 `decode(string, …)` with these classes -/
def decodeInto (tg : Targets) (env : UEnv) (fuel : Nat) (text : Str) (reset : Bool := true) (own : Bool := true) : U Val :=
  match env.loads text with
  | none => throw .valueError
  | some j => do
    let x ← Unpickler.WithTargets.restoreTop tg env fuel j reset
    if own then Unpickler.reset
    pure x

end Api
end JP
