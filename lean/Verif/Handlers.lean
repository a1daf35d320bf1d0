import Verif.Pickler
import Verif.Unpickler
import Verif.Base64
/-!
# `jsonpickle/handlers.py:182-330`: the handlers for types of the standard library

A handler gets the object and `data`, the dict with the class tag (pickler.py:636), and fills in `data`; to restore, it gets the whole
JSON object.  `fl` and `rs` are `self.context.flatten(…, reset=False)` and `self.context.restore(…, reset=False)`.

The constructors and `__reduce__` methods of the types belong to the standard library; they are modelled from the text of Python 3.12
(`Lib/_pydatetime.py`, `Lib/uuid.py`) and the documentation of `array`.
-/
namespace JP.Handlers
open JP PyM

/-! ### `datetime`, `date`, `time` -/

/-- the three kinds of classes -/
inductive Kind | date | time | datetime
  deriving Repr, DecidableEq

/-- an instance of `datetime.date`, `datetime.time` or `datetime.datetime` -/
inductive Temporal
  | date (year month day : Nat)
  | time (hour minute second micro : Nat) (fold : Bool) (tz : Option Val)
  | datetime (year month day hour minute second micro : Nat) (fold : Bool) (tz : Option Val)
  deriving Repr

def Temporal.kind : Temporal → Kind
  | .date .. => .date
  | .time .. => .time
  | .datetime .. => .datetime

/-- `bytes([…])` of numbers below 256 -/
def toBytes (xs : List Nat) : Bytes := xs.map UInt8.ofNat

/-- `_pydatetime.py:1214-1223`, `1638-1668`, `2270-2304`: `obj.__reduce__()` calls `_getstate` with protocol 2 (or without), so `fold` is not
part of the bytes.  The class is left out. -/
def Temporal.reduce : Temporal → Bytes × List Val
  | .date y m d => (toBytes [y / 256, y % 256, m, d], [])
  | .time h mi s us _ tz => (toBytes [h, mi, s, us / 256 / 256, us / 256 % 256, us % 256], tz.toList)
  | .datetime y m d h mi s us _ tz => (toBytes [y / 256, y % 256, m, d, h, mi, s, us / 256 / 256, us / 256 % 256, us % 256], tz.toList)

/-- at most one further argument, an instance of `tzinfo` or `None` -/
def tzArg (isTz : Val → Bool) : List Val → Except Exc (Option Val)
  | [] => .ok none
  | [.none] => .ok none
  | [v] => if isTz v then .ok (some v) else .error .typeError
  | _ => .error .typeError

/-- `cls.__new__(cls, value, *params)` (`_pydatetime.py:957`, `1372`, `1700` and `__setstate`): bytes of the right length with a
plausible third (first) byte are a state.  Other bytes are taken for a number: `TypeError`. -/
def Temporal.new (isTz : Val → Bool) (k : Kind) (b : Bytes) (params : List Val) : Except Exc Temporal :=
  match k, b.map UInt8.toNat with
  | .date, [yh, yl, m, d] =>
    if params.isEmpty && (1 ≤ m && m ≤ 12) then .ok (.date (yh * 256 + yl) m d) else .error .typeError
  | .time, [h, mi, s, u1, u2, u3] =>
    if h % 128 < 24 then
      match tzArg isTz params with
      | .error e => .error e
      | .ok tz => .ok (.time (if h > 127 then h - 128 else h) mi s ((u1 * 256 + u2) * 256 + u3) (decide (h > 127)) tz)
    else .error .typeError
  | .datetime, [yh, yl, m, d, h, mi, s, u1, u2, u3] =>
    if 1 ≤ m % 128 && m % 128 ≤ 12 then
      match tzArg isTz params with
      | .error e => .error e
      | .ok tz => .ok (.datetime (yh * 256 + yl) (if m > 127 then m - 128 else m) d h mi s ((u1 * 256 + u2) * 256 + u3) (decide (m > 127)) tz)
    else .error .typeError
  | _, _ => .error .typeError

/-- handlers.py:210-223 `DatetimeHandler.flatten`; `iso` is `obj.isoformat()`, `cls` the importable name of the class. -/
def datetimeFlatten (fl : Val → P Json) (unpicklable : Bool) (iso : Str) (cls : Str) (t : Temporal) (data : List (Str × Json)) : P Json :=
  if !unpicklable then pure (.str iso)
  else do
    let args ← mapM fl t.reduce.2
    let c ← fl (.type cls)
    pure (.obj (dset p!"__reduce__" (.arr [c, .arr (.str (b64encode t.reduce.1) :: args)]) data))

/-- handlers.py:225-232 `DatetimeHandler.restore`; `kindOf` says what the restored class is. -/
def datetimeRestore (rs : Json → U Val) (kindOf : Val → Option Kind) (isTz : Val → Bool) (data : List (Str × Json)) : U Temporal := do
  let r ← ofExcept (Unpickler.item p!"__reduce__" data)
  let parts ← ofExcept (Unpickler.jsonIter r)
  match parts with
  | [c, a] => do
    let cls ← rs c
    let pa ← ofExcept (Unpickler.dateArgs a)
    let b ← ofExcept (Unpickler.dateBytes pa.1)
    let params ← mapM rs pa.2
    match kindOf cls with
    | some k => ofExcept (Temporal.new isTz k b params)
    | none => throw .typeError
  | _ => throw .valueError

/-! ### `uuid.UUID` -/

/-- a `uuid.UUID`: a 128 bit number, and whether it was generated in a multiprocessing-safe way -/
structure UUID where
  int : Nat
  isSafe : Option Bool := none
  deriving Repr, DecidableEq

/-- a hexadecimal digit -/
def hexDigit (n : Nat) : Nat := if n < 10 then 48 + n else 87 + n

/-- the last `k` hexadecimal digits: `'%0kx' % n` for `n < 16^k` -/
def hexText : Nat → Nat → Str
  | 0, _ => []
  | k + 1, n => hexText k (n / 16) ++ [hexDigit (n % 16)]

/-- `s.replace(pat, '')` (`k` characters are still to be skipped) -/
def replaceGo (pat : Str) : Nat → Str → Str
  | _, [] => []
  | k + 1, _ :: s => replaceGo pat k s
  | 0, c :: s => if startsWith (c :: s) pat then replaceGo pat (pat.length - 1) s else c :: replaceGo pat 0 s

def removeAll (pat s : Str) : Str := replaceGo pat 0 s

/-- `s.strip('{}')` -/
def stripBraces (s : Str) : Str :=
  let f := fun c => c == 123 || c == 125
  ((s.dropWhile f).reverse.dropWhile f).reverse

def hexValue (c : Nat) : Option Nat :=
  if 48 ≤ c ∧ c ≤ 57 then some (c - 48)
  else if 97 ≤ c ∧ c ≤ 102 then some (c - 87)
  else if 65 ≤ c ∧ c ≤ 70 then some (c - 55)
  else none

/-- `int(s, 16)` for text of hexadecimal digits.  (Python also takes signs, spaces, `0x` and underscores; here these give `ValueError`.) -/
def parseHex (s : Str) : Except Exc Nat :=
  s.foldl (fun acc c => match acc, hexValue c with
    | .ok n, some d => .ok (n * 16 + d)
    | .ok _, none => .error .valueError
    | .error e, _ => .error e) (.ok 0)

/-- `uuid.UUID(hex)` (`Lib/uuid.py`) -/
def UUID.ofHex (hex : Str) : Except Exc UUID :=
  let h := removeAll p!"-" (stripBraces (removeAll p!"uuid:" (removeAll p!"urn:" hex)))
  if h.length ≠ 32 then .error .valueError
  else (parseHex h).map (fun n => { int := n })

/-- handlers.py:290-292 `UUIDHandler.flatten` -/
def uuidFlatten (u : UUID) (data : List (Str × Json)) : Json := .obj (dset p!"hex" (.str (hexText 32 u.int)) data)

/-- handlers.py:294-295 `UUIDHandler.restore` -/
def uuidRestore (data : List (Str × Json)) : Except Exc UUID :=
  match Unpickler.item p!"hex" data with
  | .ok (.str s) => UUID.ofHex s
  | .ok .null => .error .typeError
  | .ok _ => .error .attributeError
  | .error e => .error e

/-! ### locks, queues, compiled regular expressions, files -/

/-- handlers.py:304-306 `LockHandler.flatten` -/
def lockFlatten (locked : Bool) (data : List (Str × Json)) : Json := .obj (dset p!"locked" (.bool locked) data)

/-- handlers.py:308-312 `LockHandler.restore`: the state of the new lock -/
def lockRestore (data : List (Str × Json)) : Bool :=
  match dget p!"locked" data with
  | some j => Unpickler.jsonTruthy j
  | none => false

/-- a `queue.Queue`: its items and `maxsize` (0: unbounded) -/
structure Queue where
  items : List Val
  maxsize : Nat

/-- handlers.py:263-264 `QueueHandler.flatten` -/
def queueFlatten (_ : Queue) (data : List (Str × Json)) : Json := .obj data

/-- handlers.py:266-267 `QueueHandler.restore` -/
def queueRestore (_ : List (Str × Json)) : Queue := { items := [], maxsize := 0 }

/-- the pattern of a compiled regular expression is text or bytes -/
inductive Pattern | text (s : Str) | bytes (b : Bytes)
  deriving Repr, DecidableEq

/-- what a handler puts into `data` is not flattened: it must be something that the JSON backend can write -/
inductive Raw | json (j : Json) | bytes (b : Bytes)
  deriving Repr

/-- handlers.py:243-246 `RegexHandler.flatten`: `pattern` and `flags` are written as they are. -/
def regexFlatten (pattern : Pattern) (flags : Nat) (data : List (Str × Json)) : List (Str × Raw) :=
  let raw := match pattern with
    | .text s => Raw.json (.str s)
    | .bytes b => .bytes b
  dset p!"flags" (.json (.int flags)) (dset p!"pattern" raw (data.map (fun kv => (kv.1, Raw.json kv.2))))

/-- what `json.dumps` makes of `data`: `TypeError` for bytes -/
def dumpable : List (Str × Raw) → Except Exc (List (Str × Json))
  | [] => .ok []
  | (k, .json j) :: r => (dumpable r).map ((k, j) :: ·)
  | (_, .bytes _) :: _ => .error .typeError

/-- handlers.py:248-249 `RegexHandler.restore`: the arguments of `re.compile` -/
def regexRestore (data : List (Str × Json)) : Except Exc (Json × Json) :=
  match Unpickler.item p!"pattern" data with
  | .ok p => .ok (p, (dget p!"flags" data).getD (.int 0))
  | .error e => .error e

/-! ### `array.array` -/

/-- an item of an array of integers from `lo` to `hi - 1` (`OverflowError` outside) -/
def intItem (lo hi : Int) (v : Val) : Except Exc Val :=
  match v with
  | .int i => if lo ≤ i ∧ i < hi then .ok (.int i) else .error (.other 1)
  | .bool b => .ok (.int (if b then 1 else 0))
  | _ => .error .typeError

/-- how a Python value is stored in an array with this type code (`array` documentation; sizes of a 64 bit Linux); `f32` rounds to single
precision.  Lone surrogates and the like are not looked at. -/
def arrayItem (f32 : UInt64 → UInt64) (tc : Nat) (v : Val) : Except Exc Val :=
  if tc = 98 then intItem (-2^7) (2^7) v         -- b
  else if tc = 66 then intItem 0 (2^8) v         -- B
  else if tc = 104 then intItem (-2^15) (2^15) v  -- h
  else if tc = 72 then intItem 0 (2^16) v        -- H
  else if tc = 105 then intItem (-2^31) (2^31) v  -- i
  else if tc = 73 then intItem 0 (2^32) v        -- I
  else if tc = 108 ∨ tc = 113 then intItem (-2^63) (2^63) v  -- l, q
  else if tc = 76 ∨ tc = 81 then intItem 0 (2^64) v         -- L, Q
  else if tc = 117 ∨ tc = 119 then match v with          -- u, w
    | .str [c] => .ok (.str [c])
    | _ => .error .typeError
  else if tc = 102 then match v with          -- f
    | .float b => .ok (.float (f32 b))
    | _ => .error .typeError
  else if tc = 100 then match v with          -- d
    | .float b => .ok (.float b)
    | _ => .error .typeError
  else .error .valueError

/-- `array.array(typecode, values)` -/
def arrayNew (f32 : UInt64 → UInt64) (tc : Nat) : List Val → Except Exc (List Val)
  | [] => if tc ∈ [98, 66, 104, 72, 105, 73, 108, 113, 76, 81, 117, 119, 102, 100] then .ok [] else .error .valueError
  | v :: vs => match arrayItem f32 tc v with
    | .error e => .error e
    | .ok x => (arrayNew f32 tc vs).map (x :: ·)

/-- handlers.py:185-188 `ArrayHandler.flatten`; `tolist` is the list that `obj.tolist()` makes. -/
def arrayFlatten (fl : Val → P Json) (tc : Nat) (tolist : Val) (data : List (Str × Json)) : P Json := do
  let vs ← fl tolist
  pure (.obj (dset p!"values" vs (dset p!"typecode" (.str [tc]) data)))

/-- handlers.py:190-195 `ArrayHandler.restore` (the type code `c` of Python 2 is left out) -/
def arrayRestore (f32 : UInt64 → UInt64) (rs : Json → U Val) (data : List (Str × Json)) : U (Nat × List Val) := do
  let t ← ofExcept (Unpickler.item p!"typecode" data)
  let j ← ofExcept (Unpickler.item p!"values" data)
  let v ← rs j
  let h ← gets (·.heap)
  match t, v with
  | .str [tc], .ref a => match h[a]? with
    | some (.list xs) => do
      let ys ← ofExcept (arrayNew f32 tc xs)
      pure (tc, ys)
    | _ => throw .typeError
  | _, _ => throw .typeError

end JP.Handlers
