import Verif.DocSpec
import Verif.Unpickler
/-! # Which entries of a document the decoder reads

Specification for C59.  `prune env j` is the document `j` without the entries that `decode` has no use for: beside the tag that
decides what an object is, only the entries that this kind of object has are kept. -/
namespace JP

/-- the object as a whole can end up in the result, or in the hands of a handler (unpickler.py:607-611, 856-857, 878-890): nothing
about it may be changed -/
def keptWhole (env : UEnv) (kvs : List (Str × Json)) : Bool :=
  match tagOf kvs with
  | some (t, .str n) =>
    if t = p!"py/object" then (env.handler n).isSome || (env.loadclass n).isNone || !(env.classInfo n).blankOk
    else if t = p!"py/type" then (env.loadclass n).isNone
    else false
  | some (t, _) => decide (t = p!"py/object")
  | none => false

/-- `k in d` -/
def mentions (k : Str) (kvs : List (Str × Json)) : Bool := kvs.any (fun kv => decide (kv.1 = k))

/-- the entries of an instance of class `n` that are read (unpickler.py:220-242, 625-635, 813-872, 794-811): of the three tags for
constructor arguments only the first one present; for a tuple, which is immutable, no state and no attributes, and the elements only if
there are no constructor arguments; and of the other reserved tags none. -/
def readsObject (env : UEnv) (n : Str) (kvs : List (Str × Json)) (k : Str) : Bool :=
  if k = p!"py/object" ∨ k = p!"py/default_factory" ∨ k = p!"default_factory" ∨ k = p!"py/newargsex" then true
  else if k = p!"py/newargs" then !mentions p!"py/newargsex" kvs
  else if k = p!"py/initargs" then !mentions p!"py/newargsex" kvs && !mentions p!"py/newargs" kvs
  else if (env.classInfo n).base = .tuple then
    decide (k = p!"py/seq") && !mentions p!"py/newargsex" kvs && !mentions p!"py/newargs" kvs && !mentions p!"py/initargs" kvs
  else if k = p!"py/seq" then true
  else if k = p!"py/state" then true
  else !Tags.isReserved k

/-- the entries that are read -/
def reads (env : UEnv) (kvs : List (Str × Json)) (k : Str) : Bool :=
  match tagOf kvs with
  | none => true
  | some (t, j) =>
    if t = p!"py/object" then
      match j with
      | .str n => readsObject env n kvs k
      | _ => true
    else decide (k = t)

/-- payloads that are not restored as values -/
def rawPayloads : List Str := [p!"py/bytea", p!"py/object"]

/-- payloads that are a text or a number: of anything else it is not even looked at what it is -/
def leafPayloads : List Str := [p!"py/b64", p!"py/b85", p!"py/id", p!"py/type", p!"py/function", p!"py/mod", p!"py/repr"]

/-- a text, number or constant; `null` stands for the rest -/
def leaf : Json → Json
  | .arr _ => .null
  | .obj _ => .null
  | j => j

/-- payloads whose elements are restored, and not the payload itself -/
def itemPayloads : List Str :=
  [p!"py/tuple", p!"py/set", p!"py/iterator", p!"py/reduce", p!"py/seq", p!"py/newargsex"]

mutual
/-- the document without the entries that are not read -/
def prune (env : UEnv) : Json → Json
  | .obj kvs => .obj (if keptWhole env kvs then kvs else (pruneKvs env kvs).filter (fun kv => reads env kvs kv.1))
  | .arr xs => .arr (pruneL env xs)
  | j => j
def pruneL (env : UEnv) : List Json → List Json
  | [] => []
  | x :: xs => prune env x :: pruneL env xs
def pruneKvs (env : UEnv) : List (Str × Json) → List (Str × Json)
  | [] => []
  | (k, v) :: kvs =>
    (k, if rawPayloads.contains k then v else if leafPayloads.contains k then leaf v
      else if itemPayloads.contains k then pruneItems env v else prune env v) :: pruneKvs env kvs
/-- only the elements of a list -/
def pruneItems (env : UEnv) : Json → Json
  | .arr xs => .arr (pruneL env xs)
  | j => j
end

end JP
