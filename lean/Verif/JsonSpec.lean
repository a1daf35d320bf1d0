import Verif.Tags
import Verif.Value
/-!
# Vocabulary for talking about JSON documents

Specification only: nothing here is used by the model.
-/
namespace JP

mutual
/-- all keys of all objects of the document -/
def Json.keys : Json → List Str
  | .arr xs => Json.keysL xs
  | .obj kvs => Json.keysKv kvs
  | _ => []
def Json.keysL : List Json → List Str
  | [] => []
  | x :: xs => x.keys ++ Json.keysL xs
def Json.keysKv : List (Str × Json) → List Str
  | [] => []
  | (k, x) :: xs => k :: (x.keys ++ Json.keysKv xs)
end

mutual
/-- how many arrays and objects are nested inside each other -/
def Json.depth : Json → Nat
  | .arr xs => Json.depthL xs + 1
  | .obj kvs => Json.depthKv kvs + 1
  | _ => 0
def Json.depthL : List Json → Nat
  | [] => 0
  | x :: xs => max x.depth (Json.depthL xs)
def Json.depthKv : List (Str × Json) → Nat
  | [] => 0
  | (_, x) :: xs => max x.depth (Json.depthKv xs)
end

/-- A string of code points in which no pair of surrogates spells a single code point.  (JSON text cannot
tell such a pair from the code point.) -/
def StrOk (s : Str) : Prop :=
  (∀ c ∈ s, c < 0x110000) ∧
  ∀ pre hi lo post, s = pre ++ hi :: lo :: post → ¬ (0xD800 ≤ hi ∧ hi < 0xDC00 ∧ 0xDC00 ≤ lo ∧ lo < 0xE000)

/-- Not a NaN with a payload (JSON text can only say `NaN`). -/
def FloatOk (f : UInt64) : Prop := floatIsNan f = true → f = 0x7ff8000000000000

mutual
/-- a document that can be told from its JSON text: the keys of every object are different, and all strings
and numbers are in order -/
def Json.Writable : Json → Prop
  | .str s => StrOk s
  | .float f => FloatOk f
  | .arr xs => Json.WritableL xs
  | .obj kvs => (kvs.map (·.1)).Nodup ∧ Json.WritableKv kvs
  | _ => True
def Json.WritableL : List Json → Prop
  | [] => True
  | x :: xs => x.Writable ∧ Json.WritableL xs
def Json.WritableKv : List (Str × Json) → Prop
  | [] => True
  | (k, x) :: xs => StrOk k ∧ x.Writable ∧ Json.WritableKv xs
end

mutual
/-- the keys of every object are different -/
def Json.Distinct : Json → Prop
  | .arr xs => Json.DistinctL xs
  | .obj kvs => (kvs.map (·.1)).Nodup ∧ Json.DistinctKv kvs
  | _ => True
def Json.DistinctL : List Json → Prop
  | [] => True
  | x :: xs => x.Distinct ∧ Json.DistinctL xs
def Json.DistinctKv : List (Str × Json) → Prop
  | [] => True
  | (_, x) :: xs => x.Distinct ∧ Json.DistinctKv xs
end

theorem strOk_of_ascii {s : Str} (h : ∀ c ∈ s, c < 128) : StrOk s := by
  refine ⟨fun c hc => Nat.lt_trans (h c hc) (by decide), ?_⟩
  intro pre hi lo post e ⟨h1, _⟩
  have : hi < 128 := h hi (by rw [e]; simp)
  omega

/-- Every string that jsonpickle gives a meaning to when it is a key (tags.py:10-34). -/
def Tags.all : List Str := Tags.RESERVED ++ [Tags.B64, Tags.B85]

theorem Json.mem_keysL {k : Str} {xs : List Json} : k ∈ Json.keysL xs ↔ ∃ j ∈ xs, k ∈ j.keys := by
  induction xs with
  | nil => simp [Json.keysL]
  | cons x xs ih => simp [Json.keysL, ih]

theorem Json.mem_keysKv {k : Str} {kvs : List (Str × Json)} :
    k ∈ Json.keysKv kvs ↔ ∃ kv ∈ kvs, k = kv.1 ∨ k ∈ kv.2.keys := by
  induction kvs with
  | nil => simp [Json.keysKv]
  | cons x xs ih => simp [Json.keysKv, ih]; grind

theorem Json.depthL_le {n : Nat} {xs : List Json} : Json.depthL xs ≤ n ↔ ∀ j ∈ xs, j.depth ≤ n := by
  induction xs with
  | nil => simp [Json.depthL]
  | cons x xs ih => simp [Json.depthL, Nat.max_le, ih]

theorem Json.depthKv_le {n : Nat} {kvs : List (Str × Json)} :
    Json.depthKv kvs ≤ n ↔ ∀ kv ∈ kvs, kv.2.depth ≤ n := by
  induction kvs with
  | nil => simp [Json.depthKv]
  | cons x xs ih => simp [Json.depthKv, Nat.max_le, ih]

end JP
