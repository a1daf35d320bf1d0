import Verif.Value
/-! # Decidable equality of JSON documents and values (used by the concrete examples) -/
namespace JP

mutual
def Json.beq : Json → Json → Bool
  | .null, .null => true
  | .bool a, .bool b => a == b
  | .int a, .int b => a == b
  | .float a, .float b => a == b
  | .str a, .str b => a == b
  | .arr a, .arr b => Json.beqs a b
  | .obj a, .obj b => Json.beqKvs a b
  | _, _ => false
def Json.beqs : List Json → List Json → Bool
  | [], [] => true
  | x :: xs, y :: ys => Json.beq x y && Json.beqs xs ys
  | _, _ => false
def Json.beqKvs : List (Str × Json) → List (Str × Json) → Bool
  | [], [] => true
  | (k, x) :: xs, (l, y) :: ys => k == l && Json.beq x y && Json.beqKvs xs ys
  | _, _ => false
end

mutual
theorem Json.beq_iff : (a b : Json) → (Json.beq a b = true ↔ a = b)
  | .null, b => by cases b <;> simp [Json.beq]
  | .bool _, b => by cases b <;> simp [Json.beq]
  | .int _, b => by cases b <;> simp [Json.beq]
  | .float _, b => by cases b <;> simp [Json.beq]
  | .str _, b => by cases b <;> simp [Json.beq]
  | .arr xs, b => by
    cases b <;> simp [Json.beq]
    exact Json.beqs_iff xs _
  | .obj xs, b => by
    cases b <;> simp [Json.beq]
    exact Json.beqKvs_iff xs _
theorem Json.beqs_iff : (a b : List Json) → (Json.beqs a b = true ↔ a = b)
  | [], b => by cases b <;> simp [Json.beqs]
  | x :: xs, b => by
    cases b <;> simp [Json.beqs, Json.beq_iff x, Json.beqs_iff xs]
theorem Json.beqKvs_iff : (a b : List (Str × Json)) → (Json.beqKvs a b = true ↔ a = b)
  | [], b => by cases b <;> simp [Json.beqKvs]
  | (k, x) :: xs, b => by
    rcases b with _ | ⟨⟨l, y⟩, ys⟩ <;> simp [Json.beqKvs, Json.beq_iff x, Json.beqKvs_iff xs]
end

instance : DecidableEq Json := fun a b => decidable_of_iff _ (Json.beq_iff a b)

mutual
def Val.beq : Val → Val → Bool
  | .none, .none => true
  | .bool a, .bool b => a == b
  | .int a, .int b => a == b
  | .float a, .float b => a == b
  | .str a, .str b => a == b
  | .bytes i a, .bytes j b => i == j && a == b
  | .bytearray i a, .bytearray j b => i == j && a == b
  | .tuple i a, .tuple j b => i == j && Val.beqs a b
  | .set i a, .set j b => i == j && Val.beqs a b
  | .type a, .type b => a == b
  | .func a, .func b => a == b
  | .lambda a, .lambda b => a == b
  | .module a, .module b => a == b
  | .ref a, .ref b => a == b
  | _, _ => false
def Val.beqs : List Val → List Val → Bool
  | [], [] => true
  | x :: xs, y :: ys => Val.beq x y && Val.beqs xs ys
  | _, _ => false
end

mutual
theorem Val.beq_iff : (a b : Val) → (Val.beq a b = true ↔ a = b)
  | .none, b => by cases b <;> simp [Val.beq]
  | .bool _, b => by cases b <;> simp [Val.beq]
  | .int _, b => by cases b <;> simp [Val.beq]
  | .float _, b => by cases b <;> simp [Val.beq]
  | .str _, b => by cases b <;> simp [Val.beq]
  | .bytes _ _, b => by cases b <;> simp [Val.beq]
  | .bytearray _ _, b => by cases b <;> simp [Val.beq]
  | .type _, b => by cases b <;> simp [Val.beq]
  | .func _, b => by cases b <;> simp [Val.beq]
  | .lambda _, b => by cases b <;> simp [Val.beq]
  | .module _, b => by cases b <;> simp [Val.beq]
  | .ref _, b => by cases b <;> simp [Val.beq]
  | .tuple _ xs, b => by
    cases b <;> simp [Val.beq]
    intro; exact Val.beqs_iff xs _
  | .set _ xs, b => by
    cases b <;> simp [Val.beq]
    intro; exact Val.beqs_iff xs _
theorem Val.beqs_iff : (a b : List Val) → (Val.beqs a b = true ↔ a = b)
  | [], b => by cases b <;> simp [Val.beqs]
  | x :: xs, b => by
    cases b <;> simp [Val.beqs, Val.beq_iff x, Val.beqs_iff xs]
end

instance : DecidableEq Val := fun a b => decidable_of_iff _ (Val.beq_iff a b)

deriving instance DecidableEq for Except
deriving instance DecidableEq for ReduceVal

end JP
