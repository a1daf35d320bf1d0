import Verif.Value
/-!
# Sizes of JSON documents and of object graphs

Specification only: nothing here is used by the model.
-/
namespace JP

mutual
/-- the number of lists and objects of the document, and the length of all keys -/
def Json.extent : Json → Nat
  | .arr xs => Json.extentL xs + 1
  | .obj kvs => Json.extentKv kvs + 1
  | _ => 0
def Json.extentL : List Json → Nat
  | [] => 0
  | x :: xs => x.extent + Json.extentL xs
def Json.extentKv : List (Str × Json) → Nat
  | [] => 0
  | (k, x) :: xs => k.length + x.extent + Json.extentKv xs
end

mutual
/-- the number of values of the document: lists, objects, strings, numbers, constants (keys are not counted) -/
def Json.values : Json → Nat
  | .arr xs => Json.valuesL xs + 1
  | .obj kvs => Json.valuesKv kvs + 1
  | _ => 1
def Json.valuesL : List Json → Nat
  | [] => 0
  | x :: xs => x.values + Json.valuesL xs
def Json.valuesKv : List (Str × Json) → Nat
  | [] => 0
  | (_, x) :: xs => x.values + Json.valuesKv xs
end

/-- sum of `f` over a list -/
def total {α : Type} (f : α → Nat) : List α → Nat
  | [] => 0
  | x :: xs => f x + total f xs

mutual
/-- the size of a value: 1, but a tuple or set counts with what is in it -/
def Val.size : Val → Nat
  | .tuple _ xs => Val.sizes xs + 1
  | .set _ xs => Val.sizes xs + 1
  | _ => 1
def Val.sizes : List Val → Nat
  | [] => 0
  | x :: xs => x.size + Val.sizes xs
end

end JP
