import Verif.JsonSpec
/-!
# Vocabulary for documents given to the decoder

Specification only: nothing here is used by the model.  The names are spelled out as texts.
-/
namespace JP

/-- The entries that make the decoder treat an object specially, in the order in which it looks for them. -/
def wireTags : List Str :=
  [p!"py/tuple", p!"py/set", p!"py/b64", p!"py/b85", p!"py/bytea", p!"py/id", p!"py/iterator", p!"py/object",
   p!"py/type", p!"py/reduce", p!"py/function", p!"py/mod", p!"py/repr"]

/-- the first of the decoder's tags that the object carries, with its payload -/
def tagOf (kvs : List (Str × Json)) : Option (Str × Json) :=
  wireTags.findSome? (fun t => (dget t kvs).map (fun j => (t, j)))

/-- `y` is reached from `j` by going through elements of lists and values of plain dicts -/
inductive Surely : Json → Json → Prop
  | here (j : Json) : Surely j j
  | elem {xs : List Json} {x y : Json} : x ∈ xs → Surely x y → Surely (.arr xs) y
  | value {kvs : List (Str × Json)} {k : Str} {x y : Json} : tagOf kvs = none → (k, x) ∈ kvs → Surely x y →
      Surely (.obj kvs) y

/-- the tags whose payloads the decoder tolerates, whatever they are -/
def toleratedTags : List Str := [p!"py/tuple", p!"py/set", p!"py/id", p!"py/iterator", p!"py/b64", p!"py/b85"]

/-- the only tags that occur in the document (at any depth) are tolerated ones -/
def Json.Tolerated (j : Json) : Prop := ∀ k ∈ j.keys, k ∈ wireTags → k ∈ toleratedTags

end JP
