import Verif.Value
/-!
# When a Python value *is* a JSON value

`Reads h v j`: in heap `h`, the value `v` is the plain Python data (nested lists and string-keyed dicts)
that the JSON document `j` denotes.
-/
namespace JP

mutual
def Reads (h : Heap) (v : Val) : Json → Prop
  | .null => v = .none
  | .bool b => v = .bool b
  | .int i => v = .int i
  | .float f => v = .float f
  | .str s => v = .str s
  | .arr xs => ∃ a vs, v = .ref a ∧ h[a]? = some (.list vs) ∧ ReadsAll h vs xs
  | .obj kvs => ∃ a es, v = .ref a ∧ h[a]? = some (.dict es) ∧ ReadsEntries h es kvs
def ReadsAll (h : Heap) (vs : List Val) : List Json → Prop
  | [] => vs = []
  | x :: xs => ∃ v vs', vs = v :: vs' ∧ Reads h v x ∧ ReadsAll h vs' xs
def ReadsEntries (h : Heap) (es : List (Val × Val)) : List (Str × Json) → Prop
  | [] => es = []
  | (k, x) :: xs => ∃ v es', es = (.str k, v) :: es' ∧ Reads h v x ∧ ReadsEntries h es' xs
end

mutual
theorem Reads.mono {h h' : Heap} (hh : ∀ (a : Addr) o, h[a]? = some o → h'[a]? = some o) {v : Val} :
    ∀ {j : Json}, Reads h v j → Reads h' v j
  | .null, hr => hr
  | .bool _, hr => hr
  | .int _, hr => hr
  | .float _, hr => hr
  | .str _, hr => hr
  | .arr xs, hr => by
    obtain ⟨a, vs, h1, h2, h3⟩ := hr
    exact ⟨a, vs, h1, hh _ _ h2, ReadsAll.mono hh h3⟩
  | .obj xs, hr => by
    obtain ⟨a, vs, h1, h2, h3⟩ := hr
    exact ⟨a, vs, h1, hh _ _ h2, ReadsEntries.mono hh h3⟩
theorem ReadsAll.mono {h h' : Heap} (hh : ∀ (a : Addr) o, h[a]? = some o → h'[a]? = some o) {vs : List Val} :
    ∀ {xs : List Json}, ReadsAll h vs xs → ReadsAll h' vs xs
  | [], hr => hr
  | x :: xs, hr => by
    obtain ⟨v, vs', h1, h2, h3⟩ := hr
    exact ⟨v, vs', h1, Reads.mono hh h2, ReadsAll.mono hh h3⟩
theorem ReadsEntries.mono {h h' : Heap} (hh : ∀ (a : Addr) o, h[a]? = some o → h'[a]? = some o) {vs : List (Val × Val)} :
    ∀ {xs : List (Str × Json)}, ReadsEntries h vs xs → ReadsEntries h' vs xs
  | [], hr => hr
  | (k, x) :: xs, hr => by
    obtain ⟨v, vs', h1, h2, h3⟩ := hr
    exact ⟨v, vs', h1, Reads.mono hh h2, ReadsEntries.mono hh h3⟩
end

mutual
/-- like `Reads`, listing the lists and dicts that occur, in the order in which they begin -/
def Spells (h : Heap) (v : Val) : Json → List Addr → Prop
  | .null, as => v = .none ∧ as = []
  | .bool b, as => v = .bool b ∧ as = []
  | .int i, as => v = .int i ∧ as = []
  | .float f, as => v = .float f ∧ as = []
  | .str s, as => v = .str s ∧ as = []
  | .arr xs, as => ∃ a vs bs, v = .ref a ∧ h[a]? = some (.list vs) ∧ SpellsAll h vs xs bs ∧ as = a :: bs
  | .obj kvs, as => ∃ a es bs, v = .ref a ∧ h[a]? = some (.dict es) ∧ SpellsEntries h es kvs bs ∧ as = a :: bs
def SpellsAll (h : Heap) (vs : List Val) : List Json → List Addr → Prop
  | [], as => vs = [] ∧ as = []
  | x :: xs, as => ∃ v vs' bs cs, vs = v :: vs' ∧ Spells h v x bs ∧ SpellsAll h vs' xs cs ∧ as = bs ++ cs
def SpellsEntries (h : Heap) (es : List (Val × Val)) : List (Str × Json) → List Addr → Prop
  | [], as => es = [] ∧ as = []
  | (k, x) :: xs, as => ∃ v es' bs cs, es = (.str k, v) :: es' ∧ Spells h v x bs ∧ SpellsEntries h es' xs cs ∧ as = bs ++ cs
end

/-- `v` is a list or dict -/
def IsContainer (h : Heap) (v : Val) : Prop := ∃ (a : Addr) (o : Obj), v = .ref a ∧ h[a]? = some o ∧ ((∃ xs, o = .list xs) ∨ ∃ kvs, o = .dict kvs)

mutual
/-- `j` is the plain Python data `v` down to the level `d` (`none`: all of it); the lists and dicts at that level are given by their `repr`.
`as` are the lists and dicts down to that level. -/
def SpellsTo (rep : Val → Except Exc Str) (h : Heap) (d : Option Nat) (v : Val) : Json → List Addr → Prop
  | .null, as => v = .none ∧ as = []
  | .bool b, as => v = .bool b ∧ as = []
  | .int i, as => v = .int i ∧ as = []
  | .float f, as => v = .float f ∧ as = []
  | .str s, as => (v = .str s ∧ as = []) ∨ (d = some 0 ∧ IsContainer h v ∧ rep v = .ok s ∧ ∃ a, v = .ref a ∧ as = [a])
  | .arr xs, as => d ≠ some 0 ∧ ∃ a vs bs, v = .ref a ∧ h[a]? = some (.list vs) ∧ SpellsToAll rep h (d.map (· - 1)) vs xs bs ∧ as = a :: bs
  | .obj kvs, as => d ≠ some 0 ∧ ∃ a es bs, v = .ref a ∧ h[a]? = some (.dict es) ∧ SpellsToEntries rep h (d.map (· - 1)) es kvs bs ∧ as = a :: bs
def SpellsToAll (rep : Val → Except Exc Str) (h : Heap) (d : Option Nat) (vs : List Val) : List Json → List Addr → Prop
  | [], as => vs = [] ∧ as = []
  | x :: xs, as => ∃ v vs' bs cs, vs = v :: vs' ∧ SpellsTo rep h d v x bs ∧ SpellsToAll rep h d vs' xs cs ∧ as = bs ++ cs
def SpellsToEntries (rep : Val → Except Exc Str) (h : Heap) (d : Option Nat) (es : List (Val × Val)) : List (Str × Json) → List Addr → Prop
  | [], as => es = [] ∧ as = []
  | (k, x) :: xs, as => ∃ v es' bs cs, es = (.str k, v) :: es' ∧ SpellsTo rep h d v x bs ∧ SpellsToEntries rep h d es' xs cs ∧ as = bs ++ cs
end

/-- `j` is the plain data `v` with the lists and dicts at level `d` replaced by their `repr`, and no list or dict down to that level occurs twice -/
def IsCut (rep : Val → Except Exc Str) (h : Heap) (d : Nat) (v : Val) (j : Json) : Prop := ∃ as, SpellsTo rep h (some d) v j as ∧ as.Nodup

/-- in heap `h`, `v` is the plain Python data that `j` denotes, and no list or dict occurs twice in it -/
def IsTree (h : Heap) (v : Val) (j : Json) : Prop := ∃ as, Spells h v j as ∧ as.Nodup

theorem append_mono (h new : Heap) : ∀ (a : Addr) o, h[a]? = some o → (h ++ new)[a]? = some o := by
  intro a o ho
  obtain ⟨hl, _⟩ := List.getElem?_eq_some_iff.1 ho
  rw [List.getElem?_append_left hl]
  exact ho

end JP
