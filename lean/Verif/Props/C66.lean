import Verif.Proofs.JsonLayout
import Verif.Proofs.RoundTrip
import Verif.SampleCovered
import Verif.Props.C41
/-!
# C66 — indent and separators change only the look of the text
-/
namespace JP.C66
open JP PyM JsonText

/-- what the documentation allows: an indentation of white space, a comma and a colon with white space around them -/
structure Usual (indent : Option Str) (separators : Option (Str × Str)) : Prop where
  indent : ∀ t, indent = some t → Blank t
  item : ∀ s, separators = some s → Around 44 s.1
  colon : ∀ s, separators = some s → Around 58 s.2

theorem blank_nil : Blank [] := fun _ h => by cases h

theorem around_append {c : Nat} {s b : Str} (h : Around c s) (hb : Blank b) : Around c (s ++ b) := by
  obtain ⟨x, y, rfl, hx, hy⟩ := h
  refine ⟨x, y ++ b, by simp, hx, fun d hd => ?_⟩
  rcases List.mem_append.1 hd with hd | hd
  · exact hy d hd
  · exact hb d hd

theorem layout_ok {indent : Option Str} {separators : Option (Str × Str)} (h : Usual indent separators) :
    (Layout.of indent separators).Ok := by
  have hc : ∀ c : Nat, Around c [c] := fun c => ⟨[], [], rfl, blank_nil, blank_nil⟩
  have hs : ∀ c : Nat, Around c [c, 32] := fun c => ⟨[], [32], rfl, blank_nil, fun d hd => by simp at hd; exact .inl hd⟩
  cases indent with
  | none =>
    cases separators with
    | none => exact ⟨fun _ => blank_nil, fun _ => hs 44, fun _ => blank_nil, hs 58⟩
    | some s => exact ⟨fun _ => blank_nil, fun _ => h.item s rfl, fun _ => blank_nil, h.colon s rfl⟩
  | some t =>
    have hn := newline_blank (h.indent t rfl)
    cases separators with
    | none => exact ⟨fun n => hn (n + 1), fun n => around_append (hc 44) (hn (n + 1)), hn, hs 58⟩
    | some s => exact ⟨fun n => hn (n + 1), fun n => around_append (h.item s rfl) (hn (n + 1)), hn, h.colon s rfl⟩

mutual
theorem points_of_writable : ∀ j : Json, j.Writable → PointsJ j
  | .null, _ => trivial
  | .bool _, _ => trivial
  | .int _, _ => trivial
  | .float _, _ => trivial
  | .str _, h => h.1
  | .arr xs, h => points_of_writableL xs h
  | .obj kvs, h => points_of_writableKv kvs h.2
theorem points_of_writableL : ∀ xs : List Json, Json.WritableL xs → PointsL xs
  | [], _ => trivial
  | x :: xs, h => ⟨points_of_writable x h.1, points_of_writableL xs h.2⟩
theorem points_of_writableKv : ∀ kvs : List (Str × Json), Json.WritableKv kvs → PointsKv kvs
  | [], _ => trivial
  | (_, x) :: kvs, h => ⟨h.1.1, points_of_writable x h.2.1, points_of_writableKv kvs h.2.2⟩
end

variable (ft : FloatText) (hf : ft.Lawful)
include hf

/-- Whatever the layout, the text is read as the same document, if any: also when keys repeat or surrogates merge. -/
theorem same_document (indent : Option Str) (separators : Option (Str × Str)) (h : Usual indent separators) (j : Json) (hj : PointsJ j) :
    loads ft (pretty ft (Layout.of indent separators) 0 j) = loads ft (dumps ft j) := by
  rw [loads_pretty hf (layout_ok h) j hj, ← pretty_default (ft := ft) j 0, loads_pretty hf default_ok j hj]

/-- `decode` makes the same objects of it, raises the same exceptions, imports and calls the same things. -/
theorem decode_same (indent : Option Str) (separators : Option (Str × Str)) (h : Usual indent separators) (j : Json) (hj : PointsJ j)
    (env : UEnv) (he : env.loads = loads ft) (n : Nat) (reset own : Bool) :
    Api.decode env n (pretty ft (Layout.of indent separators) 0 j) reset own = Api.decode env n (dumps ft j) reset own := by
  unfold Api.decode
  rw [he, same_document ft hf indent separators h j hj]

omit hf in
/-- `encode` raises with the two options exactly if it raises without, and leaves the same state; otherwise both texts are texts of one document. -/
theorem encode_same (indent : Option Str) (separators : Option (Str × Str)) (w : World) (hw : w.dumps = dumps ft) (cfg : PCfg) (n : Nat)
    (v : Val) (reset : Bool) (s s' : PState) :
    (∀ e, encode ft (Layout.of indent separators) w cfg n v reset s = some (.error e, s') ↔ Api.encode w cfg n v reset s = some (.error e, s')) ∧
    (∀ t, encode ft (Layout.of indent separators) w cfg n v reset s = some (.ok t, s') ↔
      ∃ j, Pickler.flattenTop w cfg n v reset s = some (.ok j, s') ∧ t = pretty ft (Layout.of indent separators) 0 j) ∧
    (∀ t, Api.encode w cfg n v reset s = some (.ok t, s') ↔ ∃ j, Pickler.flattenTop w cfg n v reset s = some (.ok j, s') ∧ t = dumps ft j) := by
  unfold encode Api.encode
  simp only [bind_run, hw]
  rcases Pickler.flattenTop w cfg n v reset s with _ | ⟨r | r, s1⟩
  · refine ⟨fun e => Iff.rfl, fun t => ⟨(fun h => by cases h), ?_⟩, fun t => ⟨(fun h => by cases h), ?_⟩⟩ <;> rintro ⟨_, h, _⟩ <;> cases h
  · refine ⟨fun e => Iff.rfl, fun t => ⟨(fun h => by cases h), ?_⟩, fun t => ⟨(fun h => by cases h), ?_⟩⟩ <;> rintro ⟨_, h, _⟩ <;> cases h
  · refine ⟨fun e => ⟨(fun h => by cases h), (fun h => by cases h)⟩, fun t => ⟨fun h => ?_, ?_⟩, fun t => ⟨fun h => ?_, ?_⟩⟩
    · cases h; exact ⟨r, rfl, rfl⟩
    · rintro ⟨_, h, rfl⟩; cases h; rfl
    · cases h; exact ⟨r, rfl, rfl⟩
    · rintro ⟨_, h, rfl⟩; cases h; rfl

omit hf in
theorem blank_ascii {b : Str} (h : Blank b) : ∀ c ∈ b, c < 128 := fun c hc => by rcases h c hc with rfl | rfl | rfl | rfl <;> decide

omit hf in
theorem around_ascii {d : Nat} (hd : d < 128) {b : Str} (h : Around d b) : ∀ c ∈ b, c < 128 := by
  obtain ⟨x, y, rfl, hx, hy⟩ := h
  intro c hc
  simp only [List.mem_append, List.mem_cons] at hc
  rcases hc with hc | rfl | hc
  · exact blank_ascii hx c hc
  · exact hd
  · exact blank_ascii hy c hc

mutual
theorem pretty_ascii {L : Layout} (hL : L.Ok) : ∀ (j : Json) (n : Nat), ∀ c ∈ pretty ft L n j, c < 128
  | .null, _ => dumps_ascii hf .null
  | .bool b, _ => dumps_ascii hf (.bool b)
  | .int i, _ => dumps_ascii hf (.int i)
  | .float f, _ => dumps_ascii hf (.float f)
  | .str s, _ => dumps_ascii hf (.str s)
  | .arr [], _ => dumps_ascii hf (.arr [])
  | .arr (x :: xs), n => fun c hc => by
    simp only [pretty, List.mem_cons, List.mem_append] at hc
    rcases hc with rfl | hc | hc | hc
    · decide
    · exact blank_ascii (hL.opening n) c hc
    · exact pretty_ascii hL x _ c hc
    · exact prettyL_ascii hL xs n c hc
  | .obj [], _ => dumps_ascii hf (.obj [])
  | .obj ((k, x) :: kvs), n => fun c hc => by
    simp only [pretty, List.mem_cons, List.mem_append] at hc
    rcases hc with rfl | hc | rfl | hc | hc | hc | hc
    · decide
    · exact blank_ascii (hL.opening n) c hc
    · decide
    · exact escStr_ascii k c hc
    · exact around_ascii (by decide) hL.colon c hc
    · exact pretty_ascii hL x _ c hc
    · exact prettyKv_ascii hL kvs n c hc
theorem prettyL_ascii {L : Layout} (hL : L.Ok) : ∀ (xs : List Json) (n : Nat), ∀ c ∈ prettyL ft L n xs, c < 128
  | [], n => fun c hc => by
    simp only [prettyL, List.mem_append, List.mem_singleton] at hc
    rcases hc with hc | rfl
    · exact blank_ascii (hL.closing n) c hc
    · decide
  | x :: xs, n => fun c hc => by
    simp only [prettyL, List.mem_append] at hc
    rcases hc with hc | hc | hc
    · exact around_ascii (by decide) (hL.between n) c hc
    · exact pretty_ascii hL x _ c hc
    · exact prettyL_ascii hL xs n c hc
theorem prettyKv_ascii {L : Layout} (hL : L.Ok) : ∀ (kvs : List (Str × Json)) (n : Nat), ∀ c ∈ prettyKv ft L n kvs, c < 128
  | [], n => fun c hc => by
    simp only [prettyKv, List.mem_append, List.mem_singleton] at hc
    rcases hc with hc | rfl
    · exact blank_ascii (hL.closing n) c hc
    · decide
  | (k, x) :: kvs, n => fun c hc => by
    simp only [prettyKv, List.mem_append, List.mem_cons] at hc
    rcases hc with hc | rfl | hc | hc | hc | hc
    · exact around_ascii (by decide) (hL.between n) c hc
    · decide
    · exact escStr_ascii k c hc
    · exact around_ascii (by decide) hL.colon c hc
    · exact pretty_ascii hL x _ c hc
    · exact prettyKv_ascii hL kvs n c hc
end

/-- With `set_encoder_options` the options also apply to the texts inside dictionary keys.  The covered graphs come back all the same. -/
theorem trip (indent : Option Str) (separators : Option (Str × Str)) (h : Usual indent separators) (w : World) (cfg : PCfg) (env : UEnv) (v : Val)
    (he : env.loads = loads ft) (hc : Covered { w with dumps := dumps ft } cfg env v) :
    ∃ text, Encodes { w with dumps := pretty ft (Layout.of indent separators) 0 } cfg v text ∧ ∀ u, ∃ x u', Decodes env text u x u' ∧
      SameGraph (Sim.orderOf cfg) (fun c => (w.handler c).isSome) w.heap v u'.heap x := by
  have hL := layout_ok h
  have hm : Matching { w with dumps := pretty ft (Layout.of indent separators) 0 } cfg env :=
    ⟨hc.matching.unpicklable, hc.matching.makeRefs, hc.matching.maxDepth, hc.matching.keys, hc.matching.v1, hc.matching.handler, fun j hj => by
      rw [he]
      show loads ft (pretty ft (Layout.of indent separators) 0 j) = some j
      rw [same_document ft hf indent separators h j (points_of_writable j hj), loads_dumps hf j hj]⟩
  have hp : PlainText { w with dumps := pretty ft (Layout.of indent separators) 0 } :=
    ⟨hc.plain.repr, hc.plain.pystr, fun j => pretty_ascii ft hf hL j 0⟩
  obtain ⟨text, h1, h2⟩ := JP.round_trip hm hp hc.safe hc.supported hc.text
  refine ⟨text, h1, fun u => ?_⟩
  obtain ⟨x, u', d, g, _⟩ := h2 u
  exact ⟨x, u', d, g⟩

omit hf

/-! ### examples -/

/-- The sample graph comes back with an indentation of two spaces; so does the one with objects as keys, whose texts are indented, too. -/
example : ∃ text, Encodes { Sample.program.world Sample.keyed with dumps := pretty C41.sampleFloat (Layout.of (some p!"  ") none) 0 } { keys := true } (.ref 0) text ∧
    ∀ u, ∃ x u', Decodes (Sample.program.env true) text u x u' ∧
      SameGraph (Sim.orderOf { keys := true }) (fun c => ((Sample.program.world Sample.keyed).handler c).isSome) Sample.keyed (.ref 0) u'.heap x :=
  trip C41.sampleFloat C41.sampleFloat_lawful (some p!"  ") none
    ⟨fun t h => by injection h with h; subst h; intro c hc; simp at hc; exact .inl hc, (fun _ h => by cases h), (fun _ h => by cases h)⟩
    (Sample.program.world Sample.keyed) { keys := true } (Sample.program.env true) (.ref 0) rfl Sample.keyed_covered

/-- `indent=2` -/
theorem two_spaces : Usual (some p!"  ") none :=
  ⟨fun t h => by injection h with h; subst h; intro c hc; simp at hc; exact .inl hc, (fun _ h => by cases h), (fun _ h => by cases h)⟩

/-- `separators=(",", ":")` -/
theorem compact : Usual none (some (p!",", p!":")) :=
  ⟨(fun _ h => by cases h), (fun s h => by injection h with h; subst h; exact ⟨[], [], rfl, blank_nil, blank_nil⟩),
    (fun s h => by injection h with h; subst h; exact ⟨[], [], rfl, blank_nil, blank_nil⟩)⟩

/-- `{"a": [1, []], "b": {}}` -/
def doc : Json := .obj [(p!"a", .arr [.int 1, .arr []]), (p!"b", .obj [])]

example : pretty C41.sampleFloat (Layout.of (some p!"  ") none) 0 doc = p!"{\n  \"a\": [\n    1,\n    []\n  ],\n  \"b\": {}\n}" := by decide +kernel
example : pretty C41.sampleFloat (Layout.of none (some (p!",", p!":"))) 0 doc = p!"{\"a\":[1,[]],\"b\":{}}" := by decide +kernel
example : pretty C41.sampleFloat (Layout.of none none) 0 doc = dumps C41.sampleFloat doc := by decide +kernel

example : loads C41.sampleFloat (pretty C41.sampleFloat (Layout.of (some p!"  ") none) 0 doc) = some doc := by decide +kernel
example : loads C41.sampleFloat (pretty C41.sampleFloat (Layout.of none (some (p!",", p!":"))) 0 doc) = some doc := by decide +kernel

/-- With other separators the text cannot be read. -/
theorem other_separators : loads C41.sampleFloat (pretty C41.sampleFloat (Layout.of none (some (p!"; ", p!": "))) 0 (.arr [.int 1, .int 2])) = none := by
  decide +kernel

/-- An indentation that is not white space makes the text unreadable … -/
theorem other_indent : loads C41.sampleFloat (pretty C41.sampleFloat (Layout.of (some p!"--") none) 0 (.arr [.int 1])) = none := by
  decide +kernel

/-- … or something else: with `indent="-"` the list `[1]` becomes `[-1]`. -/
theorem minus_indent : loads C41.sampleFloat (pretty C41.sampleFloat (Layout.of (some p!"-") none) 0 (.arr [.int 1])) = some (.arr [.int (-1)]) := by
  decide +kernel

end JP.C66
