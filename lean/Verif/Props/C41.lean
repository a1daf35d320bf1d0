import Verif.SampleProgram
import Verif.Proofs.JsonText
import Verif.Proofs.JsonRead
import Verif.DecEq
/-!
# C41 — What the JSON text of a document reads back as

Not always the document: a string that contains a high and a low surrogate as two separate characters is written
with two escapes, which JSON reads as one character.  Assumptions about floating point numbers: `FloatText.Lawful`, `FloatText.OneNan`.
-/
namespace JP.C41
open JP JP.JsonText

/-- The text can always be read, and gives the document with pairs of surrogates merged, payloads of NaNs dropped and equal keys merged. -/
theorem reads (ft : FloatText) (hf : ft.Lawful) (hn : ft.OneNan) (j : Json) (hj : PointsJ j) : loads ft (dumps ft j) = some (asRead j) := by
  rw [← pretty_default (ft := ft) j 0, loads_pretty hf default_ok j hj, norm_asRead hf hn]

/-- It is the document itself exactly if no string has such a pair, no NaN a payload, and all keys differ. -/
theorem same_iff (ft : FloatText) (hf : ft.Lawful) (hn : ft.OneNan) (j : Json) (hj : PointsJ j) :
    loads ft (dumps ft j) = some j ↔ j.Writable := by
  refine ⟨fun h => ?_, loads_dumps hf j⟩
  rw [reads ft hf hn j hj] at h
  injection h with h
  exact writable_of_asRead j hj h

/-- Different documents of this kind have different texts. -/
theorem injective (ft : FloatText) (hf : ft.Lawful) (j j' : Json) (hj : j.Writable) (hj' : j'.Writable) :
    dumps ft j = dumps ft j' ↔ j = j' := by
  refine ⟨fun h => ?_, fun h => by rw [h]⟩
  have h1 := loads_dumps hf j hj
  rw [h, loads_dumps hf j' hj'] at h1
  injection h1 with h1
  exact h1.symm

theorem sampleFloat_lawful : sampleFloat.Lawful where
  back f _ := by
    obtain ⟨h1, _, h3, _⟩ := natText_spec (f.toNat + 1) f.toNat (Nat.lt_succ_self _)
    simp only [sampleFloat]
    rw [if_pos h3, h1]
    simp
  nonempty f := by simp [sampleFloat]
  oneWord f c hc := by
    simp only [sampleFloat, List.mem_cons] at hc
    rcases hc with rfl | hc
    · decide
    · exact (digit_not_delim c ((natText_spec (f.toNat + 1) f.toNat (Nat.lt_succ_self _)).2.1 c hc)).1
  ascii f c hc := by
    simp only [sampleFloat, List.mem_cons] at hc
    rcases hc with rfl | hc
    · decide
    · have := (natText_spec (f.toNat + 1) f.toNat (Nat.lt_succ_self _)).2.1 c hc
      simp [isDigit] at this
      omega
  notInt f := by
    simp only [sampleFloat, readInt]
    have : isNat (102 :: natText (f.toNat + 1) f.toNat) = false := by
      cases h : natText (f.toNat + 1) f.toNat with
      | nil => rfl
      | cons c r => simp [isNat, isDigit]
    rw [this]
    rfl
  notLit f := by
    refine ⟨?_, ?_, ?_⟩ <;> (simp only [sampleFloat]; intro e; injection e with e1 e2)
    · cases e1
    · cases e1
    · obtain ⟨_, h2, _⟩ := natText_spec (f.toNat + 1) f.toNat (Nat.lt_succ_self _)
      have := h2 97 (by rw [e2]; simp)
      revert this
      decide

/-- a document with every kind of value, nested, with characters that need escapes -/
def doc : Json :=
  .obj [(p!"a\"b\\", .arr [.null, .bool true, .int (-120), .float 3, .arr [], .obj []]),
        ([0x1F600, 0xD800, 10, 233], .str [0xDC00, 0xD800, 0x10FFFF, 34]),
        (p!"json://[1, 2]", .obj [(p!"k", .int 0)])]

example : doc.Writable ∧ loads sampleFloat (dumps sampleFloat doc) = some doc := by
  have h : doc.Writable := by
    refine ⟨by decide, strOk_of_ascii (by decide), ?_, ?_, ?_, strOk_of_ascii (by decide), ?_, trivial⟩
    · exact ⟨trivial, trivial, trivial, by intro h; revert h; decide, trivial, ⟨by decide, trivial⟩, trivial⟩
    · refine ⟨by decide, ?_⟩
      rintro pre hi lo post e ⟨h1, h2, h3, h4⟩
      rcases pre with _ | ⟨_, _ | ⟨_, _ | ⟨_, _ | ⟨_, pre⟩⟩⟩⟩ <;> simp at e <;> omega
    · refine ⟨by decide, ?_⟩
      rintro pre hi lo post e ⟨h1, h2, h3, h4⟩
      rcases pre with _ | ⟨_, _ | ⟨_, _ | ⟨_, _ | ⟨_, pre⟩⟩⟩⟩ <;> simp at e <;> omega
    · exact ⟨by decide, strOk_of_ascii (by decide), trivial, trivial⟩
  exact ⟨h, loads_dumps sampleFloat_lawful doc h⟩

/-- the same with one text for all NaNs -/
def nanFloat : FloatText where
  «show» f := sampleFloat.show (plainNan f)
  read := sampleFloat.read

theorem nanFloat_lawful : nanFloat.Lawful where
  back f h := by
    have e : plainNan f = f := by
      unfold plainNan
      by_cases hn : floatIsNan f = true
      · rw [if_pos hn]; exact (h hn).symm
      · rw [if_neg hn]
    show sampleFloat.read (sampleFloat.show (plainNan f)) = some f
    rw [e]
    exact sampleFloat_lawful.back f h
  nonempty f := sampleFloat_lawful.nonempty _
  oneWord f := sampleFloat_lawful.oneWord _
  notInt f := sampleFloat_lawful.notInt _
  ascii f := sampleFloat_lawful.ascii _
  notLit f := sampleFloat_lawful.notLit _

theorem nanFloat_one : nanFloat.OneNan := fun f h => by
  show sampleFloat.show (plainNan f) = sampleFloat.show (plainNan 0x7ff8000000000000)
  unfold plainNan
  rw [if_pos h]
  rfl

/-- equal keys, a NaN with a payload and two surrogates: the text says something else -/
def odd : Json :=
  .obj [(p!"a", .int 1), (p!"b", .float 0x7ff8000000000001), (p!"a", .str [0xD83D, 0xDE00])]

example : PointsJ odd ∧ ¬ odd.Writable ∧
    loads nanFloat (dumps nanFloat odd) = some (.obj [(p!"a", .str [0x1F600]), (p!"b", .float 0x7ff8000000000000)]) := by
  have h : PointsJ odd := by
    have d : ∀ s : Str, s.all (fun c => decide (c < 0x110000)) = true → Points s := fun s h c hc => by simpa using List.all_eq_true.1 h c hc
    exact ⟨d _ (by decide), trivial, d _ (by decide), trivial, d _ (by decide), d _ (by decide), trivial⟩
  refine ⟨h, fun hw => absurd hw.1 (by decide), ?_⟩
  rw [reads nanFloat nanFloat_lawful nanFloat_one odd h]
  decide +kernel

/-- Counterexample to the unrestricted claim: `"\ud83d" + "\ude00"` reads back as one character. -/
theorem surrogates_merge (ft : FloatText) :
    loads ft (dumps ft (.str [0xD83D, 0xDE00])) = some (.str [0x1F600]) := by
  rfl

/-! ### escapes -/

/-- the sixteen digits -/
def lower16 : Str := p!"0123456789abcdef"
def upper16 : Str := p!"0123456789ABCDEF"

/-- four digits -/
def four (ds : Str) (n : Nat) : Str := [ds.getD (n / 4096 % 16) 0, ds.getD (n / 256 % 16) 0, ds.getD (n / 16 % 16) 0, ds.getD (n % 16) 0]

/-- Characters that are not ASCII are written as escapes with digits in lower case. -/
theorem escape_written (ft : FloatText) (c : Nat) (h : 127 ≤ c) (hc : c < 0x10000) : dumps ft (.str [c]) = p!"\"\\u" ++ four lower16 c ++ p!"\"" := by
  have hd : ∀ m : Fin 16, hexDigit m.val = lower16.getD m.val 0 := by decide
  have hx : ∀ n : Nat, hexDigit (n % 16) = lower16.getD (n % 16) 0 := fun n => hd ⟨n % 16, Nat.mod_lt _ (by decide)⟩
  have : escChar c = u4 c := by
    unfold escChar
    rw [if_neg (by omega), if_neg (by omega), if_neg (by omega), if_neg (by omega), if_neg (by omega), if_neg (by omega), if_neg (by omega),
      if_neg (by omega), if_pos hc]
  simp only [dumps, escStr, this, u4, hex4, hx]
  rfl

/-- Escapes with digits in upper or lower case are read. -/
theorem escape_read (ft : FloatText) (ds : Str) (hs : ds = lower16 ∨ ds = upper16) (c : Nat) (hc : c < 0x10000) (hn : ¬ (0xD800 ≤ c ∧ c < 0xDC00)) :
    loads ft (p!"\"\\u" ++ four ds c ++ p!"\"") = some (.str [c]) := by
  have hd : ∀ m : Fin 16, unhex (lower16.getD m.val 0) = some m.val ∧ unhex (upper16.getD m.val 0) = some m.val := by decide
  have hx : ∀ n : Nat, unhex (ds.getD (n % 16) 0) = some (n % 16) := fun n => by
    have := hd ⟨n % 16, Nat.mod_lt _ (by decide)⟩
    rcases hs with rfl | rfl
    · exact this.1
    · exact this.2
  have h4 : ∀ s, readHex4 (four ds c ++ s) = some (c, s) := fun s => by
    simp only [four, List.cons_append, List.nil_append, readHex4, hx]
    show some (_, s) = _
    congr 2
    omega
  have hr : ∀ f, readStr (f + 2) (92 :: 117 :: (four ds c ++ [34])) = some ([c], []) := fun f => by
    rw [readStr]
    simp only [h4, if_neg hn]
    simp [readStr]
  have hv : ∀ f, readV ft (f + 1) (34 :: 92 :: 117 :: (four ds c ++ [34])) = some (.str [c], []) := fun f => by
    rw [readV, if_pos rfl]
    rw [show (92 :: 117 :: (four ds c ++ [34]) : Str).length + 1 = 6 + 2 from rfl, hr]
    rfl
  show (match readV ft _ (34 :: 92 :: 117 :: (four ds c ++ [34])) with
    | some (j, r) => if skipWs r = [] then some j else none
    | none => none) = _
  rw [show 2 * (p!"\"\\u" ++ four ds c ++ p!"\"").length + 1 = 16 + 1 from rfl, hv]
  rfl

/-- the short escapes of JSON, and what they stand for -/
def shortEscapes : List (Nat × Nat) := [(34, 34), (92, 92), (47, 47), (98, 8), (102, 12), (110, 10), (114, 13), (116, 9)]

/-- All short escapes are read, also those that `json` does not write. -/
theorem short_escape_read (ft : FloatText) (e c : Nat) (h : (e, c) ∈ shortEscapes) : loads ft [34, 92, e, 34] = some (.str [c]) := by
  simp only [shortEscapes, List.mem_cons, Prod.mk.injEq, List.not_mem_nil, or_false] at h
  rcases h with ⟨rfl, rfl⟩ | ⟨rfl, rfl⟩ | ⟨rfl, rfl⟩ | ⟨rfl, rfl⟩ | ⟨rfl, rfl⟩ | ⟨rfl, rfl⟩ | ⟨rfl, rfl⟩ | ⟨rfl, rfl⟩ <;> rfl

example (ft : FloatText) : loads ft p!"\"\\/\"" = some (.str p!"/") := short_escape_read ft 47 47 (by decide)

end JP.C41
