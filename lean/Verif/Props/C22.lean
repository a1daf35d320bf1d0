import Verif.Pandas
import Verif.Proofs.Utf8
import Verif.Proofs.Base64
import Verif.DecEq
/-!
# C22: pandas payload packing is lossless whatever the size threshold
-/
namespace JP.Pandas.C22
open JP JP.Pandas

/-- A compressor is faithful if decompressing what it compressed gives it back. -/
def Faithful (c : Comp) : Prop := ∀ b, c.decompress (c.compress b) = .ok b

/-- Text that is a sequence of Unicode scalar values (no lone surrogates). -/
def Scalar (s : Str) : Prop := ∀ c ∈ s, c < 0x110000 ∧ ¬ (0xD800 ≤ c ∧ c ≤ 0xDFFF)

/-- Only text without lone surrogates can be encoded. -/
theorem utf8Encode_scalar (s : Str) (hb : ∀ c ∈ s, c < 0x110000) (x : Bytes) (h : utf8Encode s = some x) : Scalar s := by
  have key : ∀ (s : Str) (y : List Nat), utf8EncodeN s = some y → ∀ c ∈ s, ¬ (0xD800 ≤ c ∧ c ≤ 0xDFFF) := by
    intro s
    induction s with
    | nil => intro y _ c hc; cases hc
    | cons a r ih =>
      intro y hy c hc
      simp only [utf8EncodeN] at hy
      split at hy
      · rename_i x1 y1 h1 h2
        rcases List.mem_cons.1 hc with rfl | hc
        · intro hr
          have : utf8Char c = none := by
            unfold utf8Char
            rw [if_neg (by omega), if_neg (by omega), if_pos (by omega), if_pos hr]
          rw [this] at h1
          cases h1
        · exact ih _ h2 c hc
      · cases hy
  obtain ⟨y, hy, _⟩ := Option.map_eq_some_iff.1 h
  exact fun c hc => ⟨hb c hc, key s y hy c hc⟩

/-- **C22**: whatever `flatten_pandas` stored, `restore_pandas` returns the payload and the metadata — for every payload text, every metadata, every
threshold (including `None`) and every compressor (or `None`) that can decompress what it compressed.  When it stores nothing, because it raises, is
`pandas_raises_iff`. -/
theorem pandas_roundtrip (p : Proc) (hc : ∀ c, p.compression = some c → Faithful c) (buf : Str) (m : Nat) (d : Data) (h : flattenPandas p buf m = .ok d) :
    restorePandas p d = .ok (.text buf, m) := by
  obtain ⟨t, co⟩ := p
  cases t with
  | none => cases h; rfl
  | some t =>
    simp only [flattenPandas] at h
    split at h
    · cases co with
      | none => cases h
      | some c =>
        simp only at h
        cases hx : utf8Encode buf with
        | none => rw [hx] at h; cases h
        | some x =>
          rw [hx] at h
          injection h with h
          subst h
          simp [restorePandas, b64decode_encode, hc c rfl x, utf8Decode_encode buf x hx]
    · injection h with h
      subst h
      rfl

/-- `flatten_pandas` raises exactly for payloads longer than the threshold that are not compressed (`TypeError`) or that contain lone surrogates
(`UnicodeEncodeError`). -/
theorem pandas_raises_iff (p : Proc) (buf : Str) (hb : ∀ c ∈ buf, c < 0x110000) (m : Nat) :
    (∃ e, flattenPandas p buf m = .error e) ↔ (∃ t, p.sizeThreshold = some t ∧ t < buf.length) ∧ (p.compression = none ∨ ¬ Scalar buf) := by
  obtain ⟨t, co⟩ := p
  cases t with
  | none => simp [flattenPandas]
  | some t =>
    simp only [flattenPandas]
    by_cases hl : t < buf.length
    · rw [if_pos hl]
      cases co with
      | none => simp [hl]
      | some c =>
        simp only
        cases hx : utf8Encode buf with
        | none =>
          simp only [Except.error.injEq, exists_eq', true_iff]
          refine ⟨⟨t, rfl, hl⟩, .inr fun hs => ?_⟩
          obtain ⟨y, hy⟩ := utf8Encode_ok buf hs
          rw [hx] at hy
          cases hy
        | some x =>
          simp only [reduceCtorEq, exists_false, false_iff, not_and, not_or, Classical.not_not]
          intro _
          refine ⟨not_false, utf8Encode_scalar buf hb x hx⟩
    · rw [if_neg hl]
      simp [hl]

/-- **C22** (no compressor, or any compressor): at or below the threshold - or with threshold `None` -
every payload, surrogates included, comes back, also when the reading side is configured
differently. -/
theorem pandas_roundtrip_text (p q : Proc) (buf : Str) (m : Nat)
    (h : ∀ t, p.sizeThreshold = some t → buf.length ≤ t) :
    ∃ d, flattenPandas p buf m = .ok d ∧ restorePandas q d = .ok (.text buf, m) := by
  cases ht : p.sizeThreshold with
  | none => exact ⟨{ values := buf, txt := true, comp := none, meta_ := m }, by simp only [flattenPandas, ht], rfl⟩
  | some t =>
    have := h t ht
    exact ⟨{ values := buf, txt := true, comp := none, meta_ := m },
      by simp only [flattenPandas, ht]; rw [if_neg (by omega)], rfl⟩

/-- **C22** is false without a compressor: `compression=None` is documented as valid, but every payload
longer than the threshold raises `TypeError`. -/
theorem pandas_no_compression_raises (t : Nat) (buf : Str) (m : Nat) (h : t < buf.length) :
    flattenPandas { sizeThreshold := some t, compression := none } buf m = .error .typeError := by
  simp only [flattenPandas]; rw [if_pos h]

example : (500 : Nat) < (List.replicate 501 97 : Str).length := by rw [List.length_replicate]; omega
example : Faithful { compress := fun b => 0 :: b, decompress := fun b => .ok b.tail } := fun _ => rfl
example : ¬ Scalar [0x61, 0xD800] := by unfold Scalar; decide
example : Scalar p!"a,b\n1,2" := by unfold Scalar; decide
example : flattenPandas { sizeThreshold := some 2, compression := some { compress := fun b => 0 :: b, decompress := fun b => .ok b.tail } }
    p!"abc" 7 = .ok { values := p!"AGFiYw==", txt := false, comp := some true, meta_ := 7 } := by decide +kernel

end JP.Pandas.C22
