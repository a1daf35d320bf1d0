import Verif.Proofs.Numpy
import Verif.DecEq
/-!
# C35 and C42: numpy arrays

Specification: two arrays are the same when shape, dtype (with byte order), write flag and the element at
every valid multi-index agree (`Same`).  `Valid i s` says that `i` has one component per dimension, each
below the dimension.
-/
namespace JP.Numpy.C35
open JP JP.Numpy

/-- Same array up to memory layout. -/
def Same (a b : Arr) : Prop :=
  b.shape = a.shape ∧ b.dtype = a.dtype ∧ b.writeable = a.writeable ∧
  ∀ i, Valid i a.shape → b.elem i = a.elem i

/-- The bytes of each element have the sizes that the dtype says. -/
def Wf (a : Arr) : Prop := ∀ i, Valid i a.shape → WfElem a.dtype.fields (a.elem i)

/-- The compressor, if any, is lossless. -/
def Lossless (c : Cfg) : Prop := ∀ z, c.compression = some z → ∀ b, z.decompress (z.compress b) = .ok b

/-- The byte orders that the handlers can represent: a simple dtype, or one whose fields are native. -/
def OrderKept (c : Cfg) (d : DType) : Prop :=
  (d.struct = false ∧ ∃ f, d.fields = [f]) ∨ ∀ f ∈ d.fields, f.bo = .na ∨ f.bo = c.native

/-- The array is stored as text. -/
def AsText (c : Cfg) (a : Arr) : Prop := ∀ t, c.sizeThreshold = some t → a.size ≤ t

theorem setBO_native {c : Cfg} {d : DType} (h : ∀ f ∈ d.fields, f.bo = .na ∨ f.bo = c.native) :
    setBO d c.native = d := by
  unfold setBO
  have : d.fields.map (fun f => if f.bo = .na then f else { f with bo := c.native }) = d.fields := by
    conv => rhs; rw [← List.map_id d.fields]
    apply List.map_congr_left
    intro f hf
    rcases h f hf with h | h
    · simp [h]
    · split
      · rfl
      · rw [← h]; rfl
  rw [this]

theorem dtype_back {c : Cfg} {d : DType} (h : OrderKept c d) (hn : c.native ≠ .na) :
    restoreByteorder (setBO d c.native) (flattenByteorder d) = d := by
  unfold restoreByteorder flattenByteorder
  obtain ⟨name, fields, struct, leaf⟩ := d
  rcases h with ⟨hs, f, hf⟩ | h
  · obtain ⟨sz, bo⟩ := f
    cases hs; cases hf
    cases bo <;> simp [byteorder, setBO, hn]
  · have h1 := setBO_native h
    have h2 : ∀ b, byteorder ⟨name, fields, struct, leaf⟩ = b → b ≠ .na → b = c.native := by
      intro b hb hne
      subst hb
      unfold byteorder at hne ⊢
      simp only at hne ⊢
      split
      · rename_i hst; simp [hst] at hne
      · rename_i hst
        simp only [hst, Bool.false_eq_true, if_false] at hne ⊢
        cases fields with
        | nil => simp at hne
        | cons f r =>
          cases r with
          | nil =>
            rcases h f (by simp) with h' | h'
            · exact absurd h' hne
            · exact h'
          | cons _ _ => simp at hne
    by_cases hb : byteorder ⟨name, fields, struct, leaf⟩ = .na
    · simp [hb, h1]
    · simp only [hb, if_false]
      rw [h2 _ rfl hb, h1, h1]

/-- **C35, text.** An array with at least one dimension that is stored as text is restored as text, with
the original shape and elements; the dtype is the native version of the original dtype.

Missing from the full claim: arrays without dimensions (`zero_dim_becomes_one_dim`), and the byte order
of the dtype (`text_loses_byteorder`). -/
theorem text_roundtrip_partial (c : Cfg) (textOf : Elem → Str) (a : Arr) (ht : AsText c a)
    (hd : a.shape ≠ []) :
    ∃ b, restoreBinary c textOf (flattenBinary c a) = .ok b ∧
      Same { a with dtype := setBO a.dtype c.native } b := by
  have hfl : flattenBinary c a = flattenText c a := by
    unfold flattenBinary
    cases hs : c.sizeThreshold with
    | none => simp
    | some t => simp [ht t hs]
  rw [hfl]
  obtain ⟨shape, dt, elem, cc, fc, wr⟩ := a
  cases shape with
  | nil => exact absurd rfl hd
  | cons n s =>
    refine ⟨restoreText _ (nest (n :: s) elem), rfl, ?_, rfl, rfl, ?_⟩
    · by_cases h0 : 0 ∈ n :: s
      · simp only [restoreText, flattenText, if_pos h0]
      · simp only [restoreText, flattenText, if_neg h0]
        exact inferShape_nest _ _ h0
    · intro i hi
      exact nlGet_nest _ _ i hi

/-- **C35/C42, binary.** A contiguous array (C or Fortran) that is stored as binary is restored as binary:
same shape, dtype including byte order, write flag and elements, for every lossless compressor.

Missing from the full claim: arrays that are neither C nor Fortran contiguous given directly to
`NumpyNDArrayHandlerBinary` (`noncontiguous_permuted`), structured dtypes with a foreign byte order
(`struct_byteorder_lost`), and the Fortran memory order of the result (`fortran_view_wrong`). -/
theorem binary_roundtrip_partial (c : Cfg) (textOf : Elem → Str) (a : Arr) (ht : ¬ AsText c a)
    (hw : Wf a) (hz : Lossless c) (hk : OrderKept c a.dtype) (hn : c.native ≠ .na)
    (hc : a.cContig = true ∨ a.fContig = true) :
    ∃ b, restoreBinary c textOf (flattenBinary c a) = .ok b ∧ Same a b := by
  obtain ⟨t, hs, hlt⟩ : ∃ t, c.sizeThreshold = some t ∧ ¬ a.size ≤ t := by
    refine Classical.byContradiction fun h => ht ?_
    intro t hs
    exact Classical.byContradiction fun h' => h ⟨t, hs, h'⟩
  have hdec := dtype_back hk hn
  have hord : (a.fContig && !a.cContig) = !a.cContig := by
    rcases hc with h | h <;> cases h' : a.cContig <;> simp_all
  unfold flattenBinary
  simp only [hs, ge_iff_le, hlt, decide_false, Bool.false_eq_true, if_false]
  simp only [restoreBinary, restoreB64, JP.b64decode_encode]
  have hdecomp : decompressW c (compressW c (tobytesA a)) = .ok (tobytesA a) := by
    unfold decompressW compressW
    cases hcz : c.compression with
    | none => rfl
    | some z => simp [hz z hcz]
  rw [hdecomp]
  simp only [Option.getD_some]
  refine ⟨_, rfl, rfl, hdec, rfl, ?_⟩
  intro i hi
  simp only
  rw [hdec]
  unfold tobytesA
  rw [hord]
  exact fromBuffer_layout a.dtype a.elem _ (fun j hj => hw j (mem_idxs.mp hj)) i (mem_idxs.mpr hi)

/-! ### the default handler: arrays owning their data and views onto them -/

/-- Restored memory equals the original memory for a native base that is stored as text and contiguous, or
stored as binary and C contiguous. -/
theorem base_memory (c : Cfg) (textOf : Elem → Str) (a : Arr) (hd : a.shape ≠ [])
    (hw : Wf a) (hz : Lossless c) (hn : c.native ≠ .na) (hc : a.cContig = true ∨ (AsText c a ∧ a.fContig = true))
    (hnat : ∀ f ∈ a.dtype.fields, f.bo = .na ∨ f.bo = c.native) :
    ∃ b, restoreBinary c textOf (flattenOwn c a) = .ok b ∧ mem b = mem a := by
  have hmem : ∀ b, Same a b → (b.fContig && !b.cContig) = (a.fContig && !a.cContig) → mem b = mem a := by
    rintro b ⟨hs, hdt, _, he⟩ hb
    unfold mem tobytesA
    rw [hb, hs, hdt]
    exact layout_congr _ (fun i hi => he i (mem_idxs.mp hi))
  by_cases ht : AsText c a
  · have hfl : flattenBinary c a = flattenText c a := by
      unfold flattenBinary
      cases hs : c.sizeThreshold with
      | none => simp
      | some t => simp [ht t hs]
    obtain ⟨b, hb, hsame⟩ := text_roundtrip_partial c textOf a ht hd
    rw [setBO_native hnat] at hsame
    rw [hfl] at hb
    obtain ⟨shape, dt, elem, cc, fc, wr⟩ := a
    cases shape with
    | nil => exact absurd rfl hd
    | cons n s =>
      have hb' : b = restoreText (flattenText c ⟨n :: s, dt, elem, cc, fc, wr⟩) (nest (n :: s) elem) := by
        simp only [restoreBinary, flattenText, nest] at hb
        cases hb
        rfl
      subst hb'
      unfold flattenOwn
      rw [hfl]
      cases cc with
      | true => exact ⟨_, rfl, hmem _ hsame (by simp [restoreText, flattenText])⟩
      | false =>
        have hf : fc = true := by rcases hc with h | h; cases h; exact h.2
        subst hf
        refine ⟨restoreText { flattenText c ⟨n :: s, dt, elem, false, true, wr⟩ with orderF := true } (nest (n :: s) elem), rfl, hmem _ ?_ rfl⟩
        exact hsame
  · have hcc : a.cContig = true := by
      rcases hc with h | h
      · exact h
      · exact absurd h.1 ht
    have hown : flattenOwn c a = flattenBinary c a := by simp [flattenOwn, hcc]
    rw [hown]
    obtain ⟨b, hb, hsame⟩ := binary_roundtrip_partial c textOf a ht hw hz (.inr hnat) hn (.inl hcc)
    refine ⟨b, hb, hmem b hsame ?_⟩
    obtain ⟨t, hs, hlt⟩ : ∃ t, c.sizeThreshold = some t ∧ ¬ a.size ≤ t := by
      refine Classical.byContradiction fun h => ht ?_
      intro t hs
      exact Classical.byContradiction fun h' => h ⟨t, hs, h'⟩
    unfold flattenBinary at hb
    simp only [hs, ge_iff_le, hlt, decide_false, Bool.false_eq_true, if_false, restoreBinary, restoreB64] at hb
    split at hb
    · cases hb
    · cases hb; simp [hcc]

/-- **C42, views.** A view with a simple dtype, by offset and strides, onto a base of native byte
order reads the same elements after the round trip, in either byte order of the view, if the base is C
contiguous, or is in Fortran order and was stored as text.

Missing from the full claim: bases in Fortran order stored as binary (`fortran_view_wrong`), bases in foreign byte order
(`foreign_base_view_wrong`) and bases without a byte order (`bytes_base_view_wrong`). -/
theorem view_roundtrip_partial (c : Cfg) (textOf : Elem → Str) (a : Arr) (v : View) (hd : a.shape ≠ [])
    (hw : Wf a) (hz : Lossless c) (hc : a.cContig = true ∨ (AsText c a ∧ a.fContig = true))
    (hn : c.native ≠ .na) (hb : byteorder a.dtype = c.native)
    (hv : v.dtype.struct = false) (f : Field) (hf : v.dtype.fields = [f]) :
    ∃ b, restoreBinary c textOf (flattenOwn c a) = .ok b ∧
      ∀ i, Valid i v.shape → viewElem (restoreView c a.dtype v) (mem b) i = viewElem v (mem a) i := by
  have hnat : ∀ g ∈ a.dtype.fields, g.bo = .na ∨ g.bo = c.native := by
    intro g hg
    unfold byteorder at hb
    split at hb
    · exact absurd hb.symm hn
    · split at hb
      · rename_i g' hfs
        rw [hfs] at hg
        simp only [List.mem_singleton] at hg
        exact .inr (hg ▸ hb)
      · exact absurd hb.symm hn
  obtain ⟨b, hb1, hb2⟩ := base_memory c textOf a hd hw hz hn hc hnat
  refine ⟨b, hb1, ?_⟩
  have : restoreView c a.dtype v = v := by
    unfold restoreView flattenViewSwap
    obtain ⟨shape, ⟨nm, fs, st, lf⟩, off, strd⟩ := v
    obtain ⟨sz, bo⟩ := f
    cases hv; cases hf
    rw [hb]
    cases hcn : c.native <;> cases bo <;> simp_all [byteorder, setBO, swapDT, swapBO]
  intro i _
  rw [this, hb2]

/-! ### satisfiable hypotheses -/

def i2 : DType := ⟨0, [⟨2, .little⟩], false, .num⟩
def i2be : DType := ⟨0, [⟨2, .big⟩], false, .num⟩
def el (a b : UInt8) : Elem := [[a, b]]
def elemOf (i : List Nat) : Elem := el 0 (UInt8.ofNat (i.foldl (fun k x => 10 * k + x) 1))
def cfg0 : Cfg := ⟨some 0, none, .little⟩
def cfgText : Cfg := ⟨none, none, .little⟩
/-- a 2x3 Fortran-ordered big-endian array -/
def fArr : Arr := { shape := [2, 3], dtype := i2be, elem := elemOf, cContig := false, fContig := true }
def cArr : Arr := { shape := [2, 3], dtype := i2, elem := elemOf, cContig := true, fContig := false }

example : ¬ AsText cfg0 fArr := by intro h; exact absurd (h 0 rfl) (by decide)
example : Wf fArr := fun _ _ => rfl
example : Lossless cfg0 := fun z hz => by cases hz
example : OrderKept cfg0 fArr.dtype := .inl ⟨rfl, _, rfl⟩
example : AsText cfgText cArr := fun t ht => by cases ht
example : Valid [1, 2] fArr.shape := by simp [Valid, fArr]

def elems (r : Except Exc Arr) (l : List (List Nat)) : Except Exc (List Nat × List Elem) :=
  match r with
  | .ok a => .ok (a.shape, l.map a.elem)
  | .error e => .error e

/-- the Fortran array above comes back with the same elements -/
example : elems (restoreBinary cfg0 (fun _ => []) (flattenBinary cfg0 fArr)) [[0, 0], [0, 1], [1, 0], [1, 2]]
    = .ok ([2, 3], [elemOf [0, 0], elemOf [0, 1], elemOf [1, 0], elemOf [1, 2]]) := by decide +kernel

/-- a flat view onto a Fortran array stored as text -/
example : AsText cfgText { fArr with dtype := i2 } := fun t ht => by cases ht

/-! ### findings -/

/-- A 0-d array of numbers stored as text (the default for its size) comes back as a one-element 1-d
array. -/
theorem zero_dim_becomes_one_dim (c : Cfg) (textOf : Elem → Str) (a : Arr) (ht : AsText c a)
    (hd : a.shape = []) (hl : a.dtype.leaf = .num) :
    ∃ b, restoreBinary c textOf (flattenBinary c a) = .ok b ∧ b.shape = [1] := by
  have hfl : flattenBinary c a = flattenText c a := by
    unfold flattenBinary
    cases hs : c.sizeThreshold with
    | none => simp
    | some t => simp [ht t hs]
  rw [hfl]
  simp only [flattenText, hd, nest, restoreBinary, setBO, hl]
  exact ⟨_, rfl, rfl⟩

/-- A big-endian array stored as text comes back with the native dtype. -/
theorem text_loses_byteorder :
    ∃ (c : Cfg) (a : Arr) (b : Arr), restoreBinary c (fun _ => []) (flattenBinary c a) = .ok b ∧
      a.dtype = i2be ∧ b.dtype = i2 :=
  ⟨cfgText, { fArr with shape := [2] }, _, rfl, rfl, rfl⟩

/-- `NumpyNDArrayHandlerBinary` used directly: a 2x3 array that is neither C nor Fortran contiguous comes
back with its elements permuted. -/
theorem noncontiguous_permuted :
    elems (restoreBinary cfg0 (fun _ => []) (flattenBinary cfg0 { cArr with cContig := false })) [[0, 1]]
      = .ok ([2, 3], [elemOf [0, 2]]) ∧ elemOf [0, 2] ≠ elemOf [0, 1] := by
  decide +kernel

def structBe : DType := ⟨0, [⟨2, .big⟩], true, .other⟩

/-- A structured dtype with big-endian fields, stored as binary on a little-endian machine, comes back
with every value byte-swapped. -/
theorem struct_byteorder_lost :
    elems (restoreBinary cfg0 (fun _ => [])
      (flattenBinary cfg0 
        { shape := [1], dtype := structBe, elem := fun _ => el 1 2, cContig := true, fContig := true })) [[0]] = .ok ([1], [el 2 1]) := by
  decide +kernel

def memOf (r : Except Exc Arr) : Bytes := match r with | .ok a => mem a | .error _ => []

/-- A view (here: the whole buffer as a flat array) onto a Fortran-ordered base stored as binary reads the
elements in another order after the round trip. -/
theorem fortran_view_wrong :
    let base := { fArr with dtype := i2 }
    let v : View := ⟨[6], i2, 0, none⟩
    let b := restoreBinary cfg0 (fun _ => []) (flattenOwn cfg0 base)
    viewElem v (mem base) [1] = elemOf [1, 0] ∧
    viewElem (restoreView cfg0 base.dtype v) (memOf b) [1] = elemOf [0, 1] := by
  decide +kernel

/-- The same view when the base is stored as text. -/
example :
    let base := { fArr with dtype := i2 }
    let v : View := ⟨[6], i2, 0, none⟩
    let b := restoreBinary cfgText (fun _ => []) (flattenOwn cfgText base)
    viewElem (restoreView cfgText base.dtype v) (memOf b) [1] = elemOf [1, 0] := by
  decide +kernel

/-- A view with the dtype of its big-endian base, stored as binary, reads byte-swapped values. -/
theorem foreign_base_view_wrong :
    let base : Arr := { shape := [2], dtype := i2be, elem := fun _ => el 1 2, cContig := true, fContig := true }
    let v : View := ⟨[1], i2be, 2, none⟩
    let b := restoreBinary cfg0 (fun _ => []) (flattenOwn cfg0 base)
    viewElem v (mem base) [0] = el 1 2 ∧
    viewElem (restoreView cfg0 base.dtype v) (memOf b) [0] = el 2 1 := by
  decide +kernel

/-- A native view onto an array of single bytes (whose byte order is `|`) is marked as swapped and reads
byte-swapped values. -/
theorem bytes_base_view_wrong :
    let u1 : DType := ⟨1, [⟨1, .na⟩], false, .num⟩
    let base : Arr :=
      { shape := [2], dtype := u1, elem := (fun i => if i = [0] then [[1]] else [[2]]), cContig := true, fContig := true }
    let v : View := ⟨[1], i2, 0, none⟩
    let b := restoreBinary cfg0 (fun _ => []) (flattenOwn cfg0 base)
    viewElem v (mem base) [0] = el 2 1 ∧
    viewElem (restoreView cfg0 base.dtype v) (memOf b) [0] = el 1 2 := by
  decide +kernel

/-- the number of elements is the product of the dimensions -/
theorem size_eq (a : Arr) : a.size = a.shape.foldr (· * ·) 1 := by
  have h : ∀ s : List Nat, (idxC s).length = s.foldr (· * ·) 1 := by
    intro s
    induction s with
    | nil => rfl
    | cons n s ih =>
      have : ∀ l : List Nat, (l.flatMap (fun i => (idxC s).map (i :: ·))).length = l.length * (idxC s).length := by
        intro l
        induction l with
        | nil => simp
        | cons x l ihl => simp [List.flatMap_cons, ihl, Nat.add_mul, Nat.add_comm]
      simp [idxC, this, ih]
  exact h _

/-- An array is written as lists exactly when its dimensions multiply to at most the threshold; without a threshold, always. -/
theorem text_iff (c : Cfg) (a : Arr) :
    (∃ n, (flattenBinary c a).values = .plain n) ↔ ∀ t, c.sizeThreshold = some t → a.shape.foldr (· * ·) 1 ≤ t := by
  rw [← size_eq]
  unfold flattenBinary
  cases h : c.sizeThreshold with
  | none => simp [flattenText]
  | some t =>
    by_cases ht : a.size ≤ t
    · simp [flattenText, ht]
    · simp [ht]

/-- a 2×3 array has 6 elements: with threshold 6 it is written as lists, with threshold 5 not -/
example : (∃ n, (flattenBinary { cfg0 with sizeThreshold := some 6 } fArr).values = .plain n) ∧
    ¬ ∃ n, (flattenBinary { cfg0 with sizeThreshold := some 5 } fArr).values = .plain n := by
  rw [text_iff, text_iff]
  refine ⟨fun t h => ?_, fun h => absurd (h 5 rfl) (by decide)⟩
  cases h
  decide

/-- What a view onto a one-dimensional array holds: the slice `a[k::s]` starts `k` elements into the memory and goes on in steps of `s` elements, also backwards. -/
theorem slice_elem (a : Arr) (n : Nat) (hs : a.shape = [n]) (hw : ∀ i, i < n → WfElem a.dtype.fields (a.elem [i])) (m k : Nat) (s : Int) (i : Nat)
    (h0 : 0 ≤ (k : Int) + i * s) (h1 : (k : Int) + i * s < n) :
    viewElem ⟨[m], a.dtype, k * itemsize a.dtype, some [s * itemsize a.dtype]⟩ (mem a) [i] = a.elem [((k : Int) + i * s).toNat] := by
  have hidx : ∀ f, idxs f [n] = (List.range n).map (fun i => [i]) := by
    have hc : idxC [n] = (List.range n).map (fun i => [i]) := by
      simp only [idxC, List.map_cons, List.map_nil]
      induction List.range n with
      | nil => rfl
      | cons x l ih => rw [List.flatMap_cons, ih]; rfl
    intro f
    unfold idxs
    split
    · unfold idxF
      rw [List.reverse_singleton, hc, List.map_map]
      rfl
    · exact hc
  obtain ⟨p, hp⟩ := Int.eq_ofNat_of_zero_le h0
  have hpn : p < n := by omega
  unfold viewElem viewPos
  have hpos : ((k * itemsize a.dtype : Nat) : Int) + (List.zipWith (fun (k : Nat) s => (k : Int) * s) [i] [s * (itemsize a.dtype : Int)]).sum = ((p * itemsize a.dtype : Nat) : Int) := by
    simp only [List.zipWith_cons_cons, List.zipWith_nil_right, List.sum_cons, List.sum_nil, Int.add_zero]
    rw [Int.natCast_mul, Int.natCast_mul, ← Int.mul_assoc, ← Int.add_mul, hp]
  dsimp only
  rw [hpos, hp]
  simp only [Int.toNat_natCast]
  have hm : mem a = layout a.dtype a.elem ((List.range n).map (fun i => [i])) := by
    unfold mem tobytesA
    rw [hs, hidx]
  rw [hm]
  unfold layout
  have hl : p < ((List.range n).map (fun i => [i])).length := by simpa using hpn
  rw [drop_flatMap (fun i => elemMem a.dtype.fields (a.elem i)) (itemsize a.dtype) _ p (fun x hx => by
      obtain ⟨y, hy, rfl⟩ := List.mem_map.1 hx
      exact elemMem_length (hw y (List.mem_range.1 hy))) (Nat.le_of_lt hl), List.drop_eq_getElem_cons hl, List.flatMap_cons]
  have hg : ((List.range n).map (fun i => [i]))[p] = [p] := by simp
  rw [hg]
  exact elemRead_elemMem _ (hw p hpn)

/-- the second element of `a[3::-2]` is `a[1]` -/
example : viewElem ⟨[2], i2be, 3 * itemsize i2be, some [-2 * (itemsize i2be : Int)]⟩ (mem { shape := [5], dtype := i2be, elem := elemOf, cContig := true, fContig := true }) [1] =
    elemOf [(((3 : Nat) : Int) + ((1 : Nat) : Int) * (-2)).toNat] :=
  slice_elem { shape := [5], dtype := i2be, elem := elemOf, cContig := true, fContig := true } 5 rfl (fun _ _ => rfl) 2 3 (-2) 1 (by decide) (by decide)
example : (((3 : Nat) : Int) + ((1 : Nat) : Int) * (-2)).toNat = 1 := by decide

end JP.Numpy.C35
