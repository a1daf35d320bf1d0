import Verif.PandasTypes
import Verif.Props.C21
import Verif.Props.C22
/-!
# C61 — pandas objects
-/
namespace JP.PandasTypes.C61
open JP PandasTypes

/-- `None`, booleans, numbers, strings -/
def Scalar : Py → Prop
  | .none | .bool _ | .int _ | .float _ | .str _ => True
  | _ => False

/-- the compressor can decompress what it compressed -/
def Faithful (p : Pandas.Proc) : Prop := ∀ c, p.compression = some c → JP.Pandas.C22.Faithful c

/-- the list is encoded and decoded without loss, and its text can be stored -/
def Stored (c : Codec) (p : Pandas.Proc) (vs : List Py) : Prop :=
  ∃ t d, c.encL false vs = .ok t ∧ c.decL false t = .ok vs ∧ Pandas.flattenPandas p t 0 = .ok d

/-- rows of a table with `n` columns -/
def Rows (n : Nat) (vs : List Py) : Prop := ∀ v ∈ vs, ∃ xs, v = .tuple xs ∧ xs.length = n

/-! ### lemmas -/

theorem rawL_scalar : ∀ {xs : List Py}, (∀ x ∈ xs, Scalar x) → rawL xs = .ok xs
  | [], _ => rfl
  | x :: xs, h => by
    have h1 : raw x = .ok x := by
      have := h x (by simp)
      cases x <;> first | rfl | cases this
    unfold rawL
    rw [h1, rawL_scalar (fun y hy => h y (by simp [hy]))]

theorem raw_scalar {x : Py} (h : Scalar x) : raw x = .ok x := by
  cases x <;> first | rfl | cases h

/-- only scalars come back hashable -/
theorem raw_hashable {x y : Py} (h : raw x = .ok y) (hy : hashable y = true) : Scalar x ∧ y = x := by
  cases x with
  | tuple xs =>
    unfold raw at h
    split at h
    · cases h; cases hy
    · cases h
  | list xs =>
    unfold raw at h
    split at h
    · cases h; cases hy
    · cases h
  | coll n => cases h
  | other n => cases h
  | _ => cases h; exact ⟨trivial, rfl⟩

theorem rawL_hashable : ∀ {xs ys : List Py}, rawL xs = .ok ys → hashableL ys = true → (∀ x ∈ xs, Scalar x) ∧ ys = xs
  | [], ys, h, _ => by cases h; exact ⟨by simp, rfl⟩
  | x :: xs, ys, h, hy => by
    unfold rawL at h
    split at h
    · next y zs h1 h2 =>
      cases h
      unfold hashableL at hy
      simp only [Bool.and_eq_true] at hy
      obtain ⟨a, b⟩ := raw_hashable h1 hy.1
      obtain ⟨c, d⟩ := rawL_hashable h2 hy.2
      refine ⟨?_, by rw [b, d]⟩
      intro z hz
      rcases List.mem_cons.1 hz with e | e
      · rw [e]; exact a
      · exact c z e
    · cases h
    · cases h

theorem hashableL_scalar : ∀ {xs : List Py}, (∀ x ∈ xs, Scalar x) → hashableL xs = true
  | [], _ => rfl
  | x :: xs, h => by
    have h1 : hashable x = true := by
      have := h x (by simp)
      cases x <;> first | rfl | cases this
    unfold hashableL
    rw [h1, hashableL_scalar (fun y hy => h y (by simp [hy]))]
    rfl

/-- what is packed is unpacked, with metadata that went through the backend -/
theorem unpack_wire {p : Pandas.Proc} (hp : Faithful p) {t : Str} {dd : Pandas.Data} (h : Pandas.flattenPandas p t 0 = .ok dd) (m : List (Str × Py)) :
    unpack p { data := dd, info := m } = .ok (t, m) := by
  unfold unpack
  rw [JP.Pandas.C22.pandas_roundtrip p hp t 0 dd h]

theorem pack_ok {p : Pandas.Proc} {t : Str} {dd : Pandas.Data} (h : Pandas.flattenPandas p t 0 = .ok dd) (m : List (Str × Py)) :
    pack p t m = .ok { data := dd, info := m } := by
  unfold pack
  rw [h]

/-- the empty text is stored whenever the threshold is not negative -/
theorem pack_empty (p : Pandas.Proc) : ∃ dd, Pandas.flattenPandas p [] 0 = .ok dd := by
  unfold Pandas.flattenPandas
  split
  · rw [if_neg (by simp)]; exact ⟨_, rfl⟩
  · exact ⟨_, rfl⟩

/-- a list of tuples is made into a `MultiIndex` -/
def Tupled (vs : List Py) : Bool := !vs.isEmpty && vs.all isTuple

theorem trip_plain {c : Codec} {mk : List Py → Str → Py → Except Exc Index} {p : Pandas.Proc} (hp : Faithful p) {ix : Index} (hn : ix.names = none) (hs : Stored c p ix.values) :
    tripWith c p mk ix = match raw ix.name with
      | .error e => .error e
      | .ok .none => mk ix.values ix.dtype .none
      | .ok v => match toTuple v with
        | .ok t => mk ix.values ix.dtype t
        | .error e => .error e := by
  obtain ⟨t, dd, h1, h2, h3⟩ := hs
  unfold tripWith flattenIndex nameBundle
  rw [h1, hn]
  simp only [bind, Except.bind, pack_ok h3]
  unfold Doc.wire
  simp only [rawKvs, raw]
  cases hr : raw ix.name with
  | error e => rfl
  | ok v =>
    simp only
    unfold restoreIndex
    simp only [bind, Except.bind, unpack_wire hp h3]
    have hk : ¬ (p!"dtype" = p!"name" ∨ p!"dtype" = p!"names") := by decide
    have hk' : (p!"name" = p!"name" ∨ p!"name" = p!"names") := .inl rfl
    have hd : dtypeOf [(p!"dtype", Py.str ix.dtype), (p!"name", v)] = ix.dtype := by
      unfold dtypeOf; rw [dget, if_pos rfl]
    unfold bundle
    rw [if_neg hk]
    unfold bundle
    rw [if_pos hk']
    cases v <;> simp only [toTuple, bundle, h2, hd]

theorem plain_iff {c : Codec} {make : List Py → Str → Py → Except Exc Index} {p : Pandas.Proc} (hp : Faithful p) {ix : Index} (hn : ix.names = none) (hs : Stored c p ix.values)
    (mk : ∀ n, make ix.values ix.dtype n = if hashable n then .ok { ix with name := n } else .error .typeError) :
    tripWith c p make ix = .ok ix ↔ ix.name = .none ∨ ∃ xs, ix.name = .tuple xs ∧ ∀ x ∈ xs, Scalar x := by
  have key : ∀ n, make ix.values ix.dtype n = .ok ix ↔ hashable n = true ∧ n = ix.name := by
    intro n
    rw [mk]
    constructor
    · intro h
      split at h
      · next hh =>
        injection h with h
        exact ⟨hh, congrArg Index.name h⟩
      · cases h
    · rintro ⟨hh, e⟩
      rw [if_pos hh, e]
  rw [trip_plain hp hn hs]
  cases hx : ix.name with
  | none => simp [raw, key, hx, hashable]
  | bool b => simp [raw, toTuple]
  | int i => simp [raw, toTuple]
  | float f => simp [raw, toTuple]
  | str s => simp [raw, toTuple, key, hx]
  | coll n => simp [raw]
  | other n => simp [raw]
  | list xs =>
    simp only [raw]
    cases hr : rawL xs with
    | error e => simp
    | ok ys => simp [toTuple, key, hx]
  | tuple xs =>
    simp only [raw]
    cases hr : rawL xs with
    | error e =>
      simp only [reduceCtorEq, false_or, false_iff]
      rintro ⟨zs, e1, e2⟩
      injection e1 with e1
      subst e1
      rw [rawL_scalar e2] at hr
      cases hr
    | ok ys =>
      simp only [toTuple, key, hx]
      constructor
      · rintro ⟨h1, h2⟩
        exact .inr ⟨xs, rfl, (rawL_hashable hr h1).1⟩
      · rintro (h | ⟨zs, e1, e2⟩)
        · cases h
        · injection e1 with e1
          subst e1
          rw [rawL_scalar e2] at hr
          cases hr
          exact ⟨hashableL_scalar e2, rfl⟩

/-- **A plain index comes back** exactly if its name is `None` or a tuple of scalars.  (The name is passed through `tuple`.) -/
theorem index_iff {c : Codec} {L : Lib} {p : Pandas.Proc} (hp : Faithful p) {ix : Index} (hn : ix.names = none) (hs : Stored c p ix.values)
    (ht : Tupled ix.values = false) (hc : L.convert ix.dtype ix.values = .ok ix.values) :
    tripIndex c L p ix = .ok ix ↔ ix.name = .none ∨ ∃ xs, ix.name = .tuple xs ∧ ∀ x ∈ xs, Scalar x := by
  refine plain_iff hp hn hs ?_
  intro n
  unfold mkIndex
  unfold Tupled at ht
  rw [ht, hc]
  cases hh : hashable n with
  | false => rfl
  | true => rw [← hn]; rfl

/-- The same for a `PeriodIndex`. -/
theorem period_index_iff {c : Codec} {L : Lib} {p : Pandas.Proc} (hp : Faithful p) {ix : Index} (hn : ix.names = none) (hs : Stored c p ix.values)
    (hc : L.convert ix.dtype ix.values = .ok ix.values) :
    tripPeriodIndex c L p ix = .ok ix ↔ ix.name = .none ∨ ∃ xs, ix.name = .tuple xs ∧ ∀ x ∈ xs, Scalar x := by
  refine plain_iff hp hn hs ?_
  intro n
  unfold mkPeriodIndex
  rw [hc]
  cases hh : hashable n with
  | false => rfl
  | true => rw [← hn]; rfl

/-- **An index named by a text comes back with another name**: the tuple of its characters. -/
theorem index_text_name {c : Codec} {L : Lib} {p : Pandas.Proc} (hp : Faithful p) {ix : Index} {s : Str} (hx : ix.name = .str s) (hn : ix.names = none)
    (hs : Stored c p ix.values) (ht : Tupled ix.values = false) (hc : L.convert ix.dtype ix.values = .ok ix.values) :
    tripIndex c L p ix = .ok { ix with name := .tuple (s.map (fun ch => .str [ch])) } := by
  unfold tripIndex
  rw [trip_plain hp hn hs, hx]
  simp only [raw, toTuple]
  have hh : hashable (.tuple (s.map (fun ch => Py.str [ch]))) = true := by
    show hashableL _ = true
    refine hashableL_scalar ?_
    intro x hx
    obtain ⟨ch, _, e⟩ := List.mem_map.1 hx
    subst e
    trivial
  unfold mkIndex
  unfold Tupled at ht
  rw [ht, hc, hh, ← hn]
  rfl

/-- An index named by a number does not come back at all. -/
theorem index_number_name {c : Codec} {L : Lib} {p : Pandas.Proc} (hp : Faithful p) {ix : Index} {i : Int} (hx : ix.name = .int i) (hn : ix.names = none)
    (hs : Stored c p ix.values) : tripIndex c L p ix = .error .typeError := by
  unfold tripIndex
  rw [trip_plain hp hn hs, hx]
  rfl

/-! ### rows -/

theorem rows_width {n : Nat} : ∀ {vs : List Py}, Rows n vs → vs ≠ [] → width vs = n
  | [], _, h => absurd rfl h
  | v :: vs, hr, _ => by
    obtain ⟨xs, e, hl⟩ := hr v (by simp)
    subst e
    unfold width
    rw [hl]
    cases vs with
    | nil => simp [width]
    | cons w ws => rw [rows_width (fun u hu => hr u (by simp [hu])) (by simp)]; simp

theorem rows_pad {n : Nat} : ∀ {vs : List Py}, Rows n vs → vs.map (padRow n) = vs
  | [], _ => rfl
  | v :: vs, hr => by
    obtain ⟨xs, e, hl⟩ := hr v (by simp)
    subst e
    rw [List.map_cons, rows_pad (fun u hu => hr u (by simp [hu]))]
    simp [padRow, hl]

theorem rows_tupled {n : Nat} {vs : List Py} (hr : Rows n vs) (hne : vs ≠ []) : Tupled vs = true := by
  unfold Tupled
  have h1 : vs.all isTuple = true := by
    rw [List.all_eq_true]
    intro v hv
    obtain ⟨xs, e, _⟩ := hr v hv
    subst e
    rfl
  rw [h1]
  cases vs with
  | nil => exact absurd rfl hne
  | cons => rfl

theorem fromTuples_rows {ns : List Py} {vs : List Py} (hr : Rows ns.length vs) (h0 : ns ≠ []) (hh : hashableL ns = true) :
    fromTuples vs (.tuple ns) = .ok { values := vs, dtype := p!"object", name := .none, names := some ns } ∧
      fromTuples vs (.list ns) = .ok { values := vs, dtype := p!"object", name := .none, names := some ns } := by
  have hl : ns.length ≠ 0 := by
    intro e; exact h0 (List.length_eq_zero_iff.1 e)
  unfold fromTuples
  dsimp only
  cases vs with
  | nil => simp [hh, h0]
  | cons v vs =>
    rw [rows_width hr (by simp), rows_pad hr]
    simp [hl, hh]

theorem trip_multi {c : Codec} {L : Lib} {p : Pandas.Proc} (hp : Faithful p) {ix : Index} {ns : List Py} (hn : ix.names = some ns) (hs : Stored c p ix.values)
    (hsc : ∀ x ∈ ns, Scalar x) : tripIndex c L p ix = mkIndex L ix.values ix.dtype (.tuple ns) := by
  obtain ⟨t, dd, h1, h2, h3⟩ := hs
  unfold tripIndex tripWith flattenIndex nameBundle
  rw [h1, hn]
  simp only [bind, Except.bind, pack_ok h3]
  unfold Doc.wire
  simp only [rawKvs, raw, rawL_scalar hsc]
  unfold restoreIndex
  simp only [bind, Except.bind, unpack_wire hp h3]
  have hk : ¬ (p!"dtype" = p!"name" ∨ p!"dtype" = p!"names") := by decide
  have hk' : (p!"names" = p!"name" ∨ p!"names" = p!"names") := .inr rfl
  have hd : dtypeOf [(p!"dtype", Py.str ix.dtype), (p!"names", .list ns)] = ix.dtype := by
    unfold dtypeOf; rw [dget, if_pos rfl]
  unfold bundle
  rw [if_neg hk]
  unfold bundle
  rw [if_pos hk']
  simp only [toTuple, bundle, h2, hd]

/-- **A `MultiIndex` comes back** if it is not empty and the names of its levels are scalars. -/
theorem multi_roundtrip {c : Codec} {L : Lib} {p : Pandas.Proc} (hp : Faithful p) {ix : Index} {ns : List Py} (hn : ix.names = some ns)
    (hd : ix.dtype = p!"object") (hm : ix.name = .none) (hs : Stored c p ix.values) (hr : Rows ns.length ix.values) (hne : ix.values ≠ []) (h0 : ns ≠ [])
    (hsc : ∀ x ∈ ns, Scalar x) : tripIndex c L p ix = .ok ix := by
  rw [trip_multi hp hn hs hsc]
  have ht := rows_tupled hr hne
  unfold Tupled at ht
  unfold mkIndex
  have hh : hashable (.tuple ns) = true := hashableL_scalar hsc
  rw [hh, ht]
  simp only [Bool.not_true, Bool.false_eq_true, if_false, if_true]
  rw [(fromTuples_rows hr h0 (hashableL_scalar hsc)).1, ← hd, ← hm, ← hn]

/-- An empty `MultiIndex` comes back as a plain index whose name is the tuple of the names of the levels. -/
theorem multi_empty {c : Codec} {L : Lib} {p : Pandas.Proc} (hp : Faithful p) {ix : Index} {ns : List Py} (hn : ix.names = some ns)
    (he : ix.values = []) (hs : Stored c p []) (hc : L.convert ix.dtype [] = .ok []) (hsc : ∀ x ∈ ns, Scalar x) :
    tripIndex c L p ix = .ok { values := [], dtype := ix.dtype, name := .tuple ns, names := none } := by
  rw [trip_multi hp hn (he ▸ hs) hsc]
  unfold mkIndex
  have hh : hashable (.tuple ns) = true := hashableL_scalar hsc
  rw [hh, he, hc]
  rfl

/-- A plain index of tuples comes back as a `MultiIndex`. -/
theorem tuples_become_multi {c : Codec} {L : Lib} {p : Pandas.Proc} (hp : Faithful p) {ix : Index} (hn : ix.names = none) (hm : ix.name = .none)
    (hs : Stored c p ix.values) {n : Nat} (hr : Rows n ix.values) (hne : ix.values ≠ []) (h0 : n ≠ 0) :
    ∃ ns, tripIndex c L p ix = .ok { values := ix.values, dtype := p!"object", name := .none, names := some ns } := by
  unfold tripIndex
  rw [trip_plain hp hn hs, hm]
  simp only [raw]
  have ht := rows_tupled hr hne
  unfold Tupled at ht
  unfold mkIndex
  rw [ht]
  simp only [hashable, Bool.not_true, Bool.false_eq_true, if_false, if_true]
  unfold fromTuples
  dsimp only
  rw [rows_width hr hne, rows_pad hr]
  simp [h0, hne]

/-- Tuples of different lengths come back as rows of the same length: what the shorter ones lack is NaN afterwards. -/
theorem short_rows_filled {c : Codec} {L : Lib} {p : Pandas.Proc} (hp : Faithful p) {ix : Index} (hn : ix.names = none) (hm : ix.name = .none)
    {rows : List (List Py)} (hv : ix.values = rows.map Py.tuple) (hs : Stored c p ix.values) {n : Nat} (hle : ∀ r ∈ rows, r.length ≤ n) {r : List Py} (hr : r ∈ rows)
    (hl : r.length = n) (h0 : n ≠ 0) :
    ∃ ns, tripIndex c L p ix = .ok { values := rows.map (fun r => Py.tuple (r ++ List.replicate (n - r.length) (.float 0x7FF8000000000000))), dtype := p!"object", name := .none, names := some ns } := by
  have hw : ∀ rs : List (List Py), (∀ r ∈ rs, r.length ≤ n) → width (rs.map Py.tuple) ≤ n ∧ ∀ r ∈ rs, r.length ≤ width (rs.map Py.tuple) := by
    intro rs
    induction rs with
    | nil => intro _; exact ⟨Nat.zero_le _, by simp⟩
    | cons x rs ih =>
      intro h
      obtain ⟨i1, i2⟩ := ih (fun r hr => h r (List.mem_cons_of_mem _ hr))
      have hx := h x (List.mem_cons_self ..)
      refine ⟨by simp only [List.map_cons, width]; omega, fun r hr => ?_⟩
      simp only [List.map_cons, width]
      rcases List.mem_cons.1 hr with e | hr
      · subst e; omega
      · have := i2 r hr; omega
  obtain ⟨w1, w2⟩ := hw rows hle
  have hwn : width (rows.map Py.tuple) = n := by have := w2 r hr; omega
  have hne : rows ≠ [] := by intro h; subst h; cases hr
  unfold tripIndex
  rw [trip_plain hp hn hs, hm, hv]
  simp only [raw]
  have ht : Tupled (rows.map Py.tuple) = true := by
    cases rows with
    | nil => exact absurd rfl hne
    | cons x rs => simp [Tupled, isTuple]
  unfold Tupled at ht
  unfold mkIndex
  rw [ht]
  simp only [hashable, Bool.not_true, Bool.false_eq_true, if_false, if_true]
  unfold fromTuples
  dsimp only
  rw [hwn]
  simp [h0, hne, padRow]

/-- … and named by a text, as one whose levels are named by the characters, or not at all if their number is another. -/
theorem tuples_text_name {c : Codec} {L : Lib} {p : Pandas.Proc} (hp : Faithful p) {ix : Index} (hn : ix.names = none) {s : Str} (hx : ix.name = .str s)
    (hs : Stored c p ix.values) {n : Nat} (hr : Rows n ix.values) (hne : ix.values ≠ []) (h0 : n ≠ 0) :
    tripIndex c L p ix = if s.length = n then .ok { values := ix.values, dtype := p!"object", name := .none, names := some (s.map (fun ch => .str [ch])) } else .error .valueError := by
  unfold tripIndex
  rw [trip_plain hp hn hs, hx]
  simp only [raw, toTuple]
  have hh : hashableL (s.map (fun ch => Py.str [ch])) = true := by
    refine hashableL_scalar ?_
    intro x hx
    obtain ⟨ch, _, e⟩ := List.mem_map.1 hx
    subst e
    trivial
  have ht := rows_tupled hr hne
  unfold Tupled at ht
  unfold mkIndex
  rw [ht, show hashable (.tuple (s.map (fun ch => Py.str [ch]))) = true from hh]
  simp only [Bool.not_true, Bool.false_eq_true, if_false, if_true]
  unfold fromTuples
  dsimp only
  rw [rows_width hr hne, rows_pad hr, hh]
  by_cases hl : s.length = n
  · simp [h0, hne, hl]
  · simp [h0, hne, hl]

/-- A frame with two columns of the same label cannot be encoded. -/
theorem equal_columns {c : Codec} {L : Lib} {p : Pandas.Proc} {T : Types} {same : Py → Py → Bool} {f : Frame} {as bs cs : List Py} {x y : Py}
    (hl : f.columns.labels = as ++ x :: bs ++ y :: cs) (hs : same x y = true) : tripFrame c L p T same f = .error .attributeError := by
  have hd : ∀ as : List Py, distinct same (as ++ x :: bs ++ y :: cs) = false := by
    intro as
    induction as with
    | nil => simp [distinct, hs]
    | cons a as ih =>
      rw [List.cons_append, List.cons_append, distinct, ih]
      simp
  unfold tripFrame flattenFrame
  rw [hl, hd]
  rfl

/-! ### series -/

/-- **A series comes back**, given its index does, exactly if its name is a scalar. -/
theorem series_iff {c : Codec} {L : Lib} {p : Pandas.Proc} {s : Series} (hi : tripIndex c L p s.index = .ok s.index) :
    tripSeries c L p s = .ok s ↔ Scalar s.name := by
  unfold tripSeries
  rw [hi]
  cases hr : raw s.name with
  | error e =>
    simp only [bind, Except.bind, reduceCtorEq, false_iff]
    intro h
    rw [raw_scalar h] at hr
    cases hr
  | ok v =>
    simp only [bind, Except.bind, mkSeries]
    constructor
    · intro h
      split at h
      · next hh => exact (raw_hashable hr hh).1
      · cases h
    · intro h
      rw [raw_scalar h] at hr
      cases hr
      have : hashable s.name = true := by
        revert h
        cases s.name <;> intro h <;> first | rfl | cases h
      rw [if_pos this]

/-! ### data frames -/

/-- the list is encoded with `keys=True` and decoded without loss -/
def Kept (c : Codec) (vs : List Py) : Prop := ∃ t, c.encL true vs = .ok t ∧ c.decL true t = .ok vs

/-- a list, tuple, dict, set or array -/
inductive Coll : Py → Prop
  | tuple (xs : List Py) : Coll (.tuple xs)
  | list (xs : List Py) : Coll (.list xs)
  | other (n : Nat) : Coll (.coll n)

/-- a column of objects some of which are collections -/
def Mixed (col : Column) : Prop := col.dtype = p!"object" ∧ ∃ x ∈ col.values, Coll x

theorem mixed_iff (col : Column) : (col.dtype = p!"object" ∧ col.values.any isColl = true) ↔ Mixed col := by
  unfold Mixed
  rw [List.any_eq_true]
  have : ∀ x, isColl x = true ↔ Coll x := by
    intro x
    constructor
    · intro h
      cases x <;> first | exact .tuple _ | exact .list _ | exact .other _ | cases h
    · intro h
      cases h <;> rfl
  simp only [this]

/-- a column whose values and type survive: either its cells are encoded one by one, or its dtype is in the table -/
def GoodColumn (c : Codec) (L : Lib) (T : Types) (col : Column) : Prop :=
  L.convert col.dtype col.values = .ok col.values ∧
  ((Mixed col ∧ ∀ x ∈ col.values, ∃ t, c.enc x = .ok t ∧ c.dec t = .ok x) ∨
   (¬ Mixed col ∧ ∃ tag, dget col.dtype T.tag = some tag ∧ dget tag T.name = some col.dtype ∧ tag ≠ p!"py/jp"))

/-- what is written as name of an axis: the name, or the names of the levels -/
def labelsOf (a : Axis) : List Py := a.names.getD [a.name]

/-- a plain axis, or one of levels with rows of the right length -/
def GoodAxis (a : Axis) : Prop :=
  a.names = none ∨ ∃ ns, a.names = some ns ∧ a.name = .none ∧ ns ≠ [] ∧ Rows ns.length a.labels

theorem lookup_mem {same : Py → Py → Bool} {k : Py} {v : List Py} : ∀ {l : List (Py × List Py)},
    (∀ x ∈ l.map (·.1), ∀ y ∈ l.map (·.1), same x y = true ↔ x = y) → (l.map (·.1)).Nodup → (k, v) ∈ l → PandasTypes.lookup same k l = .ok v
  | (k', v') :: r, hs, hn, h => by
    unfold PandasTypes.lookup
    rw [List.map_cons, List.nodup_cons] at hn
    rcases List.mem_cons.1 h with h | h
    · injection h with h1 h2
      subst h1 h2
      rw [if_pos ((hs k (by simp) k (by simp)).2 rfl)]
    · have hk : k ∈ r.map (·.1) := List.mem_map.2 ⟨_, h, rfl⟩
      have hne : k ≠ k' := fun e => hn.1 (e ▸ hk)
      rw [if_neg (fun e => hne ((hs k (by simp only [List.map_cons, List.mem_cons]; exact .inr hk) k' (by simp)).1 e))]
      exact lookup_mem (fun x hx y hy => hs x (List.mem_cons_of_mem _ hx) y (List.mem_cons_of_mem _ hy)) hn.2 h

theorem mapE_enc {c : Codec} : ∀ {xs : List Py}, (∀ x ∈ xs, ∃ t, c.enc x = .ok t ∧ c.dec t = .ok x) →
    ∃ ts, mapE c.enc xs = .ok ts ∧ mapE c.dec ts = .ok xs
  | [], _ => ⟨[], rfl, rfl⟩
  | x :: xs, h => by
    obtain ⟨t, h1, h2⟩ := h x (by simp)
    obtain ⟨ts, h3, h4⟩ := mapE_enc (fun y hy => h y (List.mem_cons_of_mem _ hy))
    refine ⟨t :: ts, ?_, ?_⟩
    · unfold mapE; rw [h1, h3]
    · unfold mapE; rw [h2, h4]

theorem mapE_asStr : ∀ (ts : List Str), mapE asStr (ts.map Py.str) = .ok ts
  | [] => rfl
  | t :: ts => by
    rw [List.map_cons]
    unfold mapE
    rw [mapE_asStr ts]
    rfl

/-- A column of documents whose first item is no text is refused. -/
theorem not_text {c : Codec} {L : Lib} {T : Types} {same : Py → Py → Bool} {l v : Py} {vs : List Py} {cols : List (Py × List Py)}
    (h : PandasTypes.lookup same l cols = .ok (v :: vs)) (hv : ∀ s, v ≠ .str s) : restoreColumn c L T same cols (l, p!"py/jp") = .error .typeError := by
  have h1 : asStr v = .error .typeError := by
    cases v <;> first | rfl | exact absurd rfl (hv _)
  unfold restoreColumn
  rw [h]
  simp only [bind, Except.bind, if_true]
  unfold mapE
  rw [h1]

example {c : Codec} {L : Lib} {T : Types} : restoreColumn c L T (fun _ _ => true) [(.str p!"a", [.int 1])] (.str p!"a", p!"py/jp") = .error .typeError :=
  not_text rfl (fun s h => by cases h)

theorem column_back {c : Codec} {L : Lib} {T : Types} {same : Py → Py → Bool} {col : Column} (h : GoodColumn c L T col) :
    ∃ fc, flattenColumn c T col = .ok fc ∧ ∀ l cols, PandasTypes.lookup same l cols = .ok fc.1 →
      restoreColumn c L T same cols (l, fc.2) = .ok col := by
  obtain ⟨hc, ⟨hm, h3⟩ | ⟨h1, tag, h2, h3, h4⟩⟩ := h
  · obtain ⟨ts, h4, h5⟩ := mapE_enc h3
    refine ⟨(ts.map Py.str, p!"py/jp"), ?_, ?_⟩
    · unfold flattenColumn
      rw [if_pos ((mixed_iff col).2 hm), h4]
    · intro l cols hl
      rw [hm.1] at hc
      unfold restoreColumn
      rw [hl]
      simp only [bind, Except.bind, if_true, mapE_asStr, h5, hc, pure, Except.pure]
      rw [← hm.1]
  · refine ⟨(col.values, tag), ?_, ?_⟩
    · unfold flattenColumn
      rw [if_neg (fun h => h1 ((mixed_iff col).1 h)), h2]
      rfl
    · intro l cols hl
      unfold restoreColumn
      rw [hl]
      simp only [bind, Except.bind]
      rw [if_neg h4, h3]
      simp only [Option.getD_some, hc, pure, Except.pure]

theorem columns_back {c : Codec} {L : Lib} {T : Types} {same : Py → Py → Bool} : ∀ {data : List Column}, (∀ col ∈ data, GoodColumn c L T col) →
    ∃ fcs, mapE (flattenColumn c T) data = .ok fcs ∧ fcs.length = data.length ∧
      ∀ (labels : List Py) (cols : List (Py × List Py)), labels.length = data.length → (∀ lv ∈ labels.zip (fcs.map (·.1)), PandasTypes.lookup same lv.1 cols = .ok lv.2) →
        mapE (restoreColumn c L T same cols) (labels.zip (fcs.map (·.2))) = .ok data
  | [], _ => ⟨[], rfl, rfl, fun labels cols _ _ => by simp [mapE]⟩
  | col :: data, h => by
    obtain ⟨fc, h1, h2⟩ := column_back (same := same) (h col (by simp))
    obtain ⟨fcs, h3, h4, h5⟩ := columns_back (same := same) (data := data) (fun x hx => h x (List.mem_cons_of_mem _ hx))
    refine ⟨fc :: fcs, ?_, by simp [h4], ?_⟩
    · unfold mapE; rw [h1, h3]
    · intro labels cols hl hlook
      cases labels with
      | nil => cases hl
      | cons l labels =>
        rw [List.map_cons, List.zip_cons_cons] at hlook ⊢
        unfold mapE
        rw [h2 l cols (hlook (l, fc.1) (by simp))]
        rw [h5 labels cols (by simpa using hl) (fun lv hlv => hlook lv (List.mem_cons_of_mem _ hlv))]

theorem distinct_of_nodup {same : Py → Py → Bool} : ∀ {l : List Py}, (∀ x ∈ l, ∀ y ∈ l, same x y = true ↔ x = y) → l.Nodup → distinct same l = true
  | [], _, _ => rfl
  | x :: xs, hs, hn => by
    rw [List.nodup_cons] at hn
    unfold distinct
    rw [distinct_of_nodup (fun a ha b hb => hs a (List.mem_cons_of_mem _ ha) b (List.mem_cons_of_mem _ hb)) hn.2]
    have : xs.any (same x) = false := by
      rw [List.any_eq_false]
      intro y hy e
      have := (hs x (by simp) y (List.mem_cons_of_mem _ hy)).1 e
      exact hn.1 (this ▸ hy)
    rw [this]
    rfl

/-- the columns come back exactly if their names are scalars -/
theorem columns_iff {a : Axis} (ha : GoodAxis a) {y : Py} (hy : raw a.anyName = .ok y) :
    ((∃ b, restoreColumns a.names.isSome a.labels y = .ok b) ↔ ∀ x ∈ labelsOf a, Scalar x) ∧
    ∀ b, restoreColumns a.names.isSome a.labels y = .ok b → b = a := by
  obtain ⟨ls, nm, nms⟩ := a
  rcases ha with h | ⟨ns, h, hn, h0, hr⟩
  · dsimp only at h
    subst h
    unfold labelsOf restoreColumns
    unfold Axis.anyName at hy
    simp only [Option.isSome_none, Bool.false_eq_true, if_false, Option.getD_none, List.mem_singleton, forall_eq]
    dsimp only at hy
    constructor
    · constructor
      · rintro ⟨b, hb⟩
        split at hb
        · next hh => exact (raw_hashable hy hh).1
        · cases hb
      · intro hsc
        rw [raw_scalar hsc] at hy
        injection hy with hy
        subst hy
        have : hashable nm = true := by revert hsc; cases nm <;> intro h <;> first | rfl | cases h
        rw [if_pos this]
        exact ⟨_, rfl⟩
    · intro b hb
      split at hb
      · next hh =>
        injection hb with hb
        rw [← hb, (raw_hashable hy hh).2]
      · cases hb
  · dsimp only at h hn hr
    subst h hn
    unfold labelsOf restoreColumns
    unfold Axis.anyName at hy
    simp only [Option.isSome_some, if_true, Option.getD_some]
    simp only [raw] at hy
    cases hl : rawL ns with
    | error e => rw [hl] at hy; cases hy
    | ok ys =>
      rw [hl] at hy
      injection hy with hy
      subst hy
      have key : ∀ b, (do let ix ← fromTuples ls (Py.list ys); pure ix.axis : Except Exc Axis) = .ok b → hashableL ys = true := by
        intro b hb
        cases hh : hashableL ys with
        | true => rfl
        | false =>
          exfalso
          have : ∀ ix, fromTuples ls (Py.list ys) ≠ .ok ix := by
            intro ix e
            unfold fromTuples at e
            simp only [hh, Bool.not_false, if_true] at e
            split at e
            · cases e
            · split at e <;> cases e
          cases hf : fromTuples ls (Py.list ys) with
          | error e => rw [hf] at hb; cases hb
          | ok ix => exact this ix hf
      constructor
      · constructor
        · rintro ⟨b, hb⟩
          exact (rawL_hashable hl (key b hb)).1
        · intro hsc
          rw [rawL_scalar hsc] at hl
          injection hl with hl
          subst hl
          rw [(fromTuples_rows hr h0 (hashableL_scalar hsc)).2]
          exact ⟨_, rfl⟩
      · intro b hb
        have hh := key b hb
        obtain ⟨hsc, e⟩ := rawL_hashable hl hh
        subst e
        rw [(fromTuples_rows hr h0 hh).2] at hb
        cases hb
        rfl

/-- the same for the index, which pandas builds itself: the labels must not look like rows -/
theorem index_axis {L : Lib} {a : Axis} (ht : a.names = none → Tupled a.labels = false ∧ L.convert (L.infer a.labels) a.labels = .ok a.labels) (y : Py) :
    restoreIndexAxis L a.names.isSome a.labels y = restoreColumns a.names.isSome a.labels y := by
  unfold restoreIndexAxis restoreColumns
  cases hn : a.names with
  | some ns => rfl
  | none =>
    obtain ⟨h1, h2⟩ := ht hn
    simp only [Option.isSome_none, Bool.false_eq_true, if_false]
    unfold mkIndex
    unfold Tupled at h1
    rw [h1, h2]
    cases hashable y <;> rfl

theorem raw_anyName {a : Axis} (h : ∀ x ∈ labelsOf a, Scalar x) : ∃ y, raw a.anyName = .ok y := by
  obtain ⟨ls, nm, nms⟩ := a
  cases nms with
  | none => exact ⟨_, raw_scalar (h nm (by simp [labelsOf]))⟩
  | some ns =>
    refine ⟨.list ns, ?_⟩
    show raw (.list ns) = _
    unfold raw
    rw [rawL_scalar (xs := ns) h]

/-- **A data frame comes back** exactly if the names of its index and of its columns are scalars (given that its columns, and the labels
of its index, survive on their own). -/
theorem frame_iff {c : Codec} {L : Lib} {p : Pandas.Proc} {T : Types} {same : Py → Py → Bool} (hp : Faithful p) {f : Frame}
    (hs : ∀ x ∈ f.columns.labels, ∀ y ∈ f.columns.labels, same x y = true ↔ x = y) (hnd : f.columns.labels.Nodup) (hlen : f.columns.labels.length = f.data.length)
    (hcol : ∀ col ∈ f.data, GoodColumn c L T col) (hk1 : Kept c f.columns.labels) (hk2 : Kept c f.index.labels)
    (hd : ∀ fcs, mapE (flattenColumn c T) f.data = .ok fcs → ∃ t d, c.encD (f.columns.labels.zip (fcs.map (·.1))) = .ok t ∧
      c.decD t = .ok (f.columns.labels.zip (fcs.map (·.1))) ∧ Pandas.flattenPandas p t 0 = .ok d)
    (ha : GoodAxis f.columns) (hb : GoodAxis f.index)
    (ht : f.index.names = none → Tupled f.index.labels = false ∧ L.convert (L.infer f.index.labels) f.index.labels = .ok f.index.labels) :
    tripFrame c L p T same f = .ok f ↔ ∀ x ∈ labelsOf f.columns ++ labelsOf f.index, Scalar x := by
  obtain ⟨fcs, g1, g2, g3⟩ := columns_back (same := same) hcol
  obtain ⟨t, dd, e1, e2, e3⟩ := hd fcs g1
  obtain ⟨t1, k1, k2⟩ := hk1
  obtain ⟨t2, k3, k4⟩ := hk2
  have hz : (f.columns.labels.zip (fcs.map (·.1))).map (·.1) = f.columns.labels := by
    rw [List.map_fst_zip]
    simp [g2, hlen]
  have hlook : ∀ lv ∈ f.columns.labels.zip (fcs.map (·.1)), PandasTypes.lookup same lv.1 (f.columns.labels.zip (fcs.map (·.1))) = .ok lv.2 := by
    intro lv hlv
    exact lookup_mem (by rw [hz]; exact hs) (by rw [hz]; exact hnd) hlv
  have hdata := g3 f.columns.labels _ hlen hlook
  unfold tripFrame flattenFrame
  rw [distinct_of_nodup hs hnd]
  simp only [Bool.not_true, Bool.false_eq_true, if_false, bind, Except.bind, g1, k3, k1, e1, e3]
  unfold FrameDoc.wire
  simp only [bind, Except.bind, pure, Except.pure]
  cases hy1 : raw f.index.anyName with
  | error e =>
    simp only [reduceCtorEq, false_iff]
    intro h
    obtain ⟨y, hy⟩ := raw_anyName (a := f.index) (fun x hx => h x (List.mem_append_right _ hx))
    rw [hy] at hy1
    cases hy1
  | ok y1 =>
    simp only
    cases hy2 : raw f.columns.anyName with
    | error e =>
      simp only [reduceCtorEq, false_iff]
      intro h
      obtain ⟨y, hy⟩ := raw_anyName (a := f.columns) (fun x hx => h x (List.mem_append_left _ hx))
      rw [hy] at hy2
      cases hy2
    | ok y2 =>
      simp only
      unfold restoreFrame
      simp only [Pandas.C22.pandas_roundtrip p hp t 0 dd e3, bind, Except.bind, e2, k2, k4, Pandas.C21.rle_roundtrip]
      obtain ⟨c1, c2⟩ := columns_iff ha hy2
      obtain ⟨c3, c4⟩ := columns_iff hb hy1
      rw [← index_axis ht] at c3
      simp only [← index_axis ht] at c4
      cases hr1 : restoreColumns f.columns.names.isSome f.columns.labels y2 with
      | error e =>
        simp only [reduceCtorEq, false_iff]
        intro h
        obtain ⟨b, hb⟩ := c1.2 (fun x hx => h x (List.mem_append_left _ hx))
        rw [hr1] at hb
        cases hb
      | ok b =>
        have := c2 b hr1
        subst this
        simp only [hdata]
        cases hr2 : restoreIndexAxis L f.index.names.isSome f.index.labels y1 with
        | error e =>
          simp only [reduceCtorEq, false_iff]
          intro h
          obtain ⟨b, hb⟩ := c3.2 (fun x hx => h x (List.mem_append_right _ hx))
          rw [hr2] at hb
          cases hb
        | ok b =>
          have := c4 b hr2
          subst this
          simp only [pure, Except.pure, true_iff]
          intro x hx
          rcases List.mem_append.1 hx with h | h
          · exact c1.1 ⟨_, hr1⟩ x h
          · exact c3.1 ⟨_, hr2⟩ x h

/-- **A column whose dtype is not in the table comes back as objects.** -/
theorem dtype_lost {c : Codec} {L : Lib} {T : Types} {same : Py → Py → Bool} {col : Column} (ho : col.dtype ≠ p!"object") (h : dget col.dtype T.tag = none)
    (hn : dget p!"object" T.name = none) (hc : L.convert p!"object" col.values = .ok col.values) :
    ∃ fc, flattenColumn c T col = .ok fc ∧ ∀ l cols, PandasTypes.lookup same l cols = .ok fc.1 →
      restoreColumn c L T same cols (l, fc.2) = .ok { col with dtype := p!"object" } := by
  refine ⟨(col.values, p!"object"), ?_, ?_⟩
  · unfold flattenColumn
    rw [if_neg (fun e => ho e.1), h]
    rfl
  · intro l cols hl
    unfold restoreColumn
    rw [hl]
    simp only [bind, Except.bind]
    rw [if_neg (by decide), hn]
    simp only [Option.getD_none, hc, pure, Except.pure]

/-! ### the table of dtypes -/

theorem dset_keys {α : Type} {k : Str} {v : α} : ∀ {d : List (Str × α)} {x : Str}, x ∈ (dset k v d).map (·.1) → x = k ∨ x ∈ d.map (·.1)
  | [], x, h => by
    unfold dset at h
    simpa using h
  | (k', v') :: r, x, h => by
    unfold dset at h
    split at h
    · simp only [List.map_cons, List.mem_cons] at h ⊢
      exact .inr h
    · simp only [List.map_cons, List.mem_cons] at h ⊢
      rcases h with h | h
      · exact .inr (.inl h)
      · rcases dset_keys h with h | h
        · exact .inl h
        · exact .inr (.inr h)

theorem foldl_keys {α : Type} (f : Str × α → Str × α) : ∀ {l : List (Str × α)} {d : List (Str × α)} {x : Str},
    x ∈ (l.foldl (fun a kv => dset (f kv).1 (f kv).2 a) d).map (·.1) → x ∈ l.map (fun kv => (f kv).1) ∨ x ∈ d.map (·.1)
  | [], d, x, h => .inr h
  | kv :: l, d, x, h => by
    rw [List.foldl_cons] at h
    rcases foldl_keys f h with h | h
    · exact .inl (List.mem_cons_of_mem _ h)
    · rcases dset_keys h with h | h
      · exact .inl (by rw [h]; simp)
      · exact .inr h

theorem loop_keys {ch : TagsPd.Chars} : ∀ {ss : List Str} {st st' : TagsPd.St}, TagsPd.loop ch st ss = .ok st' →
    ∀ x ∈ st'.result.map (·.1), x ∈ ss ∨ x ∈ st.result.map (·.1)
  | [], st, st', h, x, hx => by cases h; exact .inr hx
  | s :: ss, st, st', h, x, hx => by
    unfold TagsPd.loop at h
    split at h
    · cases h
    · next st1 h1 =>
      rcases loop_keys h x hx with h2 | h2
      · exact .inl (List.mem_cons_of_mem _ h2)
      · unfold TagsPd.step at h1
        simp only at h1
        split at h1
        · cases h1
        · cases h1
          rcases dset_keys h2 with e | e
          · exact .inl (by rw [e]; simp)
          · exact .inr e

theorem tags_keys {ch : TagsPd.Chars} {ss : List Str} {pre : Str} {m : List (Str × Str)} (h : TagsPd.tags ch ss pre = .ok m) :
    (∀ x ∈ m.map (·.1), x ∈ ss) ∧ ∀ kv ∈ m, ∃ t, kv.2 = pre ++ p!"/" ++ t := by
  unfold TagsPd.tags at h
  split at h
  · cases h
  · next st h1 =>
    cases h
    constructor
    · intro x hx
      rw [List.map_map] at hx
      obtain ⟨kv, h2, e⟩ := List.mem_map.1 hx
      have := loop_keys h1 x (List.mem_map.2 ⟨kv, h2, e⟩)
      rcases this with h | h
      · exact h
      · cases h
    · intro kv hkv
      obtain ⟨kv', _, e⟩ := List.mem_map.1 hkv
      exact ⟨kv'.2, by rw [← e]⟩

theorem dget_none {α : Type} {k : Str} : ∀ {d : List (Str × α)}, k ∉ d.map (·.1) → dget k d = none
  | [], _ => rfl
  | (k', v) :: r, h => by
    simp only [List.map_cons, List.mem_cons, not_or] at h
    unfold dget
    rw [if_neg (fun e => h.1 e.symm), dget_none h.2]

/-- tags_pd.py:134-245: the names in the table are lower case, except those with a unit in brackets -/
def Listed (names : List Str) : Prop :=
  ∀ n ∈ names, TagsPd.ascii.lower n = n ∨ startsWith n p!"datetime64[" = true ∨ startsWith n p!"timedelta64[" = true

/-- tags_pd.py:248-251 -/
def table (np pd : List (Str × Str)) : Types := { tag := TagsPd.typeMap np pd, name := TagsPd.reverseMap (TagsPd.typeMap np pd) }

/-- **The names of dtypes are looked up as they are, but the table has them in lower case**: columns of the types `Int64`, `Float64`, `UInt8` …
come back as columns of objects. -/
theorem capital_lost {ch : TagsPd.Chars} {ns ps : List Str} {np pd : List (Str × Str)} (hnp : TagsPd.tags ch ns p!"np" = .ok np) (hpd : TagsPd.tags ch ps p!"pd" = .ok pd)
    (hn : Listed ns) (hp : Listed ps) {c : Codec} {L : Lib} {same : Py → Py → Bool} {col : Column} (hcap : TagsPd.ascii.lower col.dtype ≠ col.dtype)
    (h1 : startsWith col.dtype p!"datetime64[" = false) (h2 : startsWith col.dtype p!"timedelta64[" = false) (hc : L.convert p!"object" col.values = .ok col.values) :
    ∃ fc, flattenColumn c (table np pd) col = .ok fc ∧ ∀ l cols, PandasTypes.lookup same l cols = .ok fc.1 →
      restoreColumn c L (table np pd) same cols (l, fc.2) = .ok { col with dtype := p!"object" } := by
  have keys : ∀ x ∈ (TagsPd.typeMap np pd).map (·.1), x ∈ ps ∨ x ∈ ns := by
    intro x hx
    unfold TagsPd.typeMap at hx
    rcases foldl_keys id hx with h | h
    · exact .inl ((tags_keys hpd).1 x h)
    · exact .inr ((tags_keys hnp).1 x h)
  have vals : ∀ {l d : List (Str × Str)}, (∀ kv ∈ l, kv.2 ≠ p!"object") → (∀ kv ∈ d, kv.2 ≠ p!"object") →
      ∀ kv ∈ l.foldl (fun a kv => dset kv.1 kv.2 a) d, kv.2 ≠ p!"object" := by
    intro l
    induction l with
    | nil => intro d _ hd; exact hd
    | cons kv l ih =>
      intro d hl hd
      rw [List.foldl_cons]
      refine ih (fun x hx => hl x (List.mem_cons_of_mem _ hx)) ?_
      have hkv := hl kv (by simp)
      clear ih hl
      induction d with
      | nil => intro x hx; unfold dset at hx; rw [List.mem_singleton] at hx; rw [hx]; exact hkv
      | cons y d ih =>
        intro x hx
        unfold dset at hx
        split at hx
        · rcases List.mem_cons.1 hx with e | e
          · rw [e]; exact hkv
          · exact hd x (List.mem_cons_of_mem _ e)
        · rcases List.mem_cons.1 hx with e | e
          · rw [e]; exact hd y (by simp)
          · exact ih (fun z hz => hd z (List.mem_cons_of_mem _ hz)) x e
  have hobj : ∀ {ss pre m}, TagsPd.tags ch ss pre = .ok m → (pre = p!"np" ∨ pre = p!"pd") → ∀ kv ∈ m, kv.2 ≠ p!"object" := by
    intro ss pre m hm hpre kv hkv e
    obtain ⟨t, ht⟩ := (tags_keys hm).2 kv hkv
    rw [ht] at e
    rcases hpre with h | h <;> subst h <;> cases e
  refine dtype_lost ?_ ?_ ?_ hc
  · intro e; rw [e] at hcap; exact hcap (by decide)
  · refine dget_none (fun hx => ?_)
    have : TagsPd.ascii.lower col.dtype = col.dtype ∨ startsWith col.dtype p!"datetime64[" = true ∨ startsWith col.dtype p!"timedelta64[" = true := by
      rcases keys _ hx with h | h
      · exact hp _ h
      · exact hn _ h
    rcases this with h | h | h
    · exact hcap h
    · rw [h1] at h; cases h
    · rw [h2] at h; cases h
  · refine dget_none (fun hx => ?_)
    unfold table TagsPd.reverseMap at hx
    rcases foldl_keys (fun kv => (kv.2, kv.1)) hx with h | h
    · obtain ⟨kv, h3, e⟩ := List.mem_map.1 h
      refine vals (hobj hpd (.inr rfl)) (hobj hnp (.inl rfl)) kv ?_ e
      exact h3
    · cases h

/-! ### moments, intervals, periods -/

/-- **A time stamp comes back** as the same moment with the same offset; its zone is the fixed offset. -/
theorem stamp_back {p : Pandas.Proc} (hp : Faithful p) {I : Iso} (s : Stamp) (hI : I.parse (I.format s.nanos (s.zone.map Zone.offset)) = .ok (s.nanos, s.zone.map Zone.offset)) :
    tripStamp p I s = .ok { nanos := s.nanos, zone := s.zone.map (fun z => .fixed z.offset) } := by
  obtain ⟨dd, h⟩ := pack_empty p
  unfold tripStamp
  rw [pack_ok h]
  simp only [bind, Except.bind, Doc.wire, rawKvs, raw, unpack_wire hp h]
  rw [dget, if_pos rfl]
  simp only [hI, pure, Except.pure, Option.map_map]
  rfl

/-- So the zone is kept exactly if it has no name. -/
theorem stamp_iff {p : Pandas.Proc} (hp : Faithful p) {I : Iso} (s : Stamp) (hI : I.parse (I.format s.nanos (s.zone.map Zone.offset)) = .ok (s.nanos, s.zone.map Zone.offset)) :
    tripStamp p I s = .ok s ↔ ∀ n o, s.zone ≠ some (.named n o) := by
  rw [stamp_back hp s hI]
  obtain ⟨n, z⟩ := s
  cases z with
  | none => simp
  | some z => cases z <;> simp [Zone.offset]

theorem interval_back {c : Codec} {p : Pandas.Proc} (hp : Faithful p) {le : Py → Py → Bool} (x : Interval) (hle : le x.left x.right = true)
    (hl : ∃ t, c.enc x.left = .ok t ∧ c.dec t = .ok x.left) (hr : ∃ t, c.enc x.right = .ok t ∧ c.dec t = .ok x.right) :
    tripInterval c p le x = .ok x := by
  obtain ⟨dd, h⟩ := pack_empty p
  obtain ⟨t, a1, a2⟩ := hl
  obtain ⟨u, b1, b2⟩ := hr
  unfold tripInterval
  rw [a1, b1]
  simp only [bind, Except.bind, pack_ok h, Doc.wire, rawKvs, raw, unpack_wire hp h]
  have e1 : dget p!"left" [(p!"left", Py.str t), (p!"right", Py.str u), (p!"closed", Py.str x.closed)] = some (.str t) := rfl
  have e2 : dget p!"right" [(p!"left", Py.str t), (p!"right", Py.str u), (p!"closed", Py.str x.closed)] = some (.str u) := rfl
  have e3 : dget p!"closed" [(p!"left", Py.str t), (p!"right", Py.str u), (p!"closed", Py.str x.closed)] = some (.str x.closed) := rfl
  rw [e1, e2, e3]
  simp only [a2, b2, hle, if_true, pure, Except.pure]

theorem period_back {c : Codec} {p : Pandas.Proc} (hp : Faithful p) {mk : Py → Str → Except Exc Period} (x : Period) (hmk : mk x.start x.freq = .ok x)
    (hs : ∃ t, c.enc x.start = .ok t ∧ c.dec t = .ok x.start) : tripPeriod c p mk x = .ok x := by
  obtain ⟨dd, h⟩ := pack_empty p
  obtain ⟨t, a1, a2⟩ := hs
  unfold tripPeriod
  rw [a1]
  simp only [bind, Except.bind, pack_ok h, Doc.wire, rawKvs, raw, unpack_wire hp h]
  have e1 : dget p!"start_time" [(p!"start_time", Py.str t), (p!"freqstr", Py.str x.freq)] = some (.str t) := rfl
  have e2 : dget p!"freqstr" [(p!"start_time", Py.str t), (p!"freqstr", Py.str x.freq)] = some (.str x.freq) := rfl
  rw [e1, e2]
  simp only [a2, hmk]

/-! ### examples -/

/-- an encoder that knows these values -/
def toy : Codec where
  enc := fun x => match x with
    | .list [.int 1] => .ok p!"[1]"
    | .int 3 => .ok p!"3"
    | _ => .ok p!"5"
  dec := fun t => if t = p!"[1]" then .ok (.list [.int 1]) else if t = p!"3" then .ok (.int 3) else .ok (.int 5)
  encL := fun k xs => match k, xs with
    | false, [.int 3, .int 5] => .ok p!"[3, 5]"
    | false, [.tuple _, .tuple _] => .ok p!"rows"
    | false, _ => .ok p!"[]"
    | true, [.str _, .str _] => .ok p!"['a', 'b']"
    | true, _ => .ok p!"[0, 1]"
  decL := fun k t =>
    if k then if t = p!"[0, 1]" then .ok [.int 0, .int 1] else .ok [.str p!"a", .str p!"b"]
    else if t = p!"[3, 5]" then .ok [.int 3, .int 5]
    else if t = p!"rows" then .ok [.tuple [.int 3, .str p!"x"], .tuple [.int 5, .str p!"y"]] else .ok []
  encD := fun _ => .ok p!"cols"
  decD := fun _ => .ok [(.str p!"a", [.int 3, .int 5]), (.str p!"b", [.str p!"[1]", .str p!"5"])]

def lib : Lib := { convert := fun _ vs => .ok vs, infer := fun _ => p!"int64" }

/-- no compression, everything is text -/
def proc : Pandas.Proc := { sizeThreshold := none, compression := none }

theorem proc_faithful : Faithful proc := fun _ h => nomatch h

/-- an index `[3, 5]` with a name -/
def idx (name : Py) : Index := { values := [.int 3, .int 5], dtype := p!"int64", name := name, names := none }

theorem idx_stored (name : Py) : Stored toy proc (idx name).values := ⟨_, _, rfl, rfl, rfl⟩

/-- `pd.Index([3, 5], name=("k", 1))` comes back … -/
example : tripIndex toy lib proc (idx (.tuple [.str p!"k", .int 1])) = .ok (idx (.tuple [.str p!"k", .int 1])) :=
  (index_iff proc_faithful rfl (idx_stored _) rfl rfl).2 (.inr ⟨_, rfl, by simp [Scalar]⟩)

/-- … `pd.Index([3, 5], name="key")` is renamed … -/
theorem text_name : tripIndex toy lib proc (idx (.str p!"key")) = .ok (idx (.tuple [.str p!"k", .str p!"e", .str p!"y"])) :=
  index_text_name proc_faithful rfl rfl (idx_stored _) rfl rfl

/-- … and `pd.Index([3, 5], name=7)` raises. -/
theorem number_name : tripIndex toy lib proc (idx (.int 7)) = .error .typeError := index_number_name proc_faithful rfl rfl (idx_stored _)

def multi (names : List Py) : Index := { values := [.tuple [.int 3, .str p!"x"], .tuple [.int 5, .str p!"y"]], dtype := p!"object", name := .none, names := some names }

theorem multi_rows (names : List Py) : Rows 2 (multi names).values := by
  intro v hv
  simp only [multi, List.mem_cons, List.not_mem_nil, or_false] at hv
  rcases hv with h | h <;> exact ⟨_, h, rfl⟩

/-- a `MultiIndex` with named levels -/
example : tripIndex toy lib proc (multi [.str p!"n", .none]) = .ok (multi [.str p!"n", .none]) :=
  multi_roundtrip proc_faithful rfl rfl rfl ⟨_, _, rfl, rfl, rfl⟩ (multi_rows _) (by simp [multi]) (by simp) (by simp [Scalar])

/-- an empty one -/
example : tripIndex toy lib proc { values := [], dtype := p!"object", name := .none, names := some [.str p!"n", .none] } =
    .ok { values := [], dtype := p!"object", name := .tuple [.str p!"n", .none], names := none } :=
  multi_empty proc_faithful rfl rfl ⟨_, _, rfl, rfl, rfl⟩ rfl (by simp [Scalar])

/-- a plain index of tuples -/
example : ∃ ns, tripIndex toy lib proc { (multi []) with names := none } = .ok { (multi []) with names := some ns } :=
  tuples_become_multi proc_faithful rfl rfl ⟨_, _, rfl, rfl, rfl⟩ (multi_rows []) (by simp [multi]) (by decide)

/-- an encoder for the rows `[(3,), (5, "y")]` -/
def ragged : Codec := { toy with decL := fun _ _ => .ok [.tuple [.int 3], .tuple [.int 5, .str p!"y"]] }

/-- `pd.Index([(3,), (5, "y")])` -/
theorem ragged_filled : ∃ ns, tripIndex ragged lib proc { values := [.tuple [.int 3], .tuple [.int 5, .str p!"y"]], dtype := p!"object", name := .none, names := none } =
    .ok { values := [.tuple [.int 3, .float 0x7FF8000000000000], .tuple [.int 5, .str p!"y"]], dtype := p!"object", name := .none, names := some ns } :=
  short_rows_filled (rows := [[.int 3], [.int 5, .str p!"y"]]) proc_faithful rfl rfl rfl ⟨_, _, rfl, rfl, rfl⟩ (n := 2) (by simp) (r := [.int 5, .str p!"y"]) (by simp) rfl (by decide)

/-- a plain index of pairs named "ab", and one named "abc" -/
example : tripIndex toy lib proc { (multi []) with names := none, name := .str p!"ab" } = .ok (multi [.str p!"a", .str p!"b"]) ∧
    tripIndex toy lib proc { (multi []) with names := none, name := .str p!"abc" } = .error .valueError :=
  ⟨tuples_text_name (ix := { (multi []) with names := none, name := .str p!"ab" }) proc_faithful rfl rfl ⟨_, _, rfl, rfl, rfl⟩ (multi_rows []) (by simp [multi]) (by decide),
   tuples_text_name (ix := { (multi []) with names := none, name := .str p!"abc" }) proc_faithful rfl rfl ⟨_, _, rfl, rfl, rfl⟩ (multi_rows []) (by simp [multi]) (by decide)⟩

/-- a series named "s", and one named `("s", 1)`, which raises -/
example : tripSeries toy lib proc { values := [.int 1, .int 2], dtype := p!"int64", name := .str p!"s", index := idx .none } =
    .ok { values := [.int 1, .int 2], dtype := p!"int64", name := .str p!"s", index := idx .none } :=
  (series_iff ((index_iff proc_faithful rfl (idx_stored _) rfl rfl).2 (.inl rfl))).2 trivial

theorem series_tuple_name : tripSeries toy lib proc { values := [], dtype := p!"int64", name := .tuple [.str p!"s", .int 1], index := idx .none } = .error .typeError := rfl

/-- a frame with a column of numbers and a column of lists and numbers -/
def frame (indexName : Py) : Frame where
  columns := { labels := [.str p!"a", .str p!"b"], name := .none, names := none }
  index := { labels := [.int 0, .int 1], name := indexName, names := none }
  data := [{ values := [.int 3, .int 5], dtype := p!"int64" }, { values := [.list [.int 1], .int 5], dtype := p!"object" }]

/-- equality of labels, for these labels -/
def sameLabel : Py → Py → Bool
  | .str a, .str b => a == b
  | _, _ => false

def types : Types := { tag := [(p!"int64", p!"pd/i")], name := [(p!"pd/i", p!"int64")] }

theorem frame_trip (n : Py) : tripFrame toy lib proc types sameLabel (frame n) = .ok (frame n) ↔ Scalar n := by
  have hg : ∀ col ∈ (frame n).data, GoodColumn toy lib types col := by
    intro col hcol
    simp only [frame, List.mem_cons, List.not_mem_nil, or_false] at hcol
    rcases hcol with h | h <;> subst h
    · exact ⟨rfl, .inr ⟨fun h => absurd h.1 (by decide), _, rfl, rfl, by decide⟩⟩
    · refine ⟨rfl, .inl ⟨⟨rfl, _, List.mem_cons_self, .list _⟩, ?_⟩⟩
      intro x hx
      simp only [List.mem_cons, List.not_mem_nil, or_false] at hx
      rcases hx with h | h <;> subst h <;> exact ⟨_, rfl, rfl⟩
  have := frame_iff (c := toy) (L := lib) (p := proc) (T := types) (same := sameLabel) (f := frame n) proc_faithful (by simp [frame, sameLabel]) (by simp [frame]) rfl hg
    ⟨_, rfl, rfl⟩ ⟨_, rfl, rfl⟩ (by intro fcs h; cases h; exact ⟨_, _, rfl, rfl, rfl⟩) (.inl rfl) (.inl rfl) (fun _ => ⟨rfl, rfl⟩)
  rw [this]
  simp [labelsOf, frame, Scalar]

/-- the frame with an index named "key" comes back, with an index named `("a", 1)` it does not -/
example : tripFrame toy lib proc types sameLabel (frame (.str p!"key")) = .ok (frame (.str p!"key")) := (frame_trip _).2 trivial
theorem frame_tuple_name : tripFrame toy lib proc types sameLabel (frame (.tuple [.str p!"a", .int 1])) ≠ .ok (frame (.tuple [.str p!"a", .int 1])) :=
  fun h => (frame_trip _).1 h

/-- columns "a", "b", "a" -/
example : tripFrame toy lib proc types sameLabel { (frame .none) with columns := { labels := [.str p!"a", .str p!"b", .str p!"a"], name := .none, names := none } } = .error .attributeError :=
  equal_columns (as := []) (bs := [.str p!"b"]) (cs := []) rfl rfl

/-- the table made from a few of the names: `Int64` is not found -/
def npNames : List Str := [p!"object", p!"int64", p!"float64", p!"datetime64[ns]"]
def pdNames : List Str := [p!"int64", p!"category"]

example : ∃ np pd, TagsPd.tags TagsPd.ascii npNames p!"np" = .ok np ∧ TagsPd.tags TagsPd.ascii pdNames p!"pd" = .ok pd ∧
    dget p!"int64" (table np pd).tag = some p!"pd/i" ∧ dget p!"Int64" (table np pd).tag = none :=
  ⟨_, _, rfl, rfl, by decide +kernel, by decide +kernel⟩

theorem nullable_lost {same : Py → Py → Bool} : ∃ np pd, TagsPd.tags TagsPd.ascii npNames p!"np" = .ok np ∧ TagsPd.tags TagsPd.ascii pdNames p!"pd" = .ok pd ∧
    ∃ fc, flattenColumn toy (table np pd) { values := [.int 3, .none], dtype := p!"Int64" } = .ok fc ∧ ∀ l cols, PandasTypes.lookup same l cols = .ok fc.1 →
      restoreColumn toy lib (table np pd) same cols (l, fc.2) = .ok { values := [.int 3, .none], dtype := p!"object" } :=
  ⟨_, _, rfl, rfl, capital_lost (ch := TagsPd.ascii) (ns := npNames) (ps := pdNames) rfl rfl (by unfold Listed; decide +kernel) (by unfold Listed; decide +kernel)
    (by decide +kernel) (by decide +kernel) (by decide +kernel) rfl⟩

def iso : Iso := { format := fun n o => match o with | none => p!"local" | some o => if n = 0 ∧ o = 3600 then p!"1970-01-01T01:00:00+01:00" else [],
                   parse := fun t => if t = p!"local" then .ok (0, none) else .ok (0, some 3600) }

/-- `pd.Timestamp(0, tz="Europe/Berlin")` comes back as the same moment in the zone `+01:00` -/
theorem zone_lost : tripStamp proc iso { nanos := 0, zone := some (.named p!"Europe/Berlin" 3600) } = .ok { nanos := 0, zone := some (.fixed 3600) } :=
  stamp_back proc_faithful _ rfl

example : tripStamp proc iso { nanos := 0, zone := some (.fixed 3600) } = .ok { nanos := 0, zone := some (.fixed 3600) } :=
  (stamp_iff proc_faithful _ rfl).2 (by simp)

example : tripInterval toy proc (fun _ _ => true) { left := .int 3, right := .int 5, closed := p!"left" } = .ok { left := .int 3, right := .int 5, closed := p!"left" } :=
  interval_back proc_faithful _ rfl ⟨_, rfl, rfl⟩ ⟨_, rfl, rfl⟩

example : tripPeriod toy proc (fun s f => .ok ⟨s, f⟩) { start := .int 3, freq := p!"D" } = .ok { start := .int 3, freq := p!"D" } :=
  period_back proc_faithful _ rfl ⟨_, rfl, rfl⟩

end JP.PandasTypes.C61
