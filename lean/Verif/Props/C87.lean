import Verif.Proofs.POld
import Verif.DecEq
/-!
# C87: data frames written before version 3.4
-/
namespace JP.PandasOld.C87
open JP JP.PandasOld

/-- How a column of text is read, given the recorded dtypes `ds`: dates are parsed and then cast to the recorded dtype, complex numbers are made by `complex`,
time differences are read as objects and then converted, other columns are read with the recorded dtype, and columns without one as pandas sees fit. -/
inductive Reads (L : Lib) (ds : List (Str × Str)) (k : Str) (fields : List Str) (c : Col) : Prop
  | date (r : Str) (c0 : Col) : (k, p!"datetime" ++ r) ∈ ds → L.dates fields = .ok c0 → L.cast (p!"datetime" ++ r) c0 = .ok c → Reads L ds k fields c
  | complex (r : Str) : (k, p!"complex" ++ r) ∈ ds → L.complexes fields = .ok c → Reads L ds k fields c
  | timedelta (r : Str) (c0 : Col) : (k, p!"timedelta" ++ r) ∈ ds → L.typed p!"object" fields = .ok c0 → L.timedelta c0 = .ok c → Reads L ds k fields c
  | other (d : Str) : (k, d) ∈ ds → (∀ r, d ≠ p!"datetime" ++ r ∧ d ≠ p!"complex" ++ r ∧ d ≠ p!"timedelta" ++ r) → L.typed d fields = .ok c → Reads L ds k fields c
  | unlisted : (∀ d, (k, d) ∉ ds) → L.infer fields = .ok c → Reads L ds k fields c

/-- the columns that have to be in the table: those of dates and time differences -/
def Needed (ds : List (Str × Str)) (k : Str) : Prop := ∃ r, (k, p!"datetime" ++ r) ∈ ds ∨ (k, p!"timedelta" ++ r) ∈ ds

theorem starts {d pre : Str} : startsWith d pre = true ↔ ∃ r, d = pre ++ r := by
  unfold startsWith
  rw [List.isPrefixOf_iff_prefix]
  exact ⟨fun ⟨r, h⟩ => ⟨r, h.symm⟩, fun ⟨r, h⟩ => ⟨r, h.symm⟩⟩

theorem kind_date {d : Str} : kind d = .date ↔ ∃ r, d = p!"datetime" ++ r := by
  rw [← starts]
  unfold kind
  by_cases h : startsWith d p!"datetime" = true
  · simp [h]
  · rw [if_neg h]
    refine ⟨fun e => ?_, fun e => absurd e h⟩
    split at e
    · cases e
    · split at e <;> cases e

theorem clash {a b r r' : Str} (ha : a.head? ≠ b.head?) (h1 : a ≠ []) (h2 : b ≠ []) : a ++ r ≠ b ++ r' := by
  intro e
  cases a with
  | nil => exact h1 rfl
  | cons x a =>
    cases b with
    | nil => exact h2 rfl
    | cons y b => injection e with e _; exact ha (by rw [e]; rfl)

theorem kind_complex {d : Str} : kind d = .complex ↔ ∃ r, d = p!"complex" ++ r := by
  constructor
  · intro e
    unfold kind at e
    split at e
    · cases e
    · split at e
      · next h => exact starts.1 h
      · split at e <;> cases e
  · rintro ⟨r, rfl⟩
    unfold kind
    rw [if_neg (fun h => by obtain ⟨r', h⟩ := starts.1 h; exact clash (by decide) (by decide) (by decide) h), if_pos (starts.2 ⟨r, rfl⟩)]

theorem kind_timedelta {d : Str} : kind d = .timedelta ↔ ∃ r, d = p!"timedelta" ++ r := by
  constructor
  · intro e
    unfold kind at e
    split at e
    · cases e
    · split at e
      · cases e
      · split at e
        · next h => exact starts.1 h
        · cases e
  · rintro ⟨r, rfl⟩
    unfold kind
    rw [if_neg (fun h => by obtain ⟨r', h⟩ := starts.1 h; exact clash (by decide) (by decide) (by decide) h),
      if_neg (fun h => by obtain ⟨r', h⟩ := starts.1 h; exact clash (by decide) (by decide) (by decide) h), if_pos (starts.2 ⟨r, rfl⟩)]

theorem kind_other {d : Str} : kind d = .other ↔ ∀ r, d ≠ p!"datetime" ++ r ∧ d ≠ p!"complex" ++ r ∧ d ≠ p!"timedelta" ++ r := by
  constructor
  · intro e r
    refine ⟨fun h => ?_, fun h => ?_, fun h => ?_⟩
    · rw [kind_date.2 ⟨r, h⟩] at e; cases e
    · rw [kind_complex.2 ⟨r, h⟩] at e; cases e
    · rw [kind_timedelta.2 ⟨r, h⟩] at e; cases e
  · intro h
    cases hk : kind d with
    | date => obtain ⟨r, e⟩ := kind_date.1 hk; exact absurd e (h r).1
    | complex => obtain ⟨r, e⟩ := kind_complex.1 hk; exact absurd e (h r).2.1
    | timedelta => obtain ⟨r, e⟩ := kind_timedelta.1 hk; exact absurd e (h r).2.2
    | other => rfl

theorem read_iff {L : Lib} {P : Params} {c : Str × List Str} {y : Str × Col} {x : Except Exc Col}
    (hx : readFields L P c.1 c.2 = x) : readColumn L P c = .ok y ↔ y.1 = c.1 ∧ x = .ok y.2 := by
  unfold readColumn
  rw [hx]
  obtain ⟨y1, y2⟩ := y
  cases x with
  | error e => exact ⟨fun h => (by cases h), fun h => (by cases h.2)⟩
  | ok z => exact ⟨fun h => (by cases h; exact ⟨rfl, rfl⟩), fun h => (by obtain ⟨h1, h2⟩ := h; cases h1; cases h2; rfl)⟩

/-- the three steps, for one column -/
theorem column (L : Lib) (m : Meta) (hn : ((m.dtypes.getD []).map (·.1)).Nodup) (x : Str × List Str) (z : Str × Col) :
    (∃ y, (∃ y0, readColumn L (params m) x = .ok y0 ∧ Changed (fun k => (k, L.timedelta)) (params m).timedeltas y0 y) ∧
      Changed (fun kv : Str × Str => (kv.1, L.cast kv.2)) (params m).datetimes y z) ↔ x.1 = z.1 ∧ Reads L (m.dtypes.getD []) x.1 x.2 z.2 := by
  rw [params_eq]
  generalize m.dtypes.getD [] = ds at *
  obtain ⟨k, fs⟩ := x
  obtain ⟨kz, z⟩ := z
  have keep : ∀ {α : Type} {g : α → Str × (Col → Except Exc Col)} {as : List α} {a b : Str × Col}, (∀ q ∈ as, (g q).1 ≠ a.1) → (Changed g as a b ↔ a = b) :=
    fun h => ⟨fun c => Prod.ext c.1 (c.2.2 h), fun e => by subst e; exact ⟨rfl, fun q hq e => absurd e (h q hq), fun _ => rfl⟩⟩
  have noDate : ∀ {k}, k ∉ (ofKind .date ds).map (·.1) → ∀ q ∈ ofKind .date ds, q.1 ≠ k := fun h q hq e => h (List.mem_map.2 ⟨q, hq, e⟩)
  have noTime : ∀ {k : Str}, k ∉ (ofKind .timedelta ds).map (·.1) → ∀ q ∈ (ofKind .timedelta ds).map (·.1), q ≠ k := fun h q hq e => h (by rw [← e]; exact hq)
  by_cases hk : ∃ d, (k, d) ∈ ds
  · obtain ⟨d, hd⟩ := hk
    have cD := mem_ofKind (q := .date) hn hd
    have cC := mem_ofKind (q := .complex) hn hd
    have cT := mem_ofKind (q := .timedelta) hn hd
    have hf := find_plain hn hd
    cases hq : kind d with
    | date =>
      obtain ⟨r, er⟩ := kind_date.1 hq
      rw [hq] at cD cC cT
      have hC : k ∉ (ofKind .complex ds).map (·.1) := fun h => by cases cC.1 h
      have hT : k ∉ (ofKind .timedelta ds).map (·.1) := fun h => by cases cT.1 h
      have hD := cD.2 rfl
      have hp : plainType (k, d) = none := by unfold plainType; simp only [hq]
      rw [hp] at hf
      have hr := fun y => read_iff (y := y) (L := L) (c := (k, fs)) (P := { dtype := ds.filterMap plainType, header := m.header.getD [0], parseDates := (ofKind .date ds).map (·.1), converters := (ofKind .complex ds).map (·.1), timedeltas := (ofKind .timedelta ds).map (·.1), datetimes := ofKind .date ds })
        (x := L.dates fs) (by unfold readFields; rw [if_neg hC]; dsimp only; rw [hf]; dsimp only [Option.map]; rw [if_pos hD])
      constructor
      · rintro ⟨⟨ky, y⟩, ⟨⟨k0, y0⟩, h0, h1⟩, h2⟩
        obtain ⟨e0, q0⟩ := (hr _).1 h0
        dsimp only at e0
        subst e0
        obtain ⟨rfl, rfl⟩ := Prod.mk.inj ((keep (noTime hT)).1 h1)
        obtain ⟨e, h2, _⟩ := h2
        refine ⟨e, .date r y0 (er ▸ hd) q0 ?_⟩
        rw [← er]
        exact h2 (k0, d) (List.mem_filter.2 ⟨hd, decide_eq_true hq⟩) rfl
      · rintro ⟨e, h⟩
        dsimp only at e
        subst e
        have : ∃ c0, L.dates fs = .ok c0 ∧ L.cast d c0 = .ok z := by
          cases h with
          | date r' c0 h1 h2 h3 => rw [unique_key hn h1 hd] at h3; exact ⟨c0, h2, h3⟩
          | complex r' h1 => rw [← unique_key hn h1 hd, kind_complex.2 ⟨r', rfl⟩] at hq; cases hq
          | timedelta r' c0 h1 => rw [← unique_key hn h1 hd, kind_timedelta.2 ⟨r', rfl⟩] at hq; cases hq
          | other d' h1 h2 => exact absurd er (unique_key hn h1 hd ▸ (h2 r).1)
          | unlisted h => exact absurd hd (h d)
        obtain ⟨c0, h1, h2⟩ := this
        refine ⟨(k, c0), ⟨(k, c0), (hr _).2 ⟨rfl, h1⟩, (keep (noTime hT)).2 rfl⟩, rfl, ?_, fun h => absurd rfl (h (k, d) (List.mem_filter.2 ⟨hd, decide_eq_true hq⟩))⟩
        rintro ⟨k', d'⟩ hm e'
        dsimp only at e' ⊢
        subst e'
        rw [unique_key hn (List.mem_filter.1 hm).1 hd]
        exact h2
    | complex =>
      obtain ⟨r, er⟩ := kind_complex.1 hq
      rw [hq] at cD cC cT
      have hC := cC.2 rfl
      have hT : k ∉ (ofKind .timedelta ds).map (·.1) := fun h => by cases cT.1 h
      have hD : k ∉ (ofKind .date ds).map (·.1) := fun h => by cases cD.1 h
      have hr := fun y => read_iff (y := y) (L := L) (c := (k, fs)) (P := { dtype := ds.filterMap plainType, header := m.header.getD [0], parseDates := (ofKind .date ds).map (·.1), converters := (ofKind .complex ds).map (·.1), timedeltas := (ofKind .timedelta ds).map (·.1), datetimes := ofKind .date ds })
        (x := L.complexes fs) (by unfold readFields; rw [if_pos hC])
      constructor
      · rintro ⟨⟨ky, y⟩, ⟨⟨k0, y0⟩, h0, h1⟩, h2⟩
        obtain ⟨e0, q0⟩ := (hr _).1 h0
        dsimp only at e0
        subst e0
        obtain ⟨rfl, rfl⟩ := Prod.mk.inj ((keep (noTime hT)).1 h1)
        obtain ⟨rfl, rfl⟩ := Prod.mk.inj ((keep (noDate hD)).1 h2)
        exact ⟨rfl, .complex r (er ▸ hd) q0⟩
      · rintro ⟨e, h⟩
        dsimp only at e
        subst e
        have : L.complexes fs = .ok z := by
          cases h with
          | date r' c0 h1 => rw [← unique_key hn h1 hd, kind_date.2 ⟨r', rfl⟩] at hq; cases hq
          | complex r' h1 h2 => exact h2
          | timedelta r' c0 h1 => rw [← unique_key hn h1 hd, kind_timedelta.2 ⟨r', rfl⟩] at hq; cases hq
          | other d' h1 h2 => exact absurd er (unique_key hn h1 hd ▸ (h2 r).2.1)
          | unlisted h => exact absurd hd (h d)
        exact ⟨(k, z), ⟨(k, z), (hr _).2 ⟨rfl, this⟩, (keep (noTime hT)).2 rfl⟩, (keep (noDate hD)).2 rfl⟩
    | timedelta =>
      obtain ⟨r, er⟩ := kind_timedelta.1 hq
      rw [hq] at cD cC cT
      have hC : k ∉ (ofKind .complex ds).map (·.1) := fun h => by cases cC.1 h
      have hT := cT.2 rfl
      have hD : k ∉ (ofKind .date ds).map (·.1) := fun h => by cases cD.1 h
      have hp : plainType (k, d) = some (k, p!"object") := by unfold plainType; simp only [hq]
      rw [hp] at hf
      have hr := fun y => read_iff (y := y) (L := L) (c := (k, fs)) (P := { dtype := ds.filterMap plainType, header := m.header.getD [0], parseDates := (ofKind .date ds).map (·.1), converters := (ofKind .complex ds).map (·.1), timedeltas := (ofKind .timedelta ds).map (·.1), datetimes := ofKind .date ds })
        (x := L.typed p!"object" fs) (by unfold readFields; rw [if_neg hC]; dsimp only; rw [hf]; rfl)
      constructor
      · rintro ⟨⟨ky, y⟩, ⟨⟨k0, y0⟩, h0, h1⟩, h2⟩
        obtain ⟨e0, q0⟩ := (hr _).1 h0
        dsimp only at e0
        subst e0
        obtain ⟨e, h1, _⟩ := h1
        dsimp only at e
        subst e
        obtain ⟨rfl, rfl⟩ := Prod.mk.inj ((keep (noDate hD)).1 h2)
        exact ⟨rfl, .timedelta r y0 (er ▸ hd) q0 (h1 k0 hT rfl)⟩
      · rintro ⟨e, h⟩
        dsimp only at e
        subst e
        have : ∃ c0, L.typed p!"object" fs = .ok c0 ∧ L.timedelta c0 = .ok z := by
          cases h with
          | date r' c0 h1 => rw [← unique_key hn h1 hd, kind_date.2 ⟨r', rfl⟩] at hq; cases hq
          | complex r' h1 => rw [← unique_key hn h1 hd, kind_complex.2 ⟨r', rfl⟩] at hq; cases hq
          | timedelta r' c0 h1 h2 h3 => exact ⟨c0, h2, h3⟩
          | other d' h1 h2 => exact absurd er (unique_key hn h1 hd ▸ (h2 r).2.2)
          | unlisted h => exact absurd hd (h d)
        obtain ⟨c0, h1, h2⟩ := this
        exact ⟨(k, z), ⟨(k, c0), (hr _).2 ⟨rfl, h1⟩, rfl, fun _ _ _ => h2, fun h => absurd rfl (h k hT)⟩, (keep (noDate hD)).2 rfl⟩
    | other =>
      rw [hq] at cD cC cT
      have hC : k ∉ (ofKind .complex ds).map (·.1) := fun h => by cases cC.1 h
      have hT : k ∉ (ofKind .timedelta ds).map (·.1) := fun h => by cases cT.1 h
      have hD : k ∉ (ofKind .date ds).map (·.1) := fun h => by cases cD.1 h
      have hp : plainType (k, d) = some (k, d) := by unfold plainType; simp only [hq]
      rw [hp] at hf
      have hr := fun y => read_iff (y := y) (L := L) (c := (k, fs)) (P := { dtype := ds.filterMap plainType, header := m.header.getD [0], parseDates := (ofKind .date ds).map (·.1), converters := (ofKind .complex ds).map (·.1), timedeltas := (ofKind .timedelta ds).map (·.1), datetimes := ofKind .date ds })
        (x := L.typed d fs) (by unfold readFields; rw [if_neg hC]; dsimp only; rw [hf]; rfl)
      constructor
      · rintro ⟨⟨ky, y⟩, ⟨⟨k0, y0⟩, h0, h1⟩, h2⟩
        obtain ⟨e0, q0⟩ := (hr _).1 h0
        dsimp only at e0
        subst e0
        obtain ⟨rfl, rfl⟩ := Prod.mk.inj ((keep (noTime hT)).1 h1)
        obtain ⟨rfl, rfl⟩ := Prod.mk.inj ((keep (noDate hD)).1 h2)
        exact ⟨rfl, .other d hd (kind_other.1 hq) q0⟩
      · rintro ⟨e, h⟩
        dsimp only at e
        subst e
        have : L.typed d fs = .ok z := by
          cases h with
          | date r' c0 h1 => rw [← unique_key hn h1 hd, kind_date.2 ⟨r', rfl⟩] at hq; cases hq
          | complex r' h1 => rw [← unique_key hn h1 hd, kind_complex.2 ⟨r', rfl⟩] at hq; cases hq
          | timedelta r' c0 h1 => rw [← unique_key hn h1 hd, kind_timedelta.2 ⟨r', rfl⟩] at hq; cases hq
          | other d' h1 h2 h3 => rw [unique_key hn h1 hd] at h3; exact h3
          | unlisted h => exact absurd hd (h d)
        exact ⟨(k, z), ⟨(k, z), (hr _).2 ⟨rfl, this⟩, (keep (noTime hT)).2 rfl⟩, (keep (noDate hD)).2 rfl⟩
  · have hk' : ∀ d, (k, d) ∉ ds := fun d h => hk ⟨d, h⟩
    have ha : k ∉ ds.map (·.1) := fun h => by
      obtain ⟨⟨k', d⟩, h', e⟩ := List.mem_map.1 h
      cases e
      exact hk' d h'
    have hC := not_ofKind (q := .complex) ha
    have hT := not_ofKind (q := .timedelta) ha
    have hD := not_ofKind (q := .date) ha
    have hr := fun y => read_iff (y := y) (L := L) (c := (k, fs)) (P := { dtype := ds.filterMap plainType, header := m.header.getD [0], parseDates := (ofKind .date ds).map (·.1), converters := (ofKind .complex ds).map (·.1), timedeltas := (ofKind .timedelta ds).map (·.1), datetimes := ofKind .date ds })
      (x := L.infer fs) (by unfold readFields; rw [if_neg hC]; dsimp only; rw [find_absent ha]; dsimp only; rw [if_neg hD])
    constructor
    · rintro ⟨⟨ky, y⟩, ⟨⟨k0, y0⟩, h0, h1⟩, h2⟩
      obtain ⟨e0, q0⟩ := (hr _).1 h0
      dsimp only at e0
      subst e0
      obtain ⟨rfl, rfl⟩ := Prod.mk.inj ((keep (noTime hT)).1 h1)
      obtain ⟨rfl, rfl⟩ := Prod.mk.inj ((keep (noDate hD)).1 h2)
      exact ⟨rfl, .unlisted hk' q0⟩
    · rintro ⟨e, h⟩
      dsimp only at e
      subst e
      have : L.infer fs = .ok z := by
        cases h with
        | unlisted _ h => exact h
        | date r' c0 h1 => exact absurd h1 (hk' _)
        | complex r' h1 => exact absurd h1 (hk' _)
        | timedelta r' c0 h1 => exact absurd h1 (hk' _)
        | other d' h1 => exact absurd h1 (hk' _)
      exact ⟨(k, z), ⟨(k, z), (hr _).2 ⟨rfl, this⟩, (keep (noTime hT)).2 rfl⟩, (keep (noDate hD)).2 rfl⟩

/-- **C87** (what is read): the older reader returns the frame `f` if and only if the CSV text is a table with all columns of dates and time differences that
are recorded, the columns of `f` are those of the table, each read as its recorded dtype demands, and `f` has the recorded index and level names. -/
theorem old_frame (L : Lib) (p : Pandas.Proc) (d : Doc) (f : Frame) (csv : Str) (m : Nat)
    (hd : Pandas.restorePandas p d.data = .ok (.text csv, m)) (hs : ∃ ch ∈ d.data.values, L.space ch = false)
    (hn : ((d.info.dtypes.getD []).map (·.1)).Nodup) :
    restoreOld L p d = .ok f ↔ ∃ t text, L.table csv (d.info.header.getD [0]) = .ok t ∧ (∀ k, Needed (d.info.dtypes.getD []) k → ∃ fs, (k, fs) ∈ t) ∧
      Each (fun x y => x.1 = y.1 ∧ Reads L (d.info.dtypes.getD []) x.1 x.2 y.2) t f.columns ∧
      d.info.index = some text ∧ L.index text = .ok f.index ∧ L.fits f.index f.columns = .ok () ∧ f.levelNames = d.info.levelNames.filter (· ≠ []) := by
  have hsp : d.data.values.all L.space = false := by
    obtain ⟨ch, h1, h2⟩ := hs
    cases h : d.data.values.all L.space with
    | false => rfl
    | true => rw [List.all_eq_true.1 h ch h1] at h2; cases h2
  have hp := params_eq d.info
  have hnT : ((params d.info).timedeltas.map (fun a => ((fun k : Str => (k, L.timedelta)) a).1)).Nodup := by
    rw [hp]
    simp only [List.map_id']
    exact hn.sublist (List.Sublist.map _ List.filter_sublist)
  have hnD : ((params d.info).datetimes.map (fun a => ((fun kv : Str × Str => (kv.1, L.cast kv.2)) a).1)).Nodup := by
    rw [hp]
    exact hn.sublist (List.Sublist.map _ List.filter_sublist)
  unfold restoreOld
  rw [hd]
  dsimp only
  rw [hsp]
  simp only [Bool.false_eq_true, if_false]
  constructor
  · intro h
    split at h
    · cases h
    · next df0 h0 =>
      split at h
      · cases h
      · next df1 h1 =>
        split at h
        · cases h
        · next df2 h2 =>
          split at h
          · cases h
          · next text ht =>
            split at h
            · cases h
            · next i hi =>
              split at h
              · cases h
              · next hf =>
                cases h
                unfold readCsv at h0
                rw [hp] at h0
                dsimp only at h0
                split at h0
                · cases h0
                · next t htab =>
                  split at h0
                  · next hpd =>
                    rw [← hp] at h0
                    have e0 := mapE_iff.1 h0
                    obtain ⟨k1, e1⟩ := (changes_iff hnT).1 h1
                    obtain ⟨k2, e2⟩ := (changes_iff hnD).1 h2
                    have hk0 : t.map (·.1) = df0.map (·.1) := e0.keys (fun a b r => by
                      unfold readColumn at r
                      split at r
                      · cases r
                      · cases r; rfl)
                    refine ⟨t, text, htab, ?_, ((e0.comp e1).comp e2).imp (fun a _ b r => (column L d.info hn a b).1 r), ht, hi, hf, rfl⟩
                    intro k ⟨r, hr⟩
                    have : k ∈ t.map (·.1) := by
                      rcases hr with hr | hr
                      · have := (List.all_eq_true.1 hpd) k (List.mem_map.2 ⟨_, List.mem_filter.2 ⟨hr, decide_eq_true (kind_date.2 ⟨r, rfl⟩)⟩, rfl⟩)
                        exact of_decide_eq_true this
                      · rw [hk0]
                        refine k1 k ?_
                        rw [hp]
                        exact List.mem_map.2 ⟨_, List.mem_filter.2 ⟨hr, decide_eq_true (kind_timedelta.2 ⟨r, rfl⟩)⟩, rfl⟩
                    obtain ⟨⟨k', fs⟩, hm, e⟩ := List.mem_map.1 this
                    cases e
                    exact ⟨fs, hm⟩
                  · cases h0
  · rintro ⟨t, text, htab, hneed, hcol, ht, hi, hf, hl⟩
    obtain ⟨df1, e01, e2⟩ := (hcol.imp (fun a _ b r => (column L d.info hn a b).2 r)).split
    obtain ⟨df0, e0, e1⟩ := e01.split
    have hk0 : t.map (·.1) = df0.map (·.1) := e0.keys (fun a b r => by
      unfold readColumn at r
      split at r
      · cases r
      · cases r; rfl)
    have hk1 : df0.map (·.1) = df1.map (·.1) := e1.keys (fun a b r => r.1)
    have inT : ∀ k, Needed (d.info.dtypes.getD []) k → k ∈ t.map (·.1) := fun k h => by
      obtain ⟨fs, hm⟩ := hneed k h
      exact List.mem_map.2 ⟨_, hm, rfl⟩
    have needD : ∀ x ∈ ofKind .date (d.info.dtypes.getD []), Needed (d.info.dtypes.getD []) x.1 := by
      rintro ⟨k, v⟩ hx
      obtain ⟨h1, h2⟩ := List.mem_filter.1 hx
      obtain ⟨r, e⟩ := kind_date.1 (of_decide_eq_true h2)
      exact ⟨r, .inl (by rw [← show v = _ from e]; exact h1)⟩
    have h0 : readCsv L csv (params d.info) = .ok df0 := by
      unfold readCsv
      rw [show (params d.info).header = d.info.header.getD [0] by rw [hp], htab]
      dsimp only
      rw [if_pos]
      · exact mapE_iff.2 e0
      · rw [hp]
        refine List.all_eq_true.2 (fun k hk => decide_eq_true ?_)
        obtain ⟨x, hx, rfl⟩ := List.mem_map.1 hk
        exact inT _ (needD x hx)
    rw [h0]
    dsimp only
    rw [(changes_iff hnT).2 ⟨?_, e1⟩]
    · dsimp only
      rw [(changes_iff hnD).2 ⟨?_, e2⟩]
      · dsimp only
        rw [ht]
        dsimp only
        rw [hi]
        dsimp only
        rw [hf]
        dsimp only
        rw [← hl]
      · intro a ha
        rw [← hk1, ← hk0]
        rw [hp] at ha
        exact inT _ (needD a ha)
    · intro a ha
      rw [← hk0]
      rw [hp] at ha
      obtain ⟨⟨k, v⟩, hx, e⟩ := List.mem_map.1 ha
      dsimp only at e ⊢
      subst e
      obtain ⟨h1, h2⟩ := List.mem_filter.1 hx
      obtain ⟨r, e⟩ := kind_timedelta.1 (of_decide_eq_true h2)
      exact inT _ ⟨r, .inr (by rw [← show v = _ from e]; exact h1)⟩

/-- **C87** (what is read, blank text): if `values` is blank, the frame has no columns, and then none of dates or time differences may be recorded. -/
theorem blank_frame (L : Lib) (p : Pandas.Proc) (d : Doc) (f : Frame) (buf : Pandas.Buf) (m : Nat)
    (hd : Pandas.restorePandas p d.data = .ok (buf, m)) (hs : ∀ ch ∈ d.data.values, L.space ch = true)
    (hn : ((d.info.dtypes.getD []).map (·.1)).Nodup) :
    restoreOld L p d = .ok f ↔ ∃ text, (∀ k, ¬ Needed (d.info.dtypes.getD []) k) ∧ f.columns = [] ∧
      d.info.index = some text ∧ L.index text = .ok f.index ∧ L.fits f.index [] = .ok () ∧ f.levelNames = d.info.levelNames.filter (· ≠ []) := by
  have hsp : d.data.values.all L.space = true := List.all_eq_true.2 hs
  have hp := params_eq d.info
  have hnT : ((params d.info).timedeltas.map (fun a => ((fun k : Str => (k, L.timedelta)) a).1)).Nodup := by
    rw [hp]
    simp only [List.map_id']
    exact hn.sublist (List.Sublist.map _ List.filter_sublist)
  have hnD : ((params d.info).datetimes.map (fun a => ((fun kv : Str × Str => (kv.1, L.cast kv.2)) a).1)).Nodup := by
    rw [hp]
    exact hn.sublist (List.Sublist.map _ List.filter_sublist)
  unfold restoreOld
  rw [hd]
  dsimp only
  rw [hsp]
  simp only [if_true]
  constructor
  · intro h
    split at h
    · cases h
    · next df1 h1 =>
      obtain ⟨k1, e1⟩ := (changes_iff hnT).1 h1
      cases e1
      split at h
      · cases h
      · next df2 h2 =>
        obtain ⟨k2, e2⟩ := (changes_iff hnD).1 h2
        cases e2
        split at h
        · cases h
        · next text ht =>
          split at h
          · cases h
          · next i hi =>
            split at h
            · cases h
            · next hf =>
              cases h
              refine ⟨text, ?_, rfl, ht, hi, hf, rfl⟩
              rintro k ⟨r, hr | hr⟩
              · have := k2 (k, p!"datetime" ++ r) (by rw [hp]; exact List.mem_filter.2 ⟨hr, decide_eq_true (kind_date.2 ⟨r, rfl⟩)⟩)
                cases this
              · have := k1 k (by rw [hp]; exact List.mem_map.2 ⟨_, List.mem_filter.2 ⟨hr, decide_eq_true (kind_timedelta.2 ⟨r, rfl⟩)⟩, rfl⟩)
                cases this
  · rintro ⟨text, hno, hc, ht, hi, hf, hl⟩
    have z1 : (params d.info).timedeltas = [] := by
      rw [hp]
      refine List.eq_nil_iff_forall_not_mem.2 (fun k hk => ?_)
      obtain ⟨⟨k', v⟩, hx, e⟩ := List.mem_map.1 hk
      obtain ⟨q1, q2⟩ := List.mem_filter.1 hx
      obtain ⟨r, e⟩ := kind_timedelta.1 (of_decide_eq_true q2)
      exact hno k' ⟨r, .inr (by rw [← show v = _ from e]; exact q1)⟩
    have z2 : (params d.info).datetimes = [] := by
      rw [hp]
      refine List.eq_nil_iff_forall_not_mem.2 (fun ⟨k', v⟩ hx => ?_)
      obtain ⟨q1, q2⟩ := List.mem_filter.1 hx
      obtain ⟨r, e⟩ := kind_date.1 (of_decide_eq_true q2)
      exact hno k' ⟨r, .inl (by rw [← show v = _ from e]; exact q1)⟩
    rw [z1, z2]
    simp only [changes]
    rw [ht]
    dsimp only
    rw [hi]
    dsimp only
    rw [hf]
    dsimp only
    rw [← hl, ← hc]

/-- **C87** (which reader): a document without `dtypes_rle` is read by the older reader with one warning, whether or not its CSV text happens to be a JSON
document; one with `dtypes_rle` by the newer one without a warning if its text can be decoded … -/
theorem reader {α : Type} (L : Lib) (p : Pandas.Proc) (decode : Pandas.Buf → Except Exc α) (new : α → Nat → Except Exc Frame) (d : Doc) (buf : Pandas.Buf) (m : Nat)
    (hd : Pandas.restorePandas p d.data = .ok (buf, m)) (hx : ∀ e, decode buf = .error e → e.isException = true) :
    (d.info.rle = none → restore L p decode new d = (restoreOld L p d, 1)) ∧
      ∀ x r, d.info.rle = some r → decode buf = .ok x → restore L p decode new d = (new x r, 0) := by
  unfold restore
  rw [hd]
  dsimp only
  refine ⟨fun h => ?_, fun x r hr hdec => ?_⟩
  · cases hb : decode buf with
    | error e => dsimp only; rw [if_pos (hx e hb)]
    | ok x => dsimp only; rw [h]
  · rw [hdec]
    dsimp only
    rw [hr]

/-- … but by the older one if it cannot. -/
theorem undecodable {α : Type} (L : Lib) (p : Pandas.Proc) (decode : Pandas.Buf → Except Exc α) (new : α → Nat → Except Exc Frame) (d : Doc) (buf : Pandas.Buf) (m : Nat)
    (hd : Pandas.restorePandas p d.data = .ok (buf, m)) (e : Exc) (he : decode buf = .error e) (hx : e.isException = true) :
    restore L p decode new d = (restoreOld L p d, 1) := by
  unfold restore
  rw [hd]
  dsimp only
  rw [he]
  dsimp only
  rw [if_pos hx]

/-- pandas gives the dtypes that it is asked for: `complex` makes `complex128`, `to_timedelta` makes `timedelta64[ns]` -/
structure Lawful (L : Lib) : Prop where
  typed : ∀ d fs c, L.typed d fs = .ok c → c.dtype = d
  cast : ∀ d c0 c, L.cast d c0 = .ok c → c.dtype = d
  complexes : ∀ fs c, L.complexes fs = .ok c → c.dtype = p!"complex128"
  timedelta : ∀ c0 c, L.timedelta c0 = .ok c → c.dtype = p!"timedelta64[ns]"

/-- **C87** (dtypes): a column has its recorded dtype afterwards, unless that is one of complex numbers or time differences: then it is `complex128` or
`timedelta64[ns]`. -/
theorem dtype_read (L : Lib) (hL : Lawful L) (ds : List (Str × Str)) (hn : (ds.map (·.1)).Nodup) (k : Str) (fields : List Str) (c : Col) (h : Reads L ds k fields c)
    (d : Str) (hd : (k, d) ∈ ds) :
    c.dtype = d ∨ (∃ r, d = p!"complex" ++ r) ∧ c.dtype = p!"complex128" ∨ (∃ r, d = p!"timedelta" ++ r) ∧ c.dtype = p!"timedelta64[ns]" := by
  cases h with
  | date r c0 h1 h2 h3 => exact .inl (by rw [hL.cast _ _ _ h3]; exact unique_key hn h1 hd)
  | complex r h1 h2 => exact .inr (.inl ⟨⟨r, unique_key hn hd h1⟩, hL.complexes _ _ h2⟩)
  | timedelta r c0 h1 h2 h3 => exact .inr (.inr ⟨⟨r, unique_key hn hd h1⟩, hL.timedelta _ _ h3⟩)
  | other d' h1 h2 h3 => exact .inl (by rw [hL.typed _ _ _ h3]; exact unique_key hn h1 hd)
  | unlisted h => exact absurd hd (h d)

/-! ### an example -/

/-- a pandas that keeps the text of the fields -/
def lib : Lib where
  typed d fs := .ok { dtype := d, values := fs }
  dates fs := .ok { dtype := p!"object", values := fs }
  complexes fs := .ok { dtype := p!"complex128", values := fs }
  infer fs := .ok { dtype := p!"float64", values := fs }
  timedelta c := .ok { dtype := p!"timedelta64[ns]", values := c.values }
  cast d c := .ok { dtype := d, values := c.values }
  table csv _ := if csv = p!"t,z,w,n,x" then .ok [(p!"t", [p!"2020"]), (p!"z", [p!"1j"]), (p!"w", [p!"1 day"]), (p!"n", [p!"1"]), (p!"x", [p!"2"])] else .error .valueError
  index t := if t = p!"[0]" then .ok 7 else .error .valueError
  fits _ _ := .ok ()
  space c := c = 32 || c = 10

theorem lib_lawful : Lawful lib where
  typed d fs c h := by cases h; rfl
  cast d c0 c h := by cases h; rfl
  complexes fs c h := by cases h; rfl
  timedelta c0 c h := by cases h; rfl

def doc : Doc where
  data := { values := p!"t,z,w,n,x", txt := true, comp := none, meta_ := 0 }
  info := { dtypes := some [(p!"n", p!"int64"), (p!"t", p!"datetime64[us]"), (p!"w", p!"timedelta64[s]"), (p!"z", p!"complex64")], index := some p!"[0]", levelNames := some [p!"l"] }

def frame : Frame where
  columns := [(p!"t", { dtype := p!"datetime64[us]", values := [p!"2020"] }), (p!"z", { dtype := p!"complex128", values := [p!"1j"] }), (p!"w", { dtype := p!"timedelta64[ns]", values := [p!"1 day"] }), (p!"n", { dtype := p!"int64", values := [p!"1"] }), (p!"x", { dtype := p!"float64", values := [p!"2"] })]
  index := 7
  levelNames := some [p!"l"]

/-- A frame with a column of each sort, the dtypes in another order than the columns. -/
theorem example_frame : restore lib { sizeThreshold := some 500, compression := none } (fun _ => (.error .valueError : Except Exc Unit)) (fun _ _ => .error .keyError) doc = (.ok frame, 1) := by
  decide +kernel

/-- The dtypes `complex64` and `timedelta64[s]` are not restored. -/
example : (p!"z", p!"complex64") ∈ doc.info.dtypes.getD [] ∧ (∃ c, (p!"z", c) ∈ frame.columns ∧ c.dtype ≠ p!"complex64") ∧
    (p!"w", p!"timedelta64[s]") ∈ doc.info.dtypes.getD [] ∧ ∃ c, (p!"w", c) ∈ frame.columns ∧ c.dtype ≠ p!"timedelta64[s]" :=
  ⟨by decide, ⟨_, .tail _ (.head _), by decide⟩, by decide, ⟨_, .tail _ (.tail _ (.head _)), by decide⟩⟩

/-- the hypotheses of `old_frame` and `dtype_read` are met -/
example : ∃ t text, lib.table p!"t,z,w,n,x" [0] = .ok t ∧ (∀ k, Needed (doc.info.dtypes.getD []) k → ∃ fs, (k, fs) ∈ t) ∧
    Each (fun x y => x.1 = y.1 ∧ Reads lib (doc.info.dtypes.getD []) x.1 x.2 y.2) t frame.columns ∧ doc.info.index = some text ∧ lib.index text = .ok 7 ∧
    lib.fits 7 frame.columns = .ok () ∧ frame.levelNames = doc.info.levelNames.filter (· ≠ []) :=
  (old_frame lib { sizeThreshold := some 500, compression := none } doc frame p!"t,z,w,n,x" 0 rfl ⟨116, .head _, rfl⟩ (by decide)).1 (by decide +kernel)

/-- A document of the newer format with a text that cannot be decoded is read as CSV. -/
example : restore lib { sizeThreshold := some 500, compression := none } (fun _ => (.error .valueError : Except Exc Unit)) (fun _ _ => .error .keyError)
    { doc with info := { doc.info with rle := some 3 } } = (.ok frame, 1) := by
  decide +kernel

/-- An empty frame. -/
example : restoreOld lib { sizeThreshold := none, compression := none } { data := { values := p!" ", txt := true, comp := none, meta_ := 0 }, info := { index := some p!"[0]" } } =
    .ok { columns := [], index := 7, levelNames := none } := by
  decide +kernel

/-- Without a column of dates that is recorded, reading raises. -/
example : restoreOld lib { sizeThreshold := none, compression := none } { doc with info := { doc.info with dtypes := some [(p!"u", p!"datetime64[ns]")] } } = .error .valueError := by
  decide +kernel

end JP.PandasOld.C87
