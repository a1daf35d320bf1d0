import Verif.PandasOld
/-!
# Reading the columns of older data frames
-/
namespace JP.PandasOld
open JP

/-- two lists of the same length, related element by element -/
inductive Each {α β : Type} (R : α → β → Prop) : List α → List β → Prop
  | nil : Each R [] []
  | cons {a b l m} : R a b → Each R l m → Each R (a :: l) (b :: m)

namespace Each
variable {α β γ : Type} {R : α → β → Prop} {S : β → γ → Prop}

theorem imp {R' : α → β → Prop} {l : List α} {m : List β} (h : Each R l m) (f : ∀ a ∈ l, ∀ b, R a b → R' a b) : Each R' l m := by
  induction h with
  | nil => exact .nil
  | cons r _ ih => exact .cons (f _ (.head _) _ r) (ih (fun a ha b hb => f a (.tail _ ha) b hb))

theorem comp {l : List α} {m : List β} {n : List γ} (h : Each R l m) (g : Each S m n) : Each (fun a c => ∃ b, R a b ∧ S b c) l n := by
  induction h generalizing n with
  | nil => cases g; exact .nil
  | cons r _ ih =>
    cases g with
    | cons s g => exact .cons ⟨_, r, s⟩ (ih g)

theorem split {l : List α} {n : List γ} (h : Each (fun a c => ∃ b, R a b ∧ S b c) l n) : ∃ m, Each R l m ∧ Each S m n := by
  induction h with
  | nil => exact ⟨[], .nil, .nil⟩
  | cons r _ ih =>
    obtain ⟨b, r, s⟩ := r
    obtain ⟨m, h, g⟩ := ih
    exact ⟨b :: m, .cons r h, .cons s g⟩

theorem refl {R : α → α → Prop} : ∀ (l : List α), (∀ a ∈ l, R a a) → Each R l l
  | [], _ => .nil
  | a :: l, h => .cons (h a (.head _)) (refl l (fun b hb => h b (.tail _ hb)))

theorem keys {β γ : Type} {R : Str × β → Str × γ → Prop} {l : List (Str × β)} {m : List (Str × γ)} (h : Each R l m) (hk : ∀ a b, R a b → a.1 = b.1) :
    l.map (·.1) = m.map (·.1) := by
  induction h with
  | nil => rfl
  | cons r _ ih => rw [List.map_cons, List.map_cons, ih, hk _ _ r]

end Each

theorem mapE_iff {α β : Type} {f : α → Except Exc β} : ∀ {l : List α} {m : List β}, mapE f l = .ok m ↔ Each (fun a b => f a = .ok b) l m
  | [], m => by
    constructor
    · intro h; cases h; exact .nil
    · intro h; cases h; rfl
  | a :: l, m => by
    constructor
    · intro h
      simp only [mapE] at h
      split at h
      · cases h
      · next y hy =>
        split at h
        · cases h
        · next ys hys =>
          cases h
          exact .cons hy (mapE_iff.1 hys)
    · intro h
      cases h with
      | cons r h => simp only [mapE, r, mapE_iff.2 h]

/-- what a change does to one column -/
def Changed {α : Type} (g : α → Str × (Col → Except Exc Col)) (as : List α) (x y : Str × Col) : Prop :=
  x.1 = y.1 ∧ (∀ a ∈ as, (g a).1 = x.1 → (g a).2 x.2 = .ok y.2) ∧ ((∀ a ∈ as, (g a).1 ≠ x.1) → x.2 = y.2)

theorem change_iff {k : Str} {f : Col → Except Exc Col} {df df' : List (Str × Col)} :
    change k f df = .ok df' ↔ k ∈ df.map (·.1) ∧ Each (fun x y => x.1 = y.1 ∧ (k = x.1 → f x.2 = .ok y.2) ∧ (k ≠ x.1 → x.2 = y.2)) df df' := by
  unfold change
  by_cases hk : k ∈ df.map (·.1)
  · rw [if_pos hk, mapE_iff]
    refine ⟨fun h => ⟨hk, h.imp ?_⟩, fun h => h.2.imp ?_⟩
    · rintro ⟨l, c⟩ _ ⟨l', c'⟩ h
      dsimp only at h ⊢
      by_cases e : l = k
      · rw [if_pos e] at h
        split at h
        · cases h
        · next y hy => cases h; exact ⟨rfl, fun _ => hy, fun n => absurd e.symm n⟩
      · rw [if_neg e] at h
        cases h
        exact ⟨rfl, fun n => absurd n.symm e, fun _ => rfl⟩
    · rintro ⟨l, c⟩ _ ⟨l', c'⟩ ⟨h1, h2, h3⟩
      dsimp only at h1 h2 h3 ⊢
      subst h1
      by_cases e : l = k
      · rw [if_pos e, h2 e.symm]
      · rw [if_neg e, h3 (fun n => e n.symm)]
  · rw [if_neg hk]
    exact ⟨fun h => (by cases h), fun h => absurd h.1 hk⟩

theorem changes_iff {α : Type} {g : α → Str × (Col → Except Exc Col)} : ∀ {as : List α}, (as.map (fun a => (g a).1)).Nodup → ∀ {df df' : List (Str × Col)},
    (changes g as df = .ok df' ↔ (∀ a ∈ as, (g a).1 ∈ df.map (·.1)) ∧ Each (Changed g as) df df')
  | [], _, df, df' => by
    constructor
    · intro h
      cases h
      exact ⟨(fun a ha => by cases ha), Each.refl _ (fun a _ => ⟨rfl, (fun a ha => by cases ha), fun _ => rfl⟩)⟩
    · intro h
      replace h := h.2
      have : df = df' := by
        induction h with
        | nil => rfl
        | cons r _ ih =>
          obtain ⟨h1, _, h3⟩ := r
          rw [ih, Prod.ext h1 (h3 (fun a ha => by cases ha))]
      rw [this]; rfl
  | a :: as, hn, df, df' => by
    rw [List.map_cons, List.nodup_cons] at hn
    obtain ⟨hn1, hn2⟩ := hn
    have hne : ∀ b ∈ as, (g b).1 ≠ (g a).1 := fun b hb e => hn1 (List.mem_map.2 ⟨b, hb, e⟩)
    simp only [changes]
    constructor
    · intro h
      split at h
      · cases h
      · next df1 h1 =>
        obtain ⟨k1, e1⟩ := change_iff.1 h1
        obtain ⟨k2, e2⟩ := (changes_iff hn2).1 h
        have hk := e1.keys (fun a b r => r.1)
        refine ⟨fun b hb => ?_, (e1.comp e2).imp ?_⟩
        · rcases List.mem_cons.1 hb with rfl | hb
          · exact k1
          · rw [hk]; exact k2 b hb
        · rintro x _ z ⟨y, ⟨r1, r2, r3⟩, s1, s2, s3⟩
          refine ⟨r1.trans s1, fun b hb e => ?_, fun n => ?_⟩
          · rcases List.mem_cons.1 hb with rfl | hb
            · rw [r2 e]
              rw [s3 (fun c hc q => hne c hc ((q.trans r1.symm).trans e.symm))]
            · rw [r3 (fun q => hne b hb (e.trans q.symm))]
              exact s2 b hb (e.trans r1)
          · rw [r3 (n a (.head _))]
            exact s3 (fun c hc q => n c (.tail _ hc) (q.trans r1.symm))
    · rintro ⟨hk, he⟩
      have : Each (fun x z => ∃ y, (x.1 = y.1 ∧ ((g a).1 = x.1 → (g a).2 x.2 = .ok y.2) ∧ ((g a).1 ≠ x.1 → x.2 = y.2)) ∧ Changed g as y z) df df' := by
        refine he.imp ?_
        rintro x _ z ⟨h1, h2, h3⟩
        by_cases e : (g a).1 = x.1
        · refine ⟨z, ⟨h1, fun _ => h2 a (.head _) e, fun n => absurd e n⟩, rfl, fun b hb q => ?_, fun _ => rfl⟩
          exact absurd ((q.trans h1.symm).trans e.symm) (hne b hb)
        · refine ⟨x, ⟨rfl, fun n => absurd n e, fun _ => rfl⟩, h1, fun b hb q => h2 b (.tail _ hb) q, fun n => h3 (fun b hb => ?_)⟩
          rcases List.mem_cons.1 hb with rfl | hb
          · exact e
          · exact n b hb
      obtain ⟨df1, e1, e2⟩ := this.split
      have hk1 := e1.keys (fun a b r => r.1)
      rw [change_iff.2 ⟨hk a (.head _), e1⟩]
      refine (changes_iff hn2).2 ⟨fun b hb => ?_, e2⟩
      rw [← hk1]
      exact hk b (.tail _ hb)

/-! ### the arguments of `read_csv` -/

inductive Kind
  | date | complex | timedelta | other
  deriving DecidableEq

def kind (d : Str) : Kind :=
  if startsWith d p!"datetime" then .date else if startsWith d p!"complex" then .complex else if startsWith d p!"timedelta" then .timedelta else .other

def plainType (kv : Str × Str) : Option (Str × Str) :=
  match kind kv.2 with
  | .timedelta => some (kv.1, p!"object")
  | .other => some kv
  | _ => none

def ofKind (q : Kind) (l : List (Str × Str)) : List (Str × Str) := l.filter (fun kv => kind kv.2 = q)

theorem fold_params : ∀ (l : List (Str × Str)) (P : Params), l.foldl step P = { dtype := P.dtype ++ l.filterMap plainType, header := P.header, parseDates := P.parseDates ++ (ofKind .date l).map (·.1), converters := P.converters ++ (ofKind .complex l).map (·.1), timedeltas := P.timedeltas ++ (ofKind .timedelta l).map (·.1), datetimes := P.datetimes ++ ofKind .date l }
  | [], P => by simp [ofKind]
  | kv :: l, P => by
    rw [List.foldl_cons, fold_params l]
    simp only [step, ofKind]
    by_cases h1 : startsWith kv.2 p!"datetime" = true
    · simp [h1, kind, plainType]
    by_cases h2 : startsWith kv.2 p!"complex" = true
    · simp [h1, h2, kind, plainType]
    by_cases h3 : startsWith kv.2 p!"timedelta" = true
    · simp [h1, h2, h3, kind, plainType]
    · simp [h1, h2, h3, kind, plainType]

theorem params_eq (m : Meta) : params m = { dtype := (m.dtypes.getD []).filterMap plainType, header := m.header.getD [0], parseDates := (ofKind .date (m.dtypes.getD [])).map (·.1), converters := (ofKind .complex (m.dtypes.getD [])).map (·.1), timedeltas := (ofKind .timedelta (m.dtypes.getD [])).map (·.1), datetimes := ofKind .date (m.dtypes.getD []) } := by
  unfold params
  rw [fold_params]
  simp

theorem find_plain {k d : Str} : ∀ {l : List (Str × Str)}, (l.map (·.1)).Nodup → (k, d) ∈ l → find k (l.filterMap plainType) = (plainType (k, d)).map (·.2)
  | [], _, h => by cases h
  | (k', d') :: l, hn, h => by
    rw [List.map_cons, List.nodup_cons] at hn
    rcases List.mem_cons.1 h with e | h
    · cases e
      have hno : find k (l.filterMap plainType) = none := by
        have : ∀ m : List (Str × Str), k ∉ m.map (·.1) → find k (m.filterMap plainType) = none := by
          intro m
          induction m with
          | nil => intro _; rfl
          | cons x m ih =>
            intro hm
            simp only [List.map_cons, List.mem_cons, not_or] at hm
            rw [List.filterMap_cons]
            have : ∀ y, plainType x = some y → y.1 = x.1 := by
              intro y hy
              unfold plainType at hy
              split at hy <;> cases hy <;> rfl
            split
            · exact ih hm.2
            · next y hy =>
              obtain ⟨y1, y2⟩ := y
              rw [find, if_neg (fun e => hm.1 (by rw [← this _ hy]; exact e.symm))]
              exact ih hm.2
        exact this l hn.1
      rw [List.filterMap_cons]
      unfold plainType
      cases hk : kind d <;> simp only [hk]
      · exact hno
      · exact hno
      · simp [find]
      · simp [find]
    · have hne : k' ≠ k := fun e => hn.1 (by rw [e]; exact List.mem_map.2 ⟨_, h, rfl⟩)
      rw [List.filterMap_cons, ← find_plain hn.2 h]
      split
      · rfl
      · next y hy =>
        have : y.1 = k' := by
          unfold plainType at hy
          split at hy <;> cases hy <;> rfl
        obtain ⟨y1, y2⟩ := y
        rw [find, if_neg (by rw [show y1 = k' from this]; exact hne)]

theorem find_absent {k : Str} : ∀ {l : List (Str × Str)}, k ∉ l.map (·.1) → find k (l.filterMap plainType) = none
  | [], _ => rfl
  | x :: l, h => by
    simp only [List.map_cons, List.mem_cons, not_or] at h
    rw [List.filterMap_cons]
    split
    · exact find_absent h.2
    · next y hy =>
      have : y.1 = x.1 := by
        unfold plainType at hy
        split at hy <;> cases hy <;> rfl
      obtain ⟨y1, y2⟩ := y
      rw [find, if_neg (fun e => h.1 (by rw [← show y1 = x.1 from this]; exact e.symm))]
      exact find_absent h.2

theorem unique_key {l : List (Str × Str)} (hn : (l.map (·.1)).Nodup) {k d d' : Str} (h : (k, d) ∈ l) (h' : (k, d') ∈ l) : d = d' := by
  induction l with
  | nil => cases h
  | cons x l ih =>
    rw [List.map_cons, List.nodup_cons] at hn
    rcases List.mem_cons.1 h with e | h
    · rcases List.mem_cons.1 h' with e' | h'
      · have := e.trans e'.symm; cases this; rfl
      · exact absurd (List.mem_map.2 ⟨_, h', by rw [← e]⟩) hn.1
    · rcases List.mem_cons.1 h' with e' | h'
      · exact absurd (List.mem_map.2 ⟨_, h, by rw [← e']⟩) hn.1
      · exact ih hn.2 h h'

theorem mem_ofKind {q : Kind} {l : List (Str × Str)} (hn : (l.map (·.1)).Nodup) {k d : Str} (h : (k, d) ∈ l) : k ∈ (ofKind q l).map (·.1) ↔ kind d = q := by
  constructor
  · intro hm
    obtain ⟨⟨k', d'⟩, hm', e⟩ := List.mem_map.1 hm
    obtain ⟨hm', hq⟩ := List.mem_filter.1 hm'
    cases e
    rw [unique_key hn h hm']
    exact of_decide_eq_true hq
  · intro hq
    exact List.mem_map.2 ⟨(k, d), List.mem_filter.2 ⟨h, decide_eq_true hq⟩, rfl⟩

theorem not_ofKind {q : Kind} {l : List (Str × Str)} {k : Str} (h : k ∉ l.map (·.1)) : k ∉ (ofKind q l).map (·.1) := by
  intro hm
  obtain ⟨x, hm, e⟩ := List.mem_map.1 hm
  exact h (List.mem_map.2 ⟨x, (List.mem_filter.1 hm).1, e⟩)

end JP.PandasOld
