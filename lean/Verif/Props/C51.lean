import Verif.Handlers
import Verif.Proofs.Base64
import Verif.Sample
import Verif.GraphSpec
/-!
# C51 — dates and times round-trip
-/
namespace JP.C51
open JP PyM Handlers

/-- the values that the constructors allow -/
def Valid : Temporal → Prop
  | .date y m d => y ≤ 9999 ∧ 1 ≤ m ∧ m ≤ 12 ∧ d ≤ 31
  | .time h mi s us _ _ => h < 24 ∧ mi < 60 ∧ s < 60 ∧ us < 1000000
  | .datetime y m d h mi s us _ _ => y ≤ 9999 ∧ 1 ≤ m ∧ m ≤ 12 ∧ d ≤ 31 ∧ h < 24 ∧ mi < 60 ∧ s < 60 ∧ us < 1000000

/-- the time zone object -/
def tz : Temporal → Option Val
  | .date .. => none
  | .time _ _ _ _ _ tz => tz
  | .datetime _ _ _ _ _ _ _ _ tz => tz

/-- is it the second of two times with the same digits -/
def fold : Temporal → Bool
  | .date .. => false
  | .time _ _ _ _ f _ => f
  | .datetime _ _ _ _ _ _ _ f _ => f

/-- the same date and time of day, with the given time zone object and not folded -/
def withTz : Temporal → Option Val → Temporal
  | .date y m d, _ => .date y m d
  | .time h mi s us _ _, tz => .time h mi s us false tz
  | .datetime y m d h mi s us _ _, tz => .datetime y m d h mi s us false tz

theorem map_toBytes : ∀ {xs : List Nat}, (∀ x ∈ xs, x < 256) → (toBytes xs).map UInt8.toNat = xs
  | [], _ => rfl
  | x :: xs, h => by
    have hx := h x (.head _)
    have ih := map_toBytes (xs := xs) (fun y hy => h y (.tail _ hy))
    simp only [toBytes, List.map_cons, List.map_map] at *
    rw [ih]
    congr 1
    simp [UInt8.toNat_ofNat, Nat.mod_eq_of_lt hx]

theorem micro (us : Nat) : (us / 256 / 256 * 256 + us / 256 % 256) * 256 + us % 256 = us := by omega

/-- the constructor reads the bytes of `__reduce__` -/
theorem new_reduce (isTz : Val → Bool) (t : Temporal) (hv : Valid t) (tz' : Option Val) (hn : tz t = none → tz' = none)
    (ht : ∀ v, tz' = some v → isTz v = true ∧ v ≠ .none) :
    Temporal.new isTz t.kind t.reduce.1 tz'.toList = .ok (withTz t tz') := by
  have harg : tzArg isTz tz'.toList = .ok tz' := by
    cases tz' with
    | none => rfl
    | some v =>
      obtain ⟨h1, h2⟩ := ht v rfl
      cases v <;> first | exact absurd rfl h2 | simp [tzArg, h1]
  cases t with
  | date y m d =>
    obtain ⟨h1, h2, h3, h4⟩ := hv
    cases hn rfl
    simp only [Temporal.kind, Temporal.reduce, Temporal.new]
    rw [map_toBytes (by intro x hx; simp at hx; omega)]
    simp only [Option.toList, List.isEmpty_nil, Bool.true_and, Bool.and_eq_true, decide_eq_true_eq, h2, h3, and_self, if_true, withTz]
    congr 2
    omega
  | time h mi s us f tz =>
    obtain ⟨h1, h2, h3, h4⟩ := hv
    simp only [Temporal.kind, Temporal.reduce, Temporal.new]
    rw [map_toBytes (by intro x hx; simp at hx; omega)]
    have e1 : h % 128 < 24 := by omega
    have e2 : ¬ h > 127 := by omega
    simp only [harg, e1, if_true, e2, if_false, decide_false, micro, withTz]
  | datetime y m d h mi s us f tz =>
    obtain ⟨h1, h2, h3, h4, h5, h6, h7, h8⟩ := hv
    simp only [Temporal.kind, Temporal.reduce, Temporal.new]
    rw [map_toBytes (by intro x hx; simp at hx; omega)]
    have e1 : m % 128 = m := by omega
    have e2 : ¬ m > 127 := by omega
    have e3 : y / 256 * 256 + y % 256 = y := by omega
    simp only [harg, e1, h2, h3, decide_true, Bool.and_self, if_true, e2, if_false, decide_false, micro, withTz, e3]

theorem reduce_args (t : Temporal) : t.reduce.2 = (tz t).toList := by cases t <;> rfl

/-- A date, time or datetime is written as its class and its fields, and reads back with the same class and the same fields, given that its class and its time
zone object (if it has one) read back as `c'` and `tz'`.  `fold` is set to 0: see `fold_lost`. -/
theorem datetime_roundtrip (fl : Val → P Json) (rs : Json → U Val) (kindOf : Val → Option Kind) (isTz : Val → Bool) (iso cls : Str) (t : Temporal) (hv : Valid t)
    (data : List (Str × Json)) (s s' : PState) (j : Json) (h : datetimeFlatten fl true iso cls t data s = some (.ok j, s'))
    (c' : Val) (tz' : Option Val) (u u1 u2 : UState) (hk : kindOf c' = some t.kind)
    (hc : ∀ s1 s2 jc, fl (.type cls) s1 = some (.ok jc, s2) → rs jc u = some (.ok c', u1))
    (ht : ∀ z, tz t = some z → ∃ z', tz' = some z' ∧ isTz z' = true ∧ z' ≠ .none ∧ ∀ s1 s2 jz, fl z s1 = some (.ok jz, s2) → rs jz u1 = some (.ok z', u2))
    (hn : tz t = none → tz' = none ∧ u2 = u1) :
    ∃ d, j = .obj d ∧ datetimeRestore rs kindOf isTz d u = some (.ok (withTz t tz'), u2) := by
  unfold datetimeFlatten at h
  simp only [Bool.not_true, Bool.false_eq_true, if_false] at h
  obtain ⟨args, s1, h1, h2⟩ := bind_eq_ok.1 h
  obtain ⟨jc, s2, h3, h4⟩ := bind_eq_ok.1 h2
  cases h4
  refine ⟨_, rfl, ?_⟩
  have hp : mapM rs args u1 = some (.ok tz'.toList, u2) := by
    rw [reduce_args] at h1
    cases hz : tz t with
    | none =>
      obtain ⟨e1, e2⟩ := hn hz
      rw [hz] at h1
      cases h1
      rw [e1, e2]
      rfl
    | some z =>
      obtain ⟨z', e1, _, _, e4⟩ := ht z hz
      rw [hz] at h1
      simp only [Option.toList, mapM_cons] at h1
      obtain ⟨jz, s3, h5, h6⟩ := bind_eq_ok.1 h1
      obtain ⟨js, s4, h7, h8⟩ := bind_eq_ok.1 h6
      cases h7
      cases h8
      rw [e1]
      simp only [Option.toList, mapM_cons]
      rw [bind_ok (e4 _ _ _ h5)]
      rfl
  unfold datetimeRestore
  have hi : Unpickler.item p!"__reduce__" (dset p!"__reduce__" (.arr [jc, .arr (.str (b64encode t.reduce.1) :: args)]) data) = .ok (.arr [jc, .arr (.str (b64encode t.reduce.1) :: args)]) := by
    unfold Unpickler.item
    rw [dget_dset_same]
  rw [hi]
  refine (bind_ok (s' := u) rfl).trans ?_
  refine (bind_ok (a := [jc, .arr (.str (b64encode t.reduce.1) :: args)]) (s' := u) rfl).trans ?_
  refine (bind_ok (hc _ _ _ h3)).trans ?_
  refine (bind_ok (a := (.str (b64encode t.reduce.1), args)) (s' := u1) rfl).trans ?_
  have ha : (b64encode t.reduce.1).all (· < 128) = true := by
    have := b64encode_ascii t.reduce.1
    simpa using this
  have hb : Unpickler.dateBytes (.str (b64encode t.reduce.1)) = .ok (b64decode (b64encode t.reduce.1)) := by
    unfold Unpickler.dateBytes
    simp only [ha, if_true]
  refine (bind_ok (a := b64decode (b64encode t.reduce.1)) (s' := u1) (by simp only [hb]; rfl)).trans ?_
  refine (bind_ok hp).trans ?_
  simp only [hk]
  rw [b64decode_encode, new_reduce isTz t hv tz' (fun h => (hn h).1)]
  · rfl
  · intro v hv'
    cases hz : tz t with
    | none => rw [(hn hz).1] at hv'; cases hv'
    | some z =>
      obtain ⟨z', e1, e2, e3, _⟩ := ht z hz
      rw [e1] at hv'
      cases hv'
      exact ⟨e2, e3⟩

/-- nothing is lost for values without `fold` -/
theorem withTz_self (t : Temporal) (h : fold t = false) : withTz t (tz t) = t := by
  cases t <;> simp_all [withTz, tz, fold]

/-- With `unpicklable=False` the ISO text is written. -/
theorem iso_text (fl : Val → P Json) (iso cls : Str) (t : Temporal) (data : List (Str × Json)) (s : PState) : datetimeFlatten fl false iso cls t data s = some (.ok (.str iso), s) := rfl

/-! ### an example, and what is lost -/

def flS : Val → P Json := fun v s => match v with
  | .type n => some (.ok (.obj [(p!"py/type", .str n)]), s)
  | .ref 0 => some (.ok (.obj [(p!"py/object", .str p!"m.Tz")]), s)
  | _ => none

def rsS : Json → U Val := fun j u => match j with
  | .obj [(_, .str n)] => some (.ok (if n = p!"m.Tz" then .ref 7 else .type n), u)
  | _ => none

def kinds : Val → Option Kind
  | .type n => if n = p!"datetime.datetime" then some .datetime else none
  | _ => none

/-- written and read -/
def trip (t : Temporal) : Option (Except Exc Temporal) :=
  match datetimeFlatten flS true [] p!"datetime.datetime" t [] {} with
  | some (.ok (.obj d), _) => (datetimeRestore rsS kinds (fun _ => true) d {}).map (·.1)
  | _ => none

example : trip (.datetime 2026 11 15 8 49 36 123456 false (some (.ref 0))) = some (.ok (.datetime 2026 11 15 8 49 36 123456 false (some (.ref 7)))) := by rfl

/-- the payload is that of `pickle` -/
example : (match datetimeFlatten flS true [] p!"datetime.datetime" (.datetime 2026 11 15 8 49 36 123456 false none) [] {} with
    | some (.ok (.obj [(k, .arr [_, .arr [.str p]])]), _) => decide (k = p!"__reduce__" ∧ p = p!"B+oLDwgxJAHiQA==")
    | _ => false) = true := by decide +kernel

example : Valid (.datetime 2026 11 15 8 49 36 123456 false (some (.ref 0))) := by simp [Valid]

/-- The second 2:30 in the night in which the clock is set back (`fold=1`) reads back as the first one: `DatetimeHandler` uses `__reduce__()`, which leaves out `fold`. -/
theorem fold_lost : Valid (.datetime 2026 10 25 2 30 0 0 true none) ∧
    trip (.datetime 2026 10 25 2 30 0 0 true none) = some (.ok (.datetime 2026 10 25 2 30 0 0 false none)) := ⟨by simp [Valid], rfl⟩

/-- A document that names `None` as the time zone is one without a time zone. -/
theorem none_is_no_zone (isTz : Val → Bool) (k : Kind) (hk : k ≠ .date) (b : Bytes) : Temporal.new isTz k b [.none] = Temporal.new isTz k b [] := by
  cases k with
  | date => exact absurd rfl hk
  | time => unfold Temporal.new tzArg; split <;> simp_all
  | datetime => unfold Temporal.new tzArg; split <;> simp_all

example : (Temporal.new (fun _ => false) .time (toBytes [1, 2, 3, 0, 0, 4]) [.none]).toOption = some (.time 1 2 3 4 false none) := by rfl

/-- Documents that the encoder does not write: without a payload `args[0]` raises `IndexError`; a payload with other characters than ASCII raises `ValueError`; one that
is no text is taken for an empty one. -/
theorem bad_payload (rs : Json → U Val) (kindOf : Val → Option Kind) (isTz : Val → Bool) (c : Json) (cls : Val) (u u1 : UState) (h : rs c u = some (.ok cls, u1)) :
    datetimeRestore rs kindOf isTz [(p!"__reduce__", .arr [c, .arr []])] u = some (.error .indexError, u1) ∧
    (∀ p ps, (∃ x ∈ p, 128 ≤ x) → datetimeRestore rs kindOf isTz [(p!"__reduce__", .arr [c, .arr (.str p :: ps)])] u = some (.error .valueError, u1)) ∧
    ∀ j ps, (∀ p, j ≠ .str p) → datetimeRestore rs kindOf isTz [(p!"__reduce__", .arr [c, .arr (j :: ps)])] u =
      datetimeRestore rs kindOf isTz [(p!"__reduce__", .arr [c, .arr (.str [] :: ps)])] u := by
  have key : ∀ j ps, datetimeRestore rs kindOf isTz [(p!"__reduce__", .arr [c, .arr (j :: ps)])] u =
      (PyM.ofExcept (Unpickler.dateBytes j) >>= fun b => PyM.mapM rs ps >>= fun params => match kindOf cls with
        | some k => PyM.ofExcept (Temporal.new isTz k b params)
        | none => PyM.throw .typeError) u1 := fun j ps => by
    unfold datetimeRestore
    refine (bind_ok (s' := u) rfl).trans ((bind_ok (s' := u) rfl).trans ?_)
    refine (bind_ok h).trans ((bind_ok (s' := u1) rfl).trans ?_)
    rfl
  refine ⟨?_, fun p ps hp => ?_, fun j ps hj => ?_⟩
  · unfold datetimeRestore
    refine (bind_ok (s' := u) rfl).trans ((bind_ok (s' := u) rfl).trans ?_)
    exact (bind_ok h).trans rfl
  · have : Unpickler.dateBytes (.str p) = .error .valueError := by
      show (if p.all (· < 128) then _ else _) = _
      rw [if_neg]
      intro ha
      obtain ⟨x, hx, hx'⟩ := hp
      have := List.all_eq_true.1 ha x hx
      simp at this
      omega
    rw [key, this]
    rfl
  · have : Unpickler.dateBytes j = Unpickler.dateBytes (.str []) := by
      cases j with
      | str p => exact absurd rfl (hj p)
      | _ => rfl
    rw [key, key, this]

example : datetimeRestore rsS kinds (fun _ => true) [(p!"__reduce__", .arr [.obj [(p!"py/type", .str p!"datetime.datetime")], .arr [.str [233]]])] {} = some (.error .valueError, {}) :=
  (bad_payload rsS kinds _ _ (.type p!"datetime.datetime") {} {} rfl).2.1 _ _ ⟨233, by simp, by decide⟩

end JP.C51
