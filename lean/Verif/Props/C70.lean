import Verif.Extensions
/-!
# C70 — `unregister_handlers` of the extensions

For gmpy it undoes `register_handlers`.  For numpy and pandas everything is undone except for `np.datetime64`, which keeps its handler.
-/
namespace JP.C70
open JP JP.Registry JP.Ext

/-- the classes given to `register` -/
def registered : List Op → List (Nat × Nat)
  | [] => []
  | .reg c h _ :: r => (c, h) :: registered r
  | .unreg _ :: r => registered r

/-- no handler is registered for any of the classes, or under their names, and they have different names -/
structure New (w : Classes) (r : Reg) (cs : List Nat) : Prop where
  classes : ∀ c ∈ cs, ∀ h, (Key.ty c, h) ∉ r.handlers ∧ (c, h) ∉ r.base
  names : ∀ c ∈ cs, ∀ h, (Key.name (w.iname c), h) ∉ r.handlers
  distinct : (cs.map w.iname).Nodup

/-- the entries that `register(c, h, base=True)` makes -/
def entries (w : Classes) (e : Nat × Nat) : List (Key × Nat) := [(.name (w.iname e.1), e.2), (.ty e.1, e.2)]

theorem mem_keys {α : Type} {k : α} {d : List (α × Nat)} : k ∈ d.map (·.1) ↔ ∃ h, (k, h) ∈ d := by
  constructor
  · intro h
    obtain ⟨e, h1, rfl⟩ := List.mem_map.1 h
    exact ⟨e.2, h1⟩
  · rintro ⟨h, h1⟩
    exact List.mem_map.2 ⟨_, h1, rfl⟩

theorem registers (w : Classes) : ∀ (l : List (Nat × Nat)) (r : Reg), New w r (l.map (·.1)) →
    after w r (l.map fun e => .reg e.1 e.2 true) = { handlers := r.handlers ++ l.flatMap (entries w), base := r.base ++ l }
  | [], r, _ => by simp [after]
  | (c, h) :: l, r, hn => by
    have hd := List.nodup_cons.1 hn.distinct
    have h1 : step w r (.reg c h true) = { handlers := r.handlers ++ entries w (c, h), base := r.base ++ [(c, h)] } := by
      have e1 : Key.name (w.iname c) ∉ r.handlers.map (·.1) := fun hm => by
        obtain ⟨x, hx⟩ := mem_keys.1 hm
        exact hn.names c (by simp) x hx
      have e2 : Key.ty c ∉ (r.handlers ++ [(Key.name (w.iname c), h)]).map (·.1) := fun hm => by
        rw [List.map_append, List.mem_append] at hm
        rcases hm with hm | hm
        · obtain ⟨x, hx⟩ := mem_keys.1 hm
          exact (hn.classes c (by simp) x).1 hx
        · simp at hm
      have e3 : c ∉ r.base.map (·.1) := fun hm => by
        obtain ⟨x, hx⟩ := mem_keys.1 hm
        exact (hn.classes c (by simp) x).2 hx
      simp only [step, register, if_true]
      rw [dset_of_not_mem _ _ _ e1, dset_of_not_mem _ _ _ e2, dset_of_not_mem _ _ _ e3]
      simp [entries]
    have hc : ∀ c' ∈ l.map (·.1), c' ≠ c := fun c' hc' e => hd.1 (by subst e; exact List.mem_map_of_mem hc')
    have h2 : New w (step w r (.reg c h true)) (l.map (·.1)) := by
      rw [h1]
      refine ⟨fun c' hc' x => ⟨fun hm => ?_, fun hm => ?_⟩, fun c' hc' x hm => ?_, hd.2⟩
      · rcases List.mem_append.1 hm with hm | hm
        · exact (hn.classes c' (by simp at hc' ⊢; exact .inr hc') x).1 hm
        · simp [entries] at hm
          exact hc c' hc' hm.1
      · rcases List.mem_append.1 hm with hm | hm
        · exact (hn.classes c' (by simp at hc' ⊢; exact .inr hc') x).2 hm
        · simp at hm
          exact hc c' hc' hm.1
      · rcases List.mem_append.1 hm with hm | hm
        · exact hn.names c' (by simp at hc' ⊢; exact .inr hc') x hm
        · simp [entries] at hm
          exact hd.1 (by rw [← hm.1]; exact List.mem_map_of_mem hc')
    have := registers w l (step w r (.reg c h true)) h2
    simp only [after, List.map_cons, List.foldl_cons] at this ⊢
    rw [this, h1]
    simp

/-- the key is the class or the name of one of these -/
def keyOf (w : Classes) (cs : List Nat) (k : Key) : Bool := cs.any fun c => k == .ty c || k == .name (w.iname c)

theorem unregisters (w : Classes) : ∀ (cs : List Nat) (r : Reg),
    after w r (cs.map .unreg) = { handlers := r.handlers.filter (fun e => !keyOf w cs e.1), base := r.base.filter (fun e => !cs.contains e.1) }
  | [], r => by
    have h1 : r.handlers.filter (fun _ => true) = r.handlers := List.filter_eq_self.2 fun _ _ => rfl
    have h2 : r.base.filter (fun _ => true) = r.base := List.filter_eq_self.2 fun _ _ => rfl
    simp [after, keyOf, h1, h2]
  | c :: cs, r => by
    have := unregisters w cs (step w r (.unreg c))
    simp only [after, List.map_cons, List.foldl_cons] at this ⊢
    rw [this]
    simp only [step, unregister, ddel, List.filter_filter, Reg.mk.injEq]
    constructor
    · refine List.filter_congr fun e _ => ?_
      simp only [keyOf, List.any_cons]
      by_cases h1 : e.1 = .ty c <;> by_cases h2 : e.1 = .name (w.iname c) <;> simp [h1, h2]
    · refine List.filter_congr fun e _ => ?_
      by_cases h1 : e.1 = c <;> simp [h1]

theorem inj_of_nodup {f : Nat → Str} : ∀ {l : List Nat}, (l.map f).Nodup → ∀ {a b : Nat}, a ∈ l → b ∈ l → f a = f b → a = b
  | [], _, _, _, h, _, _ => by cases h
  | x :: l, hn, a, b, ha, hb, e => by
    have hd := List.nodup_cons.1 hn
    rcases List.mem_cons.1 ha with h1 | h1 <;> rcases List.mem_cons.1 hb with h2 | h2
    · rw [h1, h2]
    · exact absurd (by rw [← h1, e]; exact List.mem_map_of_mem h2) hd.1
    · exact absurd (by rw [← h2, ← e]; exact List.mem_map_of_mem h1) hd.1
    · exact inj_of_nodup hd.2 h1 h2 e

/-- registering `l` and then unregistering the classes `us` leaves the entries of the others -/
theorem left_over (w : Classes) (r : Reg) (l : List (Nat × Nat)) (us : List Nat) (hn : New w r (l.map (·.1))) (hu : ∀ u ∈ us, u ∈ l.map (·.1)) :
    after w r ((l.map fun e => .reg e.1 e.2 true) ++ us.map .unreg) =
      { handlers := r.handlers ++ (l.filter fun e => !us.contains e.1).flatMap (entries w), base := r.base ++ l.filter fun e => !us.contains e.1 } := by
  have : after w r ((l.map fun e => .reg e.1 e.2 true) ++ us.map .unreg) = after w (after w r (l.map fun e => .reg e.1 e.2 true)) (us.map .unreg) := by
    simp [after]
  rw [this, registers w l r hn, unregisters]
  have keep : ∀ {e : Key × Nat}, e ∈ r.handlers → keyOf w us e.1 = false := fun {e} he => by
    rw [Bool.eq_false_iff]
    intro h
    obtain ⟨c, hc, h⟩ := List.any_eq_true.1 h
    rcases Bool.or_eq_true _ _ ▸ h with h | h
    · exact (hn.classes c (hu c hc) e.2).1 (by rw [← beq_iff_eq.1 h]; exact he)
    · exact hn.names c (hu c hc) e.2 (by rw [← beq_iff_eq.1 h]; exact he)
  have keepB : ∀ {e : Nat × Nat}, e ∈ r.base → us.contains e.1 = false := fun {e} he => by
    rw [Bool.eq_false_iff]
    intro h
    exact (hn.classes e.1 (hu _ (List.contains_iff_mem.1 h)) e.2).2 he
  have new : ∀ {e : Nat × Nat}, e ∈ l → ∀ x ∈ entries w e, keyOf w us x.1 = us.contains e.1 := fun {e} he x hx => by
    rw [Bool.eq_iff_iff]
    simp only [keyOf, List.any_eq_true, Bool.or_eq_true, beq_iff_eq, List.contains_iff_mem]
    simp only [entries, List.mem_cons, List.not_mem_nil, or_false] at hx
    rcases hx with rfl | rfl
    · constructor
      · rintro ⟨c, hc, h | h⟩
        · cases h
        · injection h with h
          rw [inj_of_nodup hn.distinct (List.mem_map_of_mem he) (hu c hc) h]
          exact hc
      · exact fun h => ⟨_, h, .inr rfl⟩
    · constructor
      · rintro ⟨c, hc, h | h⟩
        · injection h with h
          rw [h]
          exact hc
        · cases h
      · exact fun h => ⟨_, h, .inl rfl⟩
  simp only [List.filter_append, Reg.mk.injEq]
  refine ⟨?_, ?_⟩
  · congr 1
    · exact List.filter_eq_self.2 fun e he => by rw [keep he]; rfl
    · revert new
      clear hn hu this
      induction l with
      | nil => intro _; rfl
      | cons e l ih =>
        intro new
        rw [List.flatMap_cons, List.filter_append, ih fun he => new (List.mem_cons_of_mem _ he), List.filter_cons]
        have h1 := new List.mem_cons_self
        cases hc : us.contains e.1 with
        | true =>
          have : (entries w e).filter (fun e => !keyOf w us e.1) = [] := List.filter_eq_nil_iff.2 fun x hx => by rw [h1 x hx, hc]; simp
          rw [this]
          simp
        | false =>
          have : (entries w e).filter (fun e => !keyOf w us e.1) = entries w e := List.filter_eq_self.2 fun x hx => by rw [h1 x hx, hc]; rfl
          rw [this]
          simp
  · congr 1
    exact List.filter_eq_self.2 fun e he => by rw [keepB he]; rfl

/-- gmpy: the registry is what it was before -/
theorem gmpy_undone (w : Classes) (r : Reg) (installed : Bool) (hn : New w r [mpz]) : after w r (registerGmpy installed ++ unregisterGmpy installed) = r := by
  cases installed
  · rfl
  · have := left_over w r [(mpz, mpzHandler)] [mpz] hn (by simp)
    exact this.trans (by simp)

/-- `np.datetime64` still has its handler -/
def withDatetime (w : Classes) (r : Reg) : Reg :=
  { handlers := r.handlers ++ [(.name (w.iname datetime64), datetimeHandler), (.ty datetime64, datetimeHandler)], base := r.base ++ [(datetime64, datetimeHandler)] }

/-- numpy: the handler of `np.datetime64` is left, everything else is as before -/
theorem numpy_left (w : Classes) (r : Reg) (hn : New w r ((registered registerNumpy).map (·.1))) : after w r (registerNumpy ++ unregisterNumpy) = withDatetime w r :=
  left_over w r (registered registerNumpy) [dtype, generic, ndarray, voidDtype, float32Dtype, int32Dtype, datetime64Dtype, ufunc] hn (by decide)

/-- pandas: the same -/
theorem pandas_left (w : Classes) (r : Reg) (hn : New w r ((registered registerPandas).map (·.1))) : after w r (registerPandas ++ unregisterPandas) = withDatetime w r :=
  left_over w r (registered registerPandas) [dtype, generic, ndarray, voidDtype, float32Dtype, int32Dtype, datetime64Dtype, ufunc,
    dataFrame, series, index, periodIndex, multiIndex, timestamp, period, interval] hn (by decide)

theorem findBase_append (w : Classes) (t : Nat) : ∀ (l m : List (Nat × Nat)), findBase w t (l ++ m) = (findBase w t l).or (findBase w t m)
  | [], m => by simp [findBase]
  | (c, h) :: l, m => by
    simp only [List.cons_append, findBase]
    split
    · rfl
    · exact findBase_append w t l m

/-- So after `unregister_handlers` every class other than `np.datetime64` and its subclasses, and every name other than that of `np.datetime64`, has the handler it had
before `register_handlers`; -/
theorem lookup_after (w : Classes) (r : Reg) (k : Key) (default : Option Nat) (hk : k ≠ .name (w.iname datetime64)) (ht : ∀ t, k = .ty t → t ≠ datetime64 ∧ w.sub t datetime64 = false) :
    get w (withDatetime w r) k default = get w r k default := by
  have h1 : dget k (withDatetime w r).handlers = dget k r.handlers := by
    have h2 : k ≠ .ty datetime64 := fun e => (ht _ e).1 rfl
    simp [withDatetime, dget_append, dget_cons, Ne.symm hk, Ne.symm h2]
  unfold Registry.get
  rw [h1]
  cases hd : dget k r.handlers <;> cases k with
  | ty t =>
    have : findBase w t (withDatetime w r).base = findBase w t r.base := by
      simp only [withDatetime, findBase_append, findBase, (ht t rfl).2]
      simp
    simp only [this]
  | name s => rfl
  | other n => rfl

/-- … and `np.datetime64` has the handler of the extension. -/
theorem datetime_kept (w : Classes) (r : Reg) (hn : New w r [datetime64]) (default : Option Nat) : Registry.get w (withDatetime w r) (.ty datetime64) default = some datetimeHandler := by
  have h1 : dget (.ty datetime64) r.handlers = none := by
    rw [dget_eq_none_iff]
    intro hm
    obtain ⟨x, hx⟩ := mem_keys.1 hm
    exact (hn.classes datetime64 (by simp) x).1 hx
  have h2 : dget (.ty datetime64) (withDatetime w r).handlers = some datetimeHandler := by
    simp [withDatetime, dget_append, h1, dget_cons]
  unfold Registry.get
  rw [h2]

/-- A subclass of `pd.Index` other than `PeriodIndex` and `MultiIndex` themselves has the handler of `Index`: also a subclass of one of these two, whose handlers are
registered after that of `Index`.  (`t` has no handler of its own and is not a subclass of the other classes, nor of those registered before.) -/
theorem index_subclass (w : Classes) (r : Reg) (hn : New w r ((registered registerPandas).map (·.1))) (t : Nat) (ht : t ∉ (registered registerPandas).map (·.1))
    (hr : ∀ h, (Key.ty t, h) ∉ r.handlers) (hb : ∀ e ∈ r.base, w.sub t e.1 = false) (hs : w.sub t index = true)
    (ho : ∀ c ∈ (registered registerNumpy).map (·.1) ++ [dataFrame, series], w.sub t c = false) (default : Option Nat) :
    Registry.get w (after w r registerPandas) (.ty t) default = some indexHandler := by
  have h0 : after w r registerPandas = { handlers := r.handlers ++ (registered registerPandas).flatMap (entries w), base := r.base ++ registered registerPandas } :=
    registers w (registered registerPandas) r hn
  have h1 : dget (.ty t) (after w r registerPandas).handlers = none := by
    rw [h0, dget_eq_none_iff]
    intro hm
    obtain ⟨x, hx⟩ := mem_keys.1 hm
    rcases List.mem_append.1 hx with hx | hx
    · exact hr x hx
    · obtain ⟨e, he, hx⟩ := List.mem_flatMap.1 hx
      simp [entries] at hx
      exact ht (List.mem_map.2 ⟨e, he, hx.1.symm⟩)
  have h2 : findBase w t r.base = none := by
    revert hb
    generalize r.base = l
    intro hb
    induction l with
    | nil => rfl
    | cons e l ih =>
      obtain ⟨c, h⟩ := e
      simp only [findBase, hb (c, h) List.mem_cons_self]
      exact ih fun e he => hb e (List.mem_cons_of_mem _ he)
  have h3 : findBase w t (registered registerPandas) = some indexHandler := by
    have e : registered registerPandas = registered registerNumpy ++ [(dataFrame, dfHandler), (series, seriesHandler)] ++ (index, indexHandler) ::
      [(periodIndex, periodIndexHandler), (multiIndex, multiIndexHandler), (timestamp, timestampHandler), (period, periodHandler), (interval, intervalHandler)] := rfl
    rw [e, findBase_append]
    have : findBase w t (registered registerNumpy ++ [(dataFrame, dfHandler), (series, seriesHandler)]) = none := by
      have h4 : ∀ e ∈ registered registerNumpy ++ [(dataFrame, dfHandler), (series, seriesHandler)], w.sub t e.1 = false := fun e he => ho e.1 (by
        rcases List.mem_append.1 he with he | he
        · exact List.mem_append_left _ (List.mem_map_of_mem he)
        · refine List.mem_append_right _ ?_
          simp at he
          rcases he with rfl | rfl <;> simp)
      revert h4
      generalize registered registerNumpy ++ [(dataFrame, dfHandler), (series, seriesHandler)] = l
      intro h4
      induction l with
      | nil => rfl
      | cons e l ih =>
        obtain ⟨c, h⟩ := e
        simp only [findBase, h4 (c, h) List.mem_cons_self]
        exact ih fun e he => h4 e (List.mem_cons_of_mem _ he)
    rw [this]
    simp [findBase, hs]
  unfold Registry.get
  rw [h1]
  have h4 : findBase w t (after w r registerPandas).base = some indexHandler := by
    rw [h0]
    show findBase w t (r.base ++ registered registerPandas) = _
    rw [findBase_append, h2, h3]
    rfl
  simp only [h4]

/-! ### examples -/

/-- the names: one letter each; 200 is a subclass of `MultiIndex` -/
def classes : Classes where
  iname c := [c]
  sub c d := c == d || (d == index && (c == periodIndex || c == multiIndex || c == 200)) || (d == multiIndex && c == 200) || (d == generic && c == datetime64)

/-- a registry with a handler for some other class -/
def before : Reg := { handlers := [(.name [50], 7), (.ty 50, 7)], base := [(50, 7)] }

theorem before_new : New classes before ((registered registerPandas).map (·.1)) := ⟨by
    intro c hc h
    simp only [before, List.mem_cons, Prod.mk.injEq, List.not_mem_nil, or_false, reduceCtorEq, false_and, false_or, Key.ty.injEq]
    have : c ≠ 50 := by rintro rfl; revert hc; decide
    exact ⟨fun h => this h.1, fun h => this h.1⟩, by
    intro c hc h
    have : c ≠ 50 := by rintro rfl; revert hc; decide
    simp [before, classes, this], by decide⟩

/-- `np.datetime64` keeps its handler -/
example : Registry.get classes (after classes before (registerPandas ++ unregisterPandas)) (.ty datetime64) none = some datetimeHandler := by
  rw [pandas_left _ _ before_new]
  exact datetime_kept _ _ ⟨fun c hc => before_new.classes c (by simp at hc; subst hc; decide), fun c hc => before_new.names c (by simp at hc; subst hc; decide), by decide⟩ _

example : Registry.get classes before (.ty datetime64) none = none := by decide

/-- a subclass of `MultiIndex` is written by the handler for `Index` -/
example : Registry.get classes (after classes before registerPandas) (.ty 200) none = some indexHandler ∧ classes.sub 200 multiIndex = true :=
  ⟨index_subclass classes before before_new 200 (by decide) (fun h => by simp [before]) (by decide) (by decide) (by decide) none, by decide⟩

example : after classes before (registerGmpy true ++ unregisterGmpy true) = before := by decide

end JP.C70
