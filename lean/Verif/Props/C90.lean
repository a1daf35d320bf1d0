import Verif.NumpyScalars
import Verif.Props.C83
import Verif.Props.C18
/-!
# C90 — numpy dtypes, scalars and ufuncs, and gmpy integers

What the handlers write is read back: `dtype_back`, `scalar_back`, `ufunc_back`, `mpz_back`.  A scalar comes back with its dtype exactly if the dtype has the
byte order of the machine throughout and no record classes (`scalar_back`); otherwise it is read with the dtype that is left (`scalar_result`).
`UnpickleableNumpyGenericHandler` writes nothing unless `unpicklable=False` (`unpickleable_raises`).
-/
namespace JP.C90
open JP DTypeText NumpyScalars

variable {sc : Scalars} {V J : Type}

/-- what is expected of numpy for the scalar `x`: `np.array(v, dtype=d)[()]` has the dtype `d`, and with the value that is stored for `x` and the dtype of `x`
it is `x` -/
structure Sound (np : Np sc V) (x : np.X) : Prop where
  dtype : ∀ v d y, np.array v d = .ok y → np.dtype y = d
  value : np.array (if np.isScalar (np.tolist x) then np.text x else np.tolist x) (np.dtype x) = .ok x

/-- the value stored for `x` survives `flatten` and `restore` -/
def Survives (np : Np sc V) (ctx : Ctx V J) (x : np.X) : Prop :=
  ∃ j, ctx.flatten (if np.isScalar (np.tolist x) then np.text x else np.tolist x) = .ok j ∧ ctx.restore j = .ok (if np.isScalar (np.tolist x) then np.text x else np.tolist x)

theorem dget_same {β : Type} (k : Str) (v : β) : ∀ d : List (Str × β), dget k (dset k v d) = some v
  | [] => by simp [dset, dget]
  | (k', v') :: d => by
    unfold dset
    by_cases h : k' = k
    · simp [h, dget]
    · simp only [beq_iff_eq, h, if_false, dget]
      exact dget_same k v d

theorem dget_other {β : Type} {k k2 : Str} (v : β) (hk : k2 ≠ k) : ∀ d : List (Str × β), dget k (dset k2 v d) = dget k d
  | [] => by simp [dset, dget, hk]
  | (k', v') :: d => by
    unfold dset
    by_cases h : k' = k2
    · subst h; simp [dget, hk]
    · simp only [beq_iff_eq, h, if_false, dget]
      split
      · rfl
      · exact dget_other v hk d

mutual
theorem native_valid {S : Type} (nat : S → S) : ∀ d : DType S, C83.Valid d → C83.Valid (native nat d)
  | .scalar _, _ => trivial
  | .sub b sh, h => ⟨native_valid nat b h.1, h.2.1, fun b' sh' e => by
      cases b with
      | scalar s => cases e
      | sub b2 sh2 => exact h.2.2 b2 sh2 rfl
      | struct c f n => cases e⟩
  | .struct _ fs _, h => ⟨h.1, natives_valid nat fs h.2⟩
theorem natives_valid {S : Type} (nat : S → S) : ∀ fs : Fields S, C83.ValidL fs → C83.ValidL (natives nat fs)
  | [], _ => trivial
  | (_, _, d, _) :: fs, h => ⟨h.1, h.2.1, native_valid nat d h.2.2.1, natives_valid nat fs h.2.2.2⟩
end

theorem read_dt {np : Np sc V} {pr : Nat → Bool} (hl : C83.Lawful sc) {d : DType sc.S} (hv : C83.Valid d) {data : Data J}
    (hd : dget p!"dtype" data = some (.text (flattenDtype pr sc d))) :
    restoreDt np data = match C83.expected d with
      | some d' => .ok d'
      | none => .error (np.dtypeError (flattenDtype pr sc d)) := by
  unfold restoreDt
  rw [hd]
  simp only [C83.back pr hl d hv]
  cases C83.expected d <;> rfl

/-- A dtype comes back exactly if it is a scalar dtype or a structured dtype without record classes, itself and inside. -/
theorem dtype_back (np : Np sc V) (pr : Nat → Bool) (hl : C83.Lawful sc) (d : DType sc.S) (hv : C83.Valid d) (data : Data J) :
    restoreDType np (flattenDType pr d data) = .ok d ↔ (∀ b shape, d ≠ .sub b shape) ∧ C83.plain d = true := by
  rw [← C83.roundtrip_iff pr hl d hv, C83.back pr hl d hv]
  unfold restoreDType flattenDType
  rw [read_dt hl hv (dget_same ..)]
  cases C83.expected d with
  | none => exact ⟨(fun h => by cases h), (fun h => by cases h)⟩
  | some d' =>
    constructor
    · intro h; injection h with h; rw [h]
    · intro h; injection h with h; rw [h]

/-- A document without `dtype` is refused with `KeyError`, and one whose `dtype` is no text with `AttributeError`: it has no `startswith`. -/
theorem dtype_refused (np : Np sc V) (data : Data J) :
    (dget p!"dtype" data = none → restoreDType np data = .error .keyError) ∧
    (∀ j, dget p!"dtype" data = some j → (∀ t, j ≠ .text t) → restoreDType np data = .error .attributeError) := by
  unfold restoreDType restoreDt
  constructor
  · intro h; rw [h]
  · intro j h hj
    rw [h]
    cases j <;> first | rfl | exact absurd rfl (hj _)

example : (dget p!"dtype" ([] : Data Nat)) = none := rfl

theorem generic_run {np : Np sc V} {ctx : Ctx V J} {pr : Nat → Bool} (hl : C83.Lawful sc) {x : np.X} (hv : C83.Valid (np.dtype x)) (hx : Survives np ctx x) (data : Data J) :
    ∃ data', flattenGeneric pr np ctx x data = .ok data' ∧ restoreGeneric np ctx data' = match C83.expected (native np.nat (np.dtype x)) with
      | some d => np.array (stored np x) d
      | none => .error (np.dtypeError (flattenDtype pr sc (native np.nat (np.dtype x)))) := by
  obtain ⟨j, h1, h2⟩ := hx
  unfold flattenGeneric
  have h1 : ctx.flatten (stored np x) = .ok j := h1
  simp only [h1]
  refine ⟨_, rfl, ?_⟩
  unfold restoreGeneric
  rw [dget_same]
  simp only [h2]
  rw [read_dt hl (native_valid np.nat _ hv) (pr := pr) (by rw [dget_other _ (by decide +kernel)]; exact dget_same ..)]
  cases C83.expected (native np.nat (np.dtype x)) <;> rfl

/-- A scalar comes back exactly if its dtype has the byte order of the machine and no record classes. -/
theorem scalar_back (np : Np sc V) (ctx : Ctx V J) (pr : Nat → Bool) (hl : C83.Lawful sc) (x : np.X) (hn : Sound np x) (hv : C83.Valid (np.dtype x))
    (hs : ∀ b shape, np.dtype x ≠ .sub b shape) (hx : Survives np ctx x) (data : Data J) :
    (∃ data', flattenGeneric pr np ctx x data = .ok data' ∧ restoreGeneric np ctx data' = .ok x) ↔
      native np.nat (np.dtype x) = np.dtype x ∧ C83.plain (np.dtype x) = true := by
  obtain ⟨data', h1, h2⟩ := generic_run (pr := pr) hl hv hx data
  have hb := fun d => C83.roundtrip_iff pr hl d
  constructor
  · rintro ⟨d2, h3, h4⟩
    rw [h1] at h3
    injection h3 with h3
    subst h3
    rw [h2] at h4
    cases he : C83.expected (native np.nat (np.dtype x)) with
    | none => rw [he] at h4; cases h4
    | some d =>
      rw [he] at h4
      have hd := hn.dtype _ _ _ h4
      subst hd
      have hst : ∀ d : DType sc.S, C83.expected (native np.nat d) = some d → native np.nat d = d ∧ C83.plain d = true := by
        intro d he
        cases d with
        | scalar s => exact ⟨Option.some.inj he, rfl⟩
        | sub b sh => cases he
        | struct cls fs n =>
          simp only [native, C83.expected] at he
          split at he
          · next hc =>
            injection he with he
            injection he with e1 e2
            refine ⟨by rw [native, e2], ?_⟩
            rw [e2] at hc
            simp only [C83.plain, Bool.and_eq_true]
            exact ⟨by rw [← e1]; rfl, hc.2⟩
          · cases he
      exact hst _ he
  · rintro ⟨h3, h4⟩
    refine ⟨data', h1, ?_⟩
    have he : C83.expected (np.dtype x) = some (np.dtype x) := by
      rw [← C83.back pr hl _ hv]
      exact (hb _ hv).2 ⟨hs, h4⟩
    rw [h2, h3, he]
    exact hn.value

/-- In general it is read with the dtype that comes back from the text of its dtype in the byte order of the machine. -/
theorem scalar_result (np : Np sc V) (ctx : Ctx V J) (pr : Nat → Bool) (hl : C83.Lawful sc) (x : np.X) (hv : C83.Valid (np.dtype x)) (hx : Survives np ctx x)
    (data : Data J) (d : DType sc.S) (hd : restoreDtype sc (flattenDtype pr sc (native np.nat (np.dtype x))) = some d) :
    ∃ data', flattenGeneric pr np ctx x data = .ok data' ∧
      restoreGeneric np ctx data' = np.array (if np.isScalar (np.tolist x) then np.text x else np.tolist x) d := by
  obtain ⟨data', h1, h2⟩ := generic_run (pr := pr) hl hv hx data
  refine ⟨data', h1, ?_⟩
  rw [C83.back pr hl _ (native_valid np.nat _ hv)] at hd
  rw [h2, hd]
  rfl

/-- An exception of the value's own `flatten` is raised. -/
theorem scalar_raises (np : Np sc V) (ctx : Ctx V J) (pr : Nat → Bool) (x : np.X) (data : Data J) (e : Exc)
    (h : ctx.flatten (if np.isScalar (np.tolist x) then np.text x else np.tolist x) = .error e) : flattenGeneric pr np ctx x data = .error e := by
  unfold flattenGeneric
  have h : ctx.flatten (stored np x) = .error e := h
  simp only [h]

/-- `UnpickleableNumpyGenericHandler` writes the plain value with `unpicklable=False`, nothing otherwise, and reads nothing. -/
theorem unpickleable_raises (np : Np sc V) (ctx : Ctx V J) (x : np.X) (data : Data J) :
    flattenUnp np ctx false x = ctx.flatten (np.tolist x) ∧ flattenUnp np ctx true x = .error .notImplemented ∧ restoreUnp np data = .error .notImplemented :=
  ⟨rfl, rfl, rfl⟩

/-- A ufunc that is an attribute of its importable module comes back. -/
theorem ufunc_back (env : LoadClass.Env) (mod : List Str) (c : Str) (f : Nat) (hm : mod ≠ []) (hdot : ∀ a ∈ mod, 46 ∉ a) (hc : 46 ∉ c)
    (hb : LoadClass.joinDot mod ≠ p!"__builtin__") (he : LoadClass.joinDot mod ≠ p!"exceptions") (hne : LoadClass.joinDot mod ≠ [])
    (o : Nat) (hi : env.import_ (LoadClass.joinDot mod) = .ok o) (ha : env.attr o c = .ok f) (data : Data J) :
    restoreUfunc env (flattenUfunc { qualname := c, module_ := some (LoadClass.joinDot mod) } data) = .ok (some f) := by
  unfold restoreUfunc flattenUfunc
  rw [dget_same]
  exact LoadClass.C18.loadclass_finds_toplevel env mod c f hm hdot hc hb he hne o hi ha

/-- Integers of gmpy come back. -/
theorem mpz_back (parse : Str → Except Exc Int) (n : Int) (data : Data J) : restoreMpz parse (flattenMpz n data) = .ok n := by
  unfold restoreMpz flattenMpz
  rw [dget_same]

/-- Nothing else in the data dict is changed: the class tag stays. -/
theorem tag_kept (pr : Nat → Bool) (d : DType sc.S) (desc : LoadClass.Desc) (n : Int) (data : Data J) :
    dget p!"py/object" (flattenDType pr d data) = dget p!"py/object" data ∧ dget p!"py/object" (flattenUfunc desc data) = dget p!"py/object" data ∧
      dget p!"py/object" (flattenMpz n data) = dget p!"py/object" data :=
  ⟨dget_other _ (by decide +kernel) data, dget_other _ (by decide +kernel) data, dget_other _ (by decide +kernel) data⟩

theorem tag_kept_scalar (np : Np sc V) (ctx : Ctx V J) (pr : Nat → Bool) (x : np.X) (data data' : Data J) (h : flattenGeneric pr np ctx x data = .ok data') :
    dget p!"py/object" data' = dget p!"py/object" data := by
  unfold flattenGeneric at h
  dsimp only at h
  split at h
  · injection h with h
    rw [← h, dget_other _ (by decide +kernel)]
    exact dget_other _ (by decide +kernel) data
  · cases h

/-! ### examples -/

/-- the dtypes `<i4`, `>i4` and `longdouble` on a little-endian machine -/
inductive S
  | little
  | big
  | long

/-- their names -/
def names : Scalars where
  S := S
  long := fun s => match s with
    | .little => p!"int32"
    | .big => p!">i4"
    | .long => p!"float128"
  short := fun s => match s with
    | .little => p!"<i4"
    | .big => p!">i4"
    | .long => p!"<f16"
  size := fun s => match s with
    | .long => 16
    | _ => 4
  read := fun t =>
    if t = p!"int32" ∨ t = p!"<i4" then some .little
    else if t = p!">i4" then some .big
    else if t = p!"float128" ∨ t = p!"<f16" then some .long
    else none

theorem names_lawful : C83.Lawful names where
  long := fun s => by cases s <;> rfl
  short := fun s => by cases s <;> rfl
  head := fun s => by cases s <;> exact ⟨_, _, rfl, by decide, by decide, by decide⟩
  parens := fun t => by
    simp [names]
  ok := fun s => by cases s <;> exact C83.ascii (by decide +kernel)

/-- values: an integer, a text, or a scalar (`tolist` of a `float128`) -/
inductive W
  | int (i : Int)
  | text (i : Int)
  | self (i : Int)

/-- scalars are a dtype and a number -/
def np : Np names W where
  X := DType names.S × Int
  dtype := fun x => x.1
  nat := fun s => match s with
    | .big => .little
    | s => s
  tolist := fun x => match x.1 with
    | .scalar .long => .self x.2
    | _ => .int x.2
  isScalar := fun v => match v with
    | .self _ => true
    | _ => false
  text := fun x => .text x.2
  array := fun v d => match v with
    | .int i => .ok (d, i)
    | .text i => .ok (d, i)
    | .self _ => .error .typeError
  dtypeError := fun _ => .typeError

/-- integers and texts can be flattened, scalars not again -/
def ctx : Ctx W Int where
  flatten := fun v => match v with
    | .int i => .ok (2 * i)
    | .text i => .ok (2 * i + 1)
    | .self _ => .error .typeError
  restore := fun j => if j % 2 = 0 then .ok (.int (j / 2)) else .ok (.text (j / 2))

/-- a structured dtype with a big-endian field -/
def mixed : DType names.S := .struct none [(p!"a", none, .scalar .little, 0), (p!"b", none, .scalar .big, 4)] 8

/-- `np.longdouble(7)` is stored as text and comes back -/
example : ∃ d, flattenGeneric (fun _ => true) np ctx (.scalar .long, 7) [(p!"py/object", .text p!"numpy.float128")] = .ok d ∧ restoreGeneric np ctx d = .ok (.scalar .long, 7) :=
  (scalar_back np ctx (fun _ => true) names_lawful (.scalar .long, 7) ⟨(fun v d y h => by cases v <;> first | (injection h with h; rw [← h]; rfl) | cases h), rfl⟩ trivial (fun _ _ e => by cases e)
    ⟨15, rfl, rfl⟩ _).2 ⟨rfl, rfl⟩

/-- a structured scalar with a big-endian field comes back with another dtype -/
example : ∃ d, flattenGeneric (fun _ => true) np ctx (mixed, 7) [] = .ok d ∧
    restoreGeneric np ctx d = .ok (.struct none [(p!"a", none, .scalar .little, 0), (p!"b", none, .scalar .little, 4)] 8, 7) :=
  ⟨_, rfl, by rfl⟩

example : C83.plain mixed = true ∧ native np.nat mixed ≠ mixed := ⟨rfl, fun h => by
  have : native np.nat mixed = .struct none [(p!"a", none, .scalar .little, 0), (p!"b", none, .scalar .little, 4)] 8 := rfl
  rw [this] at h
  unfold mixed at h
  simp at h
  cases h⟩

/-- a process in which `numpy` has `add` -/
def npEnv : LoadClass.Env where
  import_ s := if s = p!"numpy" then .ok 1 else .error .importError
  importTop s := if s = p!"numpy" then .ok 1 else .error .importError
  attr o a := if o = 1 ∧ a = p!"add" then .ok 7 else .error .attributeError
  noneType := 0

/-- `np.add` comes back -/
example : restoreUfunc npEnv (flattenUfunc { qualname := p!"add", module_ := some p!"numpy" } ([] : Data Int)) = .ok (some 7) :=
  ufunc_back npEnv [p!"numpy"] p!"add" 7 (by decide) (by decide +kernel) (by decide +kernel) (by decide +kernel) (by decide +kernel) (by decide +kernel) 1 rfl rfl []

end JP.C90
