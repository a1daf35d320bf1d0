import Verif.Backend
import Verif.DecEq
/-!
# C71: the options of the JSON backends

Which options a backend's encode and decode functions are called with, after any history of calls (backends loaded twice
included): those given last to `set_encoder_options`/`set_decoder_options` for that name, unless the backend was removed
since then (explicitly, or by a `load_backend` that did not find the functions it was told to use); the arguments
`indent` and `separators` of `encode` override them.  A call for another name has no effect.
-/
namespace JP.Backend.C71
open JP JP.Backend

/-- the call takes backend `n` away: `remove_backend(n)`, or `load_backend(n, …)` finds the module but not all of its functions -/
def TakesAway (n : Str) : Op → Prop
  | .remove m => m = n
  | .load m (.module (some _) (some _) (some _)) => m = n ∧ False
  | .load m (.module _ _ _) => m = n
  | _ => False

/-- the call leaves the encoder options of `n` alone -/
def EncQuiet (n : Str) (op : Op) : Prop := ¬ TakesAway n op ∧ ∀ o, op ≠ .encOptions n o

/-- the call leaves the decoder options of `n` alone -/
def DecQuiet (n : Str) (op : Op) : Prop := ¬ TakesAway n op ∧ ∀ o, op ≠ .decOptions n o

/-- what `encode` may pass on for the keyword `k`: its own argument if there is one, otherwise the option -/
def keyword (o : Opts) (indent separators : Option Nat) (k : Str) : Option Nat :=
  if k = p!"separators" ∧ separators.isSome then separators
  else if k = p!"indent" ∧ indent.isSome then indent
  else dget k o.2

/-- the function is called with the positional options of `o`, and the keywords say what `keyword` says -/
def CalledWith (o : Opts) (indent separators : Option Nat) (actual : Opts) : Prop :=
  actual.1 = o.1 ∧ ∀ k, dget k actual.2 = keyword o indent separators k

/-- the options that `backend_encode` and `backend_decode` look up -/
def effective (t : List (Str × Opts)) (n : Str) : Opts := (dget n t).getD ([], [])

theorem effective_setdefault (n m : Str) (t : List (Str × Opts)) : effective (setdefault n t) m = effective t m := by
  unfold setdefault effective
  split
  · rfl
  · rename_i hh
    rw [dget_dset]
    split
    · rename_i e
      rw [Bool.not_eq_true, dhas_eq_false_iff, ← dget_eq_none_iff] at hh
      rw [e, hh]
      rfl
    · rfl

theorem effective_del {n m : Str} (h : n ≠ m) (t : List (Str × Opts)) : effective (ddel m t) n = effective t n := by
  unfold effective
  rw [dget_ddel_ne h]

theorem effective_del_same (n : Str) (t : List (Str × Opts)) : effective (ddel n t) n = ([], []) := by
  unfold effective
  rw [dget_ddel_same]
  rfl

theorem effective_set (n m : Str) (o : Opts) (t : List (Str × Opts)) : effective (dset m o t) n = if n = m then o else effective t n := by
  unfold effective
  rw [dget_dset]
  split <;> rfl

theorem prefer_opts (st : St) (n : Str) : (step st (.prefer n)).encOpts = st.encOpts ∧ (step st (.prefer n)).decOpts = st.decOpts := by
  simp only [step, setPreferred]
  by_cases h : n ∈ st.names <;> simp [h]

/-- a quiet call leaves the options as they are -/
theorem quiet_step (st : St) (n : Str) (op : Op) (h : ¬ TakesAway n op) :
    ((∀ o, op ≠ .encOptions n o) → effective (step st op).encOpts n = effective st.encOpts n) ∧
    ((∀ o, op ≠ .decOptions n o) → effective (step st op).decOpts n = effective st.decOpts n) := by
  cases op with
  | remove m =>
    have hne : n ≠ m := fun e => h e.symm
    exact ⟨fun _ => effective_del hne _, fun _ => effective_del hne _⟩
  | prefer m =>
    rw [(prefer_opts st m).1, (prefer_opts st m).2]
    exact ⟨fun _ => rfl, fun _ => rfl⟩
  | fallthrough b => exact ⟨fun _ => rfl, fun _ => rfl⟩
  | encOptions m o =>
    refine ⟨fun hq => ?_, fun _ => rfl⟩
    have hne : n ≠ m := fun e => hq o (by rw [e])
    simp [step, effective_set, hne]
  | decOptions m o =>
    refine ⟨fun _ => rfl, fun hq => ?_⟩
    have hne : n ≠ m := fun e => hq o (by rw [e])
    simp [step, effective_set, hne]
  | load m f =>
    cases f with
    | noModule => exact ⟨fun _ => rfl, fun _ => rfl⟩
    | module d l x =>
      cases d with
      | none =>
        have hne : n ≠ m := fun e => h e.symm
        exact ⟨fun _ => effective_del hne _, fun _ => effective_del hne _⟩
      | some d =>
        cases l with
        | none =>
          have hne : n ≠ m := fun e => h e.symm
          exact ⟨fun _ => effective_del hne _, fun _ => effective_del hne _⟩
        | some l =>
          cases x with
          | none =>
            have hne : n ≠ m := fun e => h e.symm
            exact ⟨fun _ => effective_del hne _, fun _ => effective_del hne _⟩
          | some x => exact ⟨fun _ => effective_setdefault m n _, fun _ => effective_setdefault m n _⟩

theorem enc_quiet_run (n : Str) : ∀ (ops : List Op) (st : St), (∀ op ∈ ops, EncQuiet n op) → effective (run st ops).encOpts n = effective st.encOpts n
  | [], _, _ => rfl
  | op :: ops, st, h => by
    have h1 := h op List.mem_cons_self
    exact (enc_quiet_run n ops (step st op) (fun o ho => h o (List.mem_cons_of_mem _ ho))).trans ((quiet_step st n op h1.1).1 h1.2)

theorem dec_quiet_run (n : Str) : ∀ (ops : List Op) (st : St), (∀ op ∈ ops, DecQuiet n op) → effective (run st ops).decOpts n = effective st.decOpts n
  | [], _, _ => rfl
  | op :: ops, st, h => by
    have h1 := h op List.mem_cons_self
    exact (dec_quiet_run n ops (step st op) (fun o ho => h o (List.mem_cons_of_mem _ ho))).trans ((quiet_step st n op h1.1).2 h1.2)

/-- a call that takes the backend away leaves no options -/
theorem taken_step (st : St) (n : Str) (op : Op) (h : TakesAway n op) :
    effective (step st op).encOpts n = ([], []) ∧ effective (step st op).decOpts n = ([], []) := by
  cases op with
  | remove m => cases h; exact ⟨effective_del_same _ _, effective_del_same _ _⟩
  | load m f =>
    cases f with
    | noModule => cases h
    | module d l x =>
      cases d with
      | none => cases h; exact ⟨effective_del_same _ _, effective_del_same _ _⟩
      | some d =>
        cases l with
        | none => cases h; exact ⟨effective_del_same _ _, effective_del_same _ _⟩
        | some l =>
          cases x with
          | none => cases h; exact ⟨effective_del_same _ _, effective_del_same _ _⟩
          | some x => exact h.2.elim
  | _ => cases h

/-- `backend_encode` calls the encode function of the backend with the options that were looked up -/
theorem encode_call (w : World) (st : St) (n : Str) (f obj : Nat) (i x : Option Nat) (hf : dget n st.encoders = some f) :
    ∃ actual, CalledWith (effective st.encOpts n) i x actual ∧ backendEncode w st n obj i x = w.enc f obj actual := by
  unfold backendEncode effective
  generalize (dget n st.encOpts).getD ([], []) = o
  obtain ⟨args, kw⟩ := o
  have hsi : p!"separators" ≠ p!"indent" := by decide
  cases i with
  | none =>
    cases x with
    | none => exact ⟨(args, kw), ⟨rfl, fun k => by simp [keyword]⟩, by simp [hf]⟩
    | some x =>
      refine ⟨(args, dset p!"separators" x kw), ⟨rfl, fun k => ?_⟩, by simp [hf]⟩
      simp only [keyword, dget_dset]
      by_cases h : k = p!"separators" <;> simp [h]
  | some i =>
    cases x with
    | none =>
      refine ⟨(args, dset p!"indent" i kw), ⟨rfl, fun k => ?_⟩, by simp [hf]⟩
      simp only [keyword, dget_dset]
      by_cases h : k = p!"indent" <;> simp [h]
    | some x =>
      refine ⟨(args, dset p!"separators" x (dset p!"indent" i kw)), ⟨rfl, fun k => ?_⟩, by simp [hf]⟩
      simp only [keyword, dget_dset]
      by_cases h : k = p!"separators"
      · simp [h]
      · by_cases h2 : k = p!"indent"
        · simp [h2, hsi.symm]
        · simp [h, h2]

theorem decode_call (w : World) (st : St) (n : Str) (f t : Nat) (hf : dget n st.decoders = some f) :
    backendDecode w st n t = w.dec f t (effective st.decOpts n) := by
  unfold backendDecode effective
  simp [hf]

theorem run_append (st : St) (a b : List Op) : run st (a ++ b) = run (run st a) b := by
  simp [run, List.foldl_append]

/-! ### the property -/

/-- The encode function of a backend is called with the options that `set_encoder_options` was given last, whatever else
has been called before, and since then for other backends; `indent` and `separators` override them. -/
theorem encoder_options (w : World) (st : St) (pre post : List Op) (n : Str) (o : Opts) (hpost : ∀ op ∈ post, EncQuiet n op)
    (f obj : Nat) (i x : Option Nat) :
    let st' := run st (pre ++ .encOptions n o :: post)
    dget n st'.encoders = some f → ∃ actual, CalledWith o i x actual ∧ backendEncode w st' n obj i x = w.enc f obj actual := by
  intro st' hf
  have he : effective st'.encOpts n = o := by
    show effective (run st (pre ++ .encOptions n o :: post)).encOpts n = o
    rw [run_append]
    refine (enc_quiet_run n post _ hpost).trans ?_
    simp [step, effective_set]
  have := encode_call w st' n f obj i x hf
  rwa [he] at this

/-- The same for `set_decoder_options`. -/
theorem decoder_options (w : World) (st : St) (pre post : List Op) (n : Str) (o : Opts) (hpost : ∀ op ∈ post, DecQuiet n op)
    (f t : Nat) :
    let st' := run st (pre ++ .decOptions n o :: post)
    dget n st'.decoders = some f → backendDecode w st' n t = w.dec f t o := by
  intro st' hf
  have he : effective st'.decOpts n = o := by
    show effective (run st (pre ++ .decOptions n o :: post)).decOpts n = o
    rw [run_append]
    refine (dec_quiet_run n post _ hpost).trans ?_
    simp [step, effective_set]
  rw [decode_call w st' n f t hf, he]

/-- A backend that was taken away and loaded again has no options, not even those it had at the start. -/
theorem options_gone (w : World) (st : St) (pre post : List Op) (n : Str) (op : Op) (hop : TakesAway n op)
    (he : ∀ p ∈ post, EncQuiet n p) (hd : ∀ p ∈ post, DecQuiet n p) (f g obj t : Nat) (i x : Option Nat) :
    let st' := run st (pre ++ op :: post)
    (dget n st'.encoders = some f → ∃ actual, CalledWith ([], []) i x actual ∧ backendEncode w st' n obj i x = w.enc f obj actual) ∧
    (dget n st'.decoders = some g → backendDecode w st' n t = w.dec g t ([], [])) := by
  intro st'
  have h1 : effective st'.encOpts n = ([], []) := by
    show effective (run st (pre ++ op :: post)).encOpts n = _
    rw [run_append]
    exact (enc_quiet_run n post _ he).trans (taken_step _ n op hop).1
  have h2 : effective st'.decOpts n = ([], []) := by
    show effective (run st (pre ++ op :: post)).decOpts n = _
    rw [run_append]
    exact (dec_quiet_run n post _ hd).trans (taken_step _ n op hop).2
  refine ⟨fun hf => ?_, fun hg => ?_⟩
  · have := encode_call w st' n f obj i x hf
    rwa [h1] at this
  · rw [decode_call w st' n g t hg, h2]

/-- What the encoders are called with from the start: `sort_keys=False` for json and simplejson, for ujson also
`escape_forward_slashes=False`, nothing for others. -/
def startOptions (n : Str) : Opts :=
  if n = p!"ujson" then ([], [(p!"sort_keys", 0), (p!"escape_forward_slashes", 0)])
  else if n = p!"json" ∨ n = p!"simplejson" ∨ n = p!"django.util.simplejson" then ([], [(p!"sort_keys", 0)])
  else ([], [])

/-- Until they are set, the options are those that the manager starts with. -/
theorem start_options (w : World) (fall : Bool) (find : Str → Found) (ops : List Op) (n : Str)
    (he : ∀ p ∈ ops, EncQuiet n p) (f obj : Nat) (i x : Option Nat) :
    let st' := run (init fall find) ops
    dget n st'.encoders = some f → ∃ actual, CalledWith (startOptions n) i x actual ∧ backendEncode w st' n obj i x = w.enc f obj actual := by
  intro st' hf
  have h1 : effective st'.encOpts n = startOptions n := by
    refine (enc_quiet_run n ops _ he).trans ?_
    show effective [(p!"ujson", _), (p!"json", jsonOpts), (p!"simplejson", jsonOpts), (p!"django.util.simplejson", jsonOpts)] n = _
    unfold effective startOptions
    simp only [dget_cons, dget_nil, jsonOpts]
    by_cases h1 : n = p!"ujson"
    · simp [h1]
    · by_cases h2 : n = p!"json"
      · simp [h2]
      · by_cases h3 : n = p!"simplejson"
        · simp [h3]
        · by_cases h4 : n = p!"django.util.simplejson"
          · simp [h4]
          · simp [h1, h2, h3, h4, eq_comm]
  have := encode_call w st' n f obj i x hf
  rwa [h1] at this

/-! ### examples -/

/-- the json module is there with its functions 1, 2 and error class 3 -/
def find (n : Str) : Found := if n = p!"json" then .module (some 1) (some 2) (some 3) else .noModule

/-- a world in which the encode function returns the number of its keyword options -/
def world : World where
  enc := fun _ _ o => .ok o.2.length
  dec := fun _ _ o => .ok o.2.length
  matches_ := fun _ _ => false

/-- `set_encoder_options("json", sort_keys=True, indent=4)`, then another backend is preferred in vain and given options -/
def history : List Op := [.encOptions p!"json" ([], [(p!"sort_keys", 1), (p!"indent", 4)]), .prefer p!"yaml", .encOptions p!"yaml" ([], [])]

example : ∃ actual, CalledWith ([], [(p!"sort_keys", 1), (p!"indent", 4)]) (some 2) none actual ∧
    backendEncode world (run (init true find) history) p!"json" 7 (some 2) none = .ok actual.2.length ∧ dget p!"indent" actual.2 = some 2 := by
  obtain ⟨a, h1, h2⟩ := encoder_options world (init true find) [] [.prefer p!"yaml", .encOptions p!"yaml" ([], [])] p!"json"
    ([], [(p!"sort_keys", 1), (p!"indent", 4)])
    (fun op hop => by
      simp only [List.mem_cons, List.not_mem_nil, or_false] at hop
      rcases hop with rfl | rfl
      · exact ⟨(fun h => by cases h), (fun o h => by cases h)⟩
      · exact ⟨(fun h => by cases h), (fun o h => by injection h with h _; revert h; decide)⟩)
    1 7 (some 2) none (by decide)
  exact ⟨a, h1, h2, by rw [h1.2]; decide⟩

/-- After `remove_backend("json")` and `load_backend("json")` the option `sort_keys=False` of the start is not passed any more. -/
example : backendEncode world (run (init true find) [.remove p!"json", .load p!"json" (.module (some 1) (some 2) (some 3))]) p!"json" 7 none none = .ok 0 ∧
    backendEncode world (init true find) p!"json" 7 none none = .ok 1 := by
  decide

end JP.Backend.C71
