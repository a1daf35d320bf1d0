import Verif.Backend
import Verif.DecEq
/-!
# C20: JSON backends - preferred backend first, first success wins, last error is raised

The specification keeps one ordered list of loaded backends, each with its three functions, instead of
the implementation's name list plus six dictionaries.
-/
namespace JP.Backend.C20
open JP JP.Backend

/-! ### Specification -/

/-- (name, encode function, decode function, decode error class) -/
abbrev B := Str × Nat × Nat × Nat

/-- the exceptions that are no `Exception` are those of user code that say so (`KeyboardInterrupt`, `SystemExit`) -/
def isExc (e : E) : Bool := match e with
  | .user _ false => false
  | _ => true

theorem isExc_eq (e : E) : isExc e = e.isException := by
  cases e with
  | user n b => cases b <;> rfl
  | _ => rfl

structure Spec where
  fall : Bool
  order : List B
  encOpts : Str → Option Opts
  decOpts : Str → Option Opts

def without (n : Str) (l : List B) : List B := l.filter (fun b => decide (b.1 ≠ n))

def upd (f : Str → Option Opts) (n : Str) (o : Option Opts) : Str → Option Opts :=
  fun m => if m = n then o else f m

def sRemove (s : Spec) (n : Str) : Spec :=
  { s with order := without n s.order, encOpts := upd s.encOpts n none,
           decOpts := upd s.decOpts n none }

/-- A successful load appends the backend; a load that finds the module but not the functions removes
it; a load that finds no module changes nothing; preferring moves to the front. -/
def sStep (s : Spec) : Op → Spec
  | .load _ .noModule => s
  | .load n (.module (some d) (some l) (some x)) =>
    { s with order := s.order ++ [(n, d, l, x)],
             encOpts := upd s.encOpts n (some ((s.encOpts n).getD ([], []))),
             decOpts := upd s.decOpts n (some ((s.decOpts n).getD ([], []))) }
  | .load n (.module _ _ _) => sRemove s n
  | .remove n => sRemove s n
  | .prefer n => { s with order := s.order.filter (fun b => decide (b.1 = n)) ++ without n s.order }
  | .fallthrough b => { s with fall := b }
  | .encOptions n o => { s with encOpts := upd s.encOpts n (some o) }
  | .decOptions n o => { s with decOpts := upd s.decOpts n (some o) }

/-- The history never loads a backend that is already loaded. -/
def NoDoubleLoad : Spec → List Op → Prop
  | _, [] => True
  | s, op :: ops =>
    (∀ n d l x, op = .load n (.module (some d) (some l) (some x)) → n ∉ s.order.map (·.1)) ∧
    NoDoubleLoad (sStep s op) ops

def sRun (s : Spec) (ops : List Op) : Spec := ops.foldl sStep s

/-- Trying `l` in order: `res` is the outcome of the first backend that does not fail with an error
that allows to go on, or of the last backend. -/
def FirstOutcome {β : Type} (out : β → Except E Nat) (caught : β → E → Bool) (l : List β)
    (res : Except E Nat) : Prop :=
  ∃ pre b post, l = pre ++ b :: post ∧
    (∀ a ∈ pre, ∃ e, out a = .error e ∧ caught a e = true) ∧
    out b = res ∧ (∀ e, res = .error e → caught b e = true → post = [])

/-- Keyword arguments: the options of the backend, overridden by `indent`/`separators` if given. -/
def mergeKw (o : Opts) (indent separators : Option Nat) : Opts :=
  let k := match indent with | some i => dset p!"indent" i o.2 | none => o.2
  (o.1, match separators with | some x => dset p!"separators" x k | none => k)

def encOut (w : World) (s : Spec) (obj : Nat) (i x : Option Nat) (b : B) : Except E Nat :=
  w.enc b.2.1 obj (mergeKw ((s.encOpts b.1).getD ([], [])) i x)
def decOut (w : World) (s : Spec) (text : Nat) (b : B) : Except E Nat :=
  w.dec b.2.2.1 text ((s.decOpts b.1).getD ([], []))

/-! ### Refinement -/

structure Rel (st : St) (s : Spec) : Prop where
  fall : st.fallthrough = s.fall
  names : st.names = s.order.map (·.1)
  nodup : st.names.Nodup
  enc : ∀ n, dget n st.encoders = (dget n s.order).map (·.1)
  dec : ∀ n, dget n st.decoders = (dget n s.order).map (·.2.1)
  exc : ∀ n, dget n st.decExc = (dget n s.order).map (·.2.2)
  eo : ∀ n, dget n st.encOpts = s.encOpts n
  do_ : ∀ n, dget n st.decOpts = s.decOpts n
  ver : st.verified = !st.names.isEmpty

theorem dget_without (n m : Str) (l : List B) :
    dget m (without n l) = if m = n then none else dget m l := by
  by_cases h : m = n
  · subst h; rw [if_pos rfl]; exact dget_ddel_same m l
  · rw [if_neg h]; exact dget_ddel_ne h l

theorem erase_names (n : Str) (l : List B) (hd : (l.map (·.1)).Nodup) :
    (l.map (·.1)).erase n = (without n l).map (·.1) := by
  rw [hd.erase_eq_filter, List.filter_map]
  congr 1
  unfold without
  apply List.filter_congr
  intro x _
  simp [bne, Bool.beq_eq_decide_eq]

theorem Rel.remove {st : St} {s : Spec} (h : Rel st s) (n : Str)
    (st' : St) (hn : st'.names = st.names) (hf : st'.fallthrough = st.fallthrough)
    (he : ∀ m, m ≠ n → dget m st'.encoders = dget m st.encoders)
    (hd : ∀ m, m ≠ n → dget m st'.decoders = dget m st.decoders)
    (hx : st'.decExc = st.decExc) (hoe : st'.encOpts = st.encOpts) (hod : st'.decOpts = st.decOpts) :
    Rel (removeBackend st' n) (sRemove s n) := by
  have hnd := h.nodup
  rw [h.names] at hnd
  have hnames : st'.names.erase n = (without n s.order).map (·.1) := by
    rw [hn, h.names, erase_names _ _ hnd]
  refine ⟨?_, ?_, ?_, ?_, ?_, ?_, ?_, ?_, rfl⟩
  · simp [removeBackend, sRemove, hf, h.fall]
  · simp [removeBackend, sRemove, hnames]
  · simp only [removeBackend, hn]; exact h.nodup.erase n
  all_goals
    intro m
    by_cases e : m = n
    · subst e; simp [removeBackend, sRemove, dget_without, upd]
    · simp [removeBackend, sRemove, dget_without, upd, e, dget_ddel_ne e, he m e, hd m e, hx, hoe, hod,
        h.enc, h.dec, h.exc, h.eo, h.do_]

theorem filter_name_of_mem (n : Str) (l : List B) (hd : (l.map (·.1)).Nodup) (hm : n ∈ l.map (·.1)) :
    (l.filter (fun b => decide (b.1 = n))).map (·.1) = [n] := by
  induction l with
  | nil => simp at hm
  | cons b l ih =>
    simp only [List.map_cons, List.nodup_cons, List.mem_cons] at hd hm
    by_cases e : b.1 = n
    · rw [List.filter_cons_of_pos (by simp [e])]
      have : l.filter (fun b => decide (b.1 = n)) = [] := by
        rw [List.filter_eq_nil_iff]
        intro x hx hxe
        simp only [decide_eq_true_eq] at hxe
        exact hd.1 (by rw [e, ← hxe]; exact List.mem_map_of_mem hx)
      simp [this, e]
    · rw [List.filter_cons_of_neg (by simp [e])]
      refine ih hd.2 (hm.resolve_left (fun h => e h.symm))

theorem filter_name_of_not_mem (n : Str) (l : List B) (hm : n ∉ l.map (·.1)) :
    l.filter (fun b => decide (b.1 = n)) = [] ∧ without n l = l := by
  constructor
  · rw [List.filter_eq_nil_iff]
    intro x hx hxe
    simp only [decide_eq_true_eq] at hxe
    exact hm (by rw [← hxe]; exact List.mem_map_of_mem hx)
  · unfold without
    rw [List.filter_eq_self]
    intro x hx
    simp only [decide_eq_true_eq]
    intro hxe
    exact hm (by rw [← hxe]; exact List.mem_map_of_mem hx)

theorem dget_filter_name (n m : Str) (l : List B) :
    dget m (l.filter (fun b => decide (b.1 = n))) = if m = n then dget m l else none := by
  induction l with
  | nil => simp
  | cons b l ih =>
    obtain ⟨k, b⟩ := b
    by_cases e : k = n
    · rw [List.filter_cons_of_pos (by simp [e])]
      subst e
      simp only [dget_cons]
      by_cases e2 : k = m
      · simp [e2]
      · rw [if_neg e2, ih, if_neg (fun h => e2 h.symm), if_neg (fun h => e2 h.symm)]
    · rw [List.filter_cons_of_neg (by simp [e]), ih]
      by_cases e2 : m = n
      · subst e2; simp [dget_cons, e]
      · simp [e2]

theorem rel_step {st : St} {s : Spec} (h : Rel st s) (op : Op)
    (hnd : ∀ n d l x, op = .load n (.module (some d) (some l) (some x)) → n ∉ s.order.map (·.1)) :
    Rel (step st op) (sStep s op) := by
  cases op with
  | load n f =>
    cases f with
    | noModule => exact h
    | module d l x =>
      cases d with
      | none => exact h.remove n st rfl rfl (fun _ _ => rfl) (fun _ _ => rfl) rfl rfl rfl
      | some d =>
        cases l with
        | none =>
          exact h.remove n _ rfl rfl (fun m hm => dget_dset_ne hm _ _) (fun _ _ => rfl) rfl rfl rfl
        | some l =>
          cases x with
          | none =>
            exact h.remove n _ rfl rfl (fun m hm => dget_dset_ne hm _ _)
              (fun m hm => dget_dset_ne hm _ _) rfl rfl rfl
          | some x =>
            have hn := hnd n d l x rfl
            have hget : ∀ m, dget m (s.order ++ [(n, d, l, x)]) =
                if m = n then some (d, l, x) else dget m s.order := by
              intro m
              rw [dget_append]
              by_cases e : m = n
              · subst e; rw [(dget_eq_none_iff m s.order).mpr hn]; simp [dget_cons]
              · rw [if_neg e, dget_cons, if_neg (fun h => e h.symm)]; simp
            have hset : ∀ (o : List (Str × Opts)) (f : Str → Option Opts) m, (∀ m, dget m o = f m) →
                dget m (setdefault n o) = upd f n (some ((f n).getD ([], []))) m := by
              intro o f m hof
              unfold setdefault upd dhas
              rw [hof]
              cases hfn : f n with
              | some v =>
                simp only [Option.isSome_some, if_true, Option.getD_some]
                split
                · next e => rw [e, hof, hfn]
                · exact hof m
              | none =>
                simp only [Option.isSome_none, Bool.false_eq_true, if_false, Option.getD_none]
                rw [dget_dset]
                split
                · rfl
                · exact hof m
            refine ⟨h.fall, ?_, ?_, ?_, ?_, ?_, ?_, ?_, ?_⟩
            · simp [step, loadBackend, sStep, h.names]
            · simp only [step, loadBackend]
              rw [List.nodup_append]
              refine ⟨h.nodup, by simp, ?_⟩
              intro a ha b hb e
              simp only [List.mem_singleton] at hb
              subst hb; subst e
              rw [h.names] at ha; exact hn ha
            · intro m; simp only [step, loadBackend, sStep, dget_dset, hget]; split
              · simp
              · exact h.enc m
            · intro m; simp only [step, loadBackend, sStep, dget_dset, hget]; split
              · simp
              · exact h.dec m
            · intro m; simp only [step, loadBackend, sStep, dget_dset, hget]; split
              · simp
              · exact h.exc m
            · intro m; simp only [step, loadBackend, sStep]; exact hset _ _ m h.eo
            · intro m; simp only [step, loadBackend, sStep]; exact hset _ _ m h.do_
            · simp [step, loadBackend]
  | remove n => exact h.remove n st rfl rfl (fun _ _ => rfl) (fun _ _ => rfl) rfl rfl rfl
  | prefer n =>
    simp only [step, setPreferred, sStep]
    have hndp := h.nodup
    rw [h.names] at hndp
    by_cases hm : n ∈ st.names
    · rw [if_pos hm]
      have hm' := hm
      rw [h.names] at hm'
      have hget : ∀ m, dget m (s.order.filter (fun b => decide (b.1 = n)) ++ without n s.order)
          = dget m s.order := by
        intro m
        rw [dget_append, dget_filter_name, dget_without]
        by_cases e : m = n
        · simp [e]
        · simp [e]
      refine ⟨h.fall, ?_, ?_, ?_, ?_, ?_, h.eo, h.do_, ?_⟩
      · simp only [List.map_append, filter_name_of_mem n s.order hndp hm', h.names,
          erase_names n s.order hndp, List.singleton_append]
      · simp only [List.nodup_cons]
        exact ⟨h.nodup.not_mem_erase, h.nodup.erase n⟩
      · intro m; rw [hget]; exact h.enc m
      · intro m; rw [hget]; exact h.dec m
      · intro m; rw [hget]; exact h.exc m
      · have : st.names.isEmpty = false := by
          cases hh : st.names with
          | nil => rw [hh] at hm; cases hm
          | cons => rfl
        simp [h.ver, this]
    · rw [if_neg hm]
      have hm' := hm
      rw [h.names] at hm'
      obtain ⟨h1, h2⟩ := filter_name_of_not_mem n s.order hm'
      rw [h1, h2]
      exact h
  | fallthrough b => exact ⟨rfl, h.names, h.nodup, h.enc, h.dec, h.exc, h.eo, h.do_, h.ver⟩
  | encOptions n o =>
    refine ⟨h.fall, h.names, h.nodup, h.enc, h.dec, h.exc, ?_, h.do_, h.ver⟩
    intro m; simp only [step, sStep, dget_dset, upd]; split
    · rfl
    · exact h.eo m
  | decOptions n o =>
    refine ⟨h.fall, h.names, h.nodup, h.enc, h.dec, h.exc, h.eo, ?_, h.ver⟩
    intro m; simp only [step, sStep, dget_dset, upd]; split
    · rfl
    · exact h.do_ m

theorem rel_run {st : St} {s : Spec} (h : Rel st s) (ops : List Op) (hops : NoDoubleLoad s ops) :
    Rel (run st ops) (sRun s ops) := by
  induction ops generalizing st s with
  | nil => exact h
  | cons op ops ih =>
    exact ih (rel_step h op hops.1) hops.2

/-- The specification state of a freshly constructed manager. -/
def sInit (fall : Bool) (find : Str → Found) : Spec :=
  let s : Spec := { fall := fall, order := [], encOpts := fun _ => none, decOpts := fun _ => none }
  let s := sStep s (.load p!"simplejson" (find p!"simplejson"))
  let s := sStep s (.load p!"json" (find p!"json"))
  let s := sStep s (.load p!"ujson" (find p!"ujson"))
  { s with encOpts := fun n => if n = p!"ujson" then some ([], [(p!"sort_keys", 0), (p!"escape_forward_slashes", 0)])
             else if n = p!"json" ∨ n = p!"simplejson" ∨ n = p!"django.util.simplejson" then some jsonOpts
             else none }

theorem order_step_load (s : Spec) (n m : Str) (f : Found) (h : m ∈ (sStep s (.load n f)).order.map (·.1)) :
    m = n ∨ m ∈ s.order.map (·.1) := by
  have hw : m ∈ (without n s.order).map (·.1) → m = n ∨ m ∈ s.order.map (·.1) := by
    intro h
    obtain ⟨b, hb, rfl⟩ := List.mem_map.mp h
    exact Or.inr (List.mem_map_of_mem (List.mem_filter.mp hb).1)
  cases f with
  | noModule => exact Or.inr h
  | module d l x =>
    cases d <;> cases l <;> cases x <;> simp only [sStep, sRemove] at h <;>
      first
        | exact hw h
        | (simp only [List.map_append, List.mem_append, List.map_cons, List.map_nil,
             List.mem_singleton] at h
           exact h.symm)

theorem rel_init (fall : Bool) (find : Str → Found) : Rel (init fall find) (sInit fall find) := by
  have h0 : Rel { fallthrough := fall }
      { fall := fall, order := [], encOpts := fun _ => none, decOpts := fun _ => none } :=
    ⟨rfl, rfl, List.nodup_nil, fun _ => rfl, fun _ => rfl, fun _ => rfl, fun _ => rfl, fun _ => rfl, rfl⟩
  have h1 := rel_step h0 (.load p!"simplejson" (find p!"simplejson")) (by intro n d l x _; simp)
  have h2 := rel_step h1 (.load p!"json" (find p!"json")) (by
    intro n d l x he hm
    injection he with hn _
    subst hn
    rcases order_step_load _ _ _ _ hm with h | h
    · revert h; decide
    · simp at h)
  have h3 := rel_step h2 (.load p!"ujson" (find p!"ujson")) (by
    intro n d l x he hm
    injection he with hn _
    subst hn
    rcases order_step_load _ _ _ _ hm with h | h
    · revert h; decide
    · rcases order_step_load _ _ _ _ h with h | h
      · revert h; decide
      · simp at h)
  refine ⟨h3.fall, h3.names, h3.nodup, h3.enc, h3.dec, h3.exc, ?_, h3.do_, h3.ver⟩
  intro n
  simp only [init, sInit, dget_cons, dget_nil, eq_comm (b := n)]
  by_cases e1 : n = p!"ujson"
  · rw [if_pos e1, if_pos e1]
  · rw [if_neg e1, if_neg e1]
    by_cases e2 : n = p!"json"
    · rw [if_pos e2, if_pos (Or.inl e2)]
    · rw [if_neg e2]
      by_cases e3 : n = p!"simplejson"
      · rw [if_pos e3, if_pos (Or.inr (Or.inl e3))]
      · rw [if_neg e3]
        by_cases e4 : n = p!"django.util.simplejson"
        · rw [if_pos e4, if_pos (Or.inr (Or.inr e4))]
        · rw [if_neg e4, if_neg (by simp only [not_or]; exact ⟨e2, e3, e4⟩)]

/-! ### encode and decode on related states -/

theorem dget_order {l : List B} (hd : (l.map (·.1)).Nodup) {b : B} (hb : b ∈ l) :
    dget b.1 l = some b.2 := by
  induction l with
  | nil => cases hb
  | cons c l ih =>
    obtain ⟨k, c⟩ := c
    simp only [List.map_cons, List.nodup_cons] at hd
    rcases List.mem_cons.mp hb with rfl | hb
    · simp [dget_cons]
    · rw [dget_cons, if_neg (fun e => hd.1 (by rw [e]; exact List.mem_map_of_mem hb))]
      exact ih hd.2 hb

theorem backendEncode_eq {st : St} {s : Spec} (h : Rel st s) (w : World) (obj : Nat) (i x : Option Nat)
    {b : B} (hb : b ∈ s.order) : backendEncode w st b.1 obj i x = encOut w s obj i x b := by
  have hnd := h.nodup
  rw [h.names] at hnd
  unfold backendEncode encOut mergeKw
  rw [h.enc, dget_order hnd hb, h.eo]
  rfl

theorem backendDecode_eq {st : St} {s : Spec} (h : Rel st s) (w : World) (t : Nat)
    {b : B} (hb : b ∈ s.order) : backendDecode w st b.1 t = decOut w s t b := by
  have hnd := h.nodup
  rw [h.names] at hnd
  unfold backendDecode decOut
  rw [h.dec, dget_order hnd hb, h.do_]
  rfl

theorem encodeLoop_spec {st : St} {s : Spec} (h : Rel st s) (w : World) (obj : Nat) (i x : Option Nat)
    (l : List B) (hl : ∀ b ∈ l, b ∈ s.order) (hne : l ≠ []) :
    ∃ res, encodeLoop w st obj i x (l.map (·.1)) = res.map some ∧
      FirstOutcome (encOut w s obj i x) (fun _ e => isExc e) l res := by
  induction l with
  | nil => exact absurd rfl hne
  | cons b l ih =>
    simp only [List.map_cons, encodeLoop]
    rw [backendEncode_eq h w obj i x (hl b List.mem_cons_self)]
    cases ho : encOut w s obj i x b with
    | ok r => exact ⟨.ok r, rfl, [], b, l, rfl, by simp, ho, by simp⟩
    | error e =>
      simp only
      by_cases hx : e.isException = true
      · rw [if_pos hx]
        by_cases hl0 : l = []
        · subst hl0
          refine ⟨.error e, by rfl, [], b, [], rfl, by simp, ho, by simp⟩
        · have hl1 : l.map (·.1) ≠ [] := by simpa using hl0
          rw [if_neg hl1]
          obtain ⟨res, h1, pre, c, post, h2, h3, h4, h5⟩ :=
            ih (fun c hc => hl c (List.mem_cons_of_mem _ hc)) hl0
          refine ⟨res, h1, b :: pre, c, post, by rw [h2]; rfl, ?_, h4, h5⟩
          intro a ha
          rcases List.mem_cons.mp ha with rfl | ha
          · exact ⟨e, ho, (isExc_eq e).trans hx⟩
          · exact h3 a ha
      · rw [if_neg hx]
        refine ⟨.error e, rfl, [], b, l, rfl, by simp, ho, ?_⟩
        intro e' he' hc
        cases he'
        exact absurd ((isExc_eq e).symm.trans hc) hx

theorem decodeLoop_spec {st : St} {s : Spec} (h : Rel st s) (w : World) (t : Nat)
    (l : List B) (hl : ∀ b ∈ l, b ∈ s.order) (hne : l ≠ []) :
    ∃ res, decodeLoop w st t (l.map (·.1)) = res.map some ∧
      FirstOutcome (decOut w s t) (fun b e => w.matches_ e b.2.2.2) l res := by
  induction l with
  | nil => exact absurd rfl hne
  | cons b l ih =>
    have hnd := h.nodup
    rw [h.names] at hnd
    simp only [List.map_cons, decodeLoop]
    rw [backendDecode_eq h w t (hl b List.mem_cons_self)]
    cases ho : decOut w s t b with
    | ok r => exact ⟨.ok r, rfl, [], b, l, rfl, by simp, ho, by simp⟩
    | error e =>
      simp only
      rw [h.exc, dget_order hnd (hl b List.mem_cons_self)]
      simp only [Option.map_some]
      by_cases hx : w.matches_ e b.2.2.2 = true
      · rw [if_pos hx]
        by_cases hl0 : l = []
        · subst hl0
          refine ⟨.error e, by rfl, [], b, [], rfl, by simp, ho, by simp⟩
        · have hl1 : l.map (·.1) ≠ [] := by simpa using hl0
          rw [if_neg hl1]
          obtain ⟨res, h1, pre, c, post, h2, h3, h4, h5⟩ :=
            ih (fun c hc => hl c (List.mem_cons_of_mem _ hc)) hl0
          refine ⟨res, h1, b :: pre, c, post, by rw [h2]; rfl, ?_, h4, h5⟩
          intro a ha
          rcases List.mem_cons.mp ha with rfl | ha
          · exact ⟨e, ho, hx⟩
          · exact h3 a ha
      · rw [if_neg hx]
        refine ⟨.error e, rfl, [], b, l, rfl, by simp, ho, ?_⟩
        intro e' he' hc
        cases he'
        exact absurd hc hx

/-! ### the property -/

/-- **C20, encode.**  After construction and any history of API calls without a double load: with no
backend left `AssertionError`; with fallthrough the outcome of the first backend in preference order
that does not fail with an `Exception`, or of the last one; without fallthrough the outcome of the
preferred backend only. -/
theorem encode_spec_partial (w : World) (fall : Bool) (find : Str → Found) (ops : List Op)
    (hops : NoDoubleLoad (sInit fall find) ops) (obj : Nat) (i x : Option Nat) :
    let s := sRun (sInit fall find) ops
    let r := encode w (run (init fall find) ops) obj i x
    (s.order = [] → r = .error .assertionError) ∧
    (s.order ≠ [] → s.fall = true →
      ∃ res, r = res.map some ∧
        FirstOutcome (encOut w s obj i x) (fun _ e => isExc e) s.order res) ∧
    (∀ b rest, s.order = b :: rest → s.fall = false → r = (encOut w s obj i x b).map some) := by
  intro s r
  have h : Rel (run (init fall find) ops) s := rel_run (rel_init fall find) ops hops
  refine ⟨?_, ?_, ?_⟩
  · intro he
    have : (run (init fall find) ops).verified = false := by rw [h.ver, h.names, he]; rfl
    simp [r, encode, this]
  · intro hne hf
    have hv : (run (init fall find) ops).verified = true := by
      rw [h.ver, h.names]; cases ho : s.order with
      | nil => exact absurd ho hne
      | cons => rfl
    have hff : (run (init fall find) ops).fallthrough = true := by rw [h.fall, hf]
    simp only [r, encode, hv, hff, if_true]
    rw [h.names]
    exact encodeLoop_spec h w obj i x s.order (fun _ hb => hb) hne
  · intro b rest ho hf
    have hv : (run (init fall find) ops).verified = true := by rw [h.ver, h.names, ho]; rfl
    have hff : (run (init fall find) ops).fallthrough = false := by rw [h.fall, hf]
    have hn : (run (init fall find) ops).names = b.1 :: rest.map (·.1) := by rw [h.names, ho]; rfl
    simp only [r, encode, hv, hff, hn, if_true, Bool.false_eq_true, if_false]
    rw [backendEncode_eq h w obj i x (by rw [ho]; exact List.mem_cons_self)]

/-- **C20, decode.**  As for encode, but decode goes on to the next backend only when the error is an
instance of the failing backend's declared decode error. -/
theorem decode_spec_partial (w : World) (fall : Bool) (find : Str → Found) (ops : List Op)
    (hops : NoDoubleLoad (sInit fall find) ops) (t : Nat) :
    let s := sRun (sInit fall find) ops
    let r := decode w (run (init fall find) ops) t
    (s.order = [] → r = .error .assertionError) ∧
    (s.order ≠ [] → s.fall = true →
      ∃ res, r = res.map some ∧
        FirstOutcome (decOut w s t) (fun b e => w.matches_ e b.2.2.2) s.order res) ∧
    (∀ b rest, s.order = b :: rest → s.fall = false → r = (decOut w s t b).map some) := by
  intro s r
  have h : Rel (run (init fall find) ops) s := rel_run (rel_init fall find) ops hops
  refine ⟨?_, ?_, ?_⟩
  · intro he
    have : (run (init fall find) ops).verified = false := by rw [h.ver, h.names, he]; rfl
    simp [r, decode, this]
  · intro hne hf
    have hv : (run (init fall find) ops).verified = true := by
      rw [h.ver, h.names]; cases ho : s.order with
      | nil => exact absurd ho hne
      | cons => rfl
    have hff : (run (init fall find) ops).fallthrough = true := by rw [h.fall, hf]
    simp only [r, decode, hv, hff, if_true]
    rw [h.names]
    exact decodeLoop_spec h w t s.order (fun _ hb => hb) hne
  · intro b rest ho hf
    have hv : (run (init fall find) ops).verified = true := by rw [h.ver, h.names, ho]; rfl
    have hff : (run (init fall find) ops).fallthrough = false := by rw [h.fall, hf]
    have hn : (run (init fall find) ops).names = b.1 :: rest.map (·.1) := by rw [h.names, ho]; rfl
    simp only [r, decode, hv, hff, hn, if_true, Bool.false_eq_true, if_false]
    rw [backendDecode_eq h w t (by rw [ho]; exact List.mem_cons_self)]

/-- An operation that neither prefers another backend nor takes `n` away. -/
def Harmless (n : Str) : Op → Prop
  | .prefer _ => False
  | .remove m => m ≠ n
  | .load _ (.module (some _) (some _) (some _)) => True
  | .load m (.module _ _ _) => m ≠ n
  | _ => True

/-- **C20, preference** (any history, double loads included): after a successful
`set_preferred_backend(n)`, `n` stays the first candidate as long as no other backend is preferred and
`n` is not removed. -/
theorem preferred_first (st : St) (n : Str) (hn : n ∈ st.names) (ops : List Op)
    (h : ∀ op ∈ ops, Harmless n op) :
    (run (step st (.prefer n)) ops).names.head? = some n := by
  have h0 : (step st (.prefer n)).names.head? = some n := by simp [step, setPreferred, hn]
  generalize step st (.prefer n) = st0 at h0
  clear hn
  induction ops generalizing st0 with
  | nil => exact h0
  | cons op ops ih =>
    refine ih (fun o ho => h o (List.mem_cons_of_mem _ ho)) _ ?_
    have hop := h op List.mem_cons_self
    have herase : ∀ (l : List Str) m, l.head? = some n → m ≠ n → (l.erase m).head? = some n := by
      intro l m hl hm
      cases l with
      | nil => cases hl
      | cons a l =>
        simp only [List.head?_cons, Option.some.injEq] at hl
        subst hl
        rw [List.erase_cons_tail (by simpa using fun h => hm h.symm)]; rfl
    cases op with
    | prefer => exact hop.elim
    | remove m => exact herase _ _ h0 hop
    | fallthrough => exact h0
    | encOptions => exact h0
    | decOptions => exact h0
    | load m f =>
      cases f with
      | noModule => exact h0
      | module d l x =>
        cases d with
        | none => exact herase _ _ h0 hop
        | some d =>
          cases l with
          | none => exact herase _ _ h0 hop
          | some l =>
            cases x with
            | none => exact herase _ _ h0 hop
            | some x =>
              show (st0.names ++ [m]).head? = some n
              cases hnm : st0.names with
              | nil => rw [hnm] at h0; cases h0
              | cons a r => rw [hnm] at h0; simpa using h0

/-- **C20, removal** (any history, double loads included): after `remove_backend(n)` and any later calls
that do not load `n` again, no encode or decode function of `n` is registered, so encode and decode can
only return what another backend produced. -/
theorem removed_never_used (w : World) (st : St) (n : Str) (ops : List Op)
    (h : ∀ op ∈ ops, ∀ f, op ≠ .load n f) (obj t : Nat) (i x : Option Nat) :
    let st' := run (step st (.remove n)) ops
    dget n st'.encoders = none ∧ dget n st'.decoders = none ∧
    backendEncode w st' n obj i x = .error .keyError ∧
    backendDecode w st' n t = .error .keyError := by
  intro st'
  have key : dget n st'.encoders = none ∧ dget n st'.decoders = none := by
    have h0 : dget n (step st (.remove n)).encoders = none ∧ dget n (step st (.remove n)).decoders = none := by
      simp [step, removeBackend]
    have : st' = run (step st (.remove n)) ops := rfl
    rw [this]
    generalize step st (.remove n) = st0 at h0
    clear this st'
    induction ops generalizing st0 with
    | nil => exact h0
    | cons op ops ih =>
      refine ih (fun o ho => h o (List.mem_cons_of_mem _ ho)) _ ?_
      have hop := h op List.mem_cons_self
      have hdel : ∀ m (d : List (Str × Nat)), dget n d = none → dget n (ddel m d) = none := by
        intro m d hd
        by_cases e : n = m
        · subst e; simp
        · rw [dget_ddel_ne e, hd]
      cases op with
      | prefer m =>
        simp only [step, setPreferred]
        by_cases hm : m ∈ st0.names
        · rw [if_pos hm]; exact h0
        · rw [if_neg hm]; exact h0
      | remove m => exact ⟨hdel _ _ h0.1, hdel _ _ h0.2⟩
      | fallthrough => exact h0
      | encOptions => exact h0
      | decOptions => exact h0
      | load m f =>
        have hmn : n ≠ m := fun e => hop f (by rw [e])
        cases f with
        | noModule => exact h0
        | module d l x =>
          have hs : ∀ v (d : List (Str × Nat)), dget n d = none → dget n (dset m v d) = none := by
            intro v d hd; rw [dget_dset_ne hmn, hd]
          cases d with
          | none => exact ⟨hdel _ _ h0.1, hdel _ _ h0.2⟩
          | some d =>
            cases l with
            | none => exact ⟨hdel _ _ (hs _ _ h0.1), hdel _ _ h0.2⟩
            | some l =>
              cases x with
              | none => exact ⟨hdel _ _ (hs _ _ h0.1), hdel _ _ (hs _ _ h0.2)⟩
              | some x => exact ⟨hs _ _ h0.1, hs _ _ h0.2⟩
  refine ⟨key.1, key.2, ?_, ?_⟩
  · unfold backendEncode; rw [key.1]
  · unfold backendDecode; rw [key.2]

/-! ### concrete cases and disagreements -/

/-- Only the standard `json` can be imported; its functions are 1 (dumps), 2 (loads), error class 3. -/
def onlyJson : Str → Found := fun n => if n = p!"json" then .module (some 1) (some 2) (some 3) else .noModule
/-- Backend functions that always succeed. -/
def okWorld : World := { enc := fun f o _ => .ok (100 * f + o), dec := fun f o _ => .ok (100 * f + o),
                         matches_ := fun _ _ => true }

example : NoDoubleLoad (sInit true onlyJson)
    [.load p!"fast" (.module (some 11) (some 12) (some 13)), .prefer p!"fast", .remove p!"json"] := by
  refine ⟨?_, ⟨by simp, ⟨by simp, trivial⟩⟩⟩
  intro n d l x h
  injection h with hn _
  subst hn
  decide
example : encode okWorld (run (init true onlyJson)
    [.load p!"fast" (.module (some 11) (some 12) (some 13)), .prefer p!"fast"]) 5 none none
    = .ok (some 1105) := by decide +kernel
example : encode okWorld (run (init true onlyJson) [.remove p!"json"]) 5 none none
    = .error .assertionError := by decide +kernel

/-- The full statement (without `NoDoubleLoad`) is false: `load_backend("json")` by the user - the
constructor has already loaded it - registers the name twice; after one `remove_backend("json")` the
manager still believes a backend is loaded, and both directions raise `KeyError` instead of
`AssertionError`. -/
theorem double_load_then_remove :
    let st := run (init true onlyJson)
      [.load p!"json" (.module (some 1) (some 2) (some 3)), .remove p!"json"]
    st.verified = true ∧ st.names = [p!"json"] ∧ st.encoders = [] ∧
    encode okWorld st 5 none none = .error .keyError ∧
    decode okWorld st 5 = .error .keyError := by decide +kernel

/-- ... and it breaks decoding even though a perfectly good second backend is loaded. -/
theorem double_load_breaks_decode :
    let st := run (init true onlyJson)
      [.load p!"json" (.module (some 1) (some 2) (some 3)), .remove p!"json",
       .load p!"fast" (.module (some 11) (some 12) (some 13))]
    encode okWorld st 5 none none = .ok (some 1105) ∧
    decode okWorld st 5 = .error .keyError := by decide +kernel

/-- A first backend that fails to decode with an error that is not its declared decode error. -/
def oddWorld : World where
  enc f o _ := .ok (100 * f + o)
  dec f o _ := if f = 2 then .error (.user 7 true) else .ok (100 * f + o)
  matches_ _ _ := false

/-- For decode "the first backend that succeeds" is false as it stands: an error of another class than
the declared one is not caught, although the next backend would succeed. -/
theorem decode_uncaught_error :
    decode oddWorld (run (init true onlyJson)
      [.load p!"fast" (.module (some 11) (some 12) (some 13))]) 5 = .error (.user 7 true) := by
  decide +kernel

end JP.Backend.C20
