import Verif.PartsSpec
import Verif.Proofs.UQuietRun
import Verif.Proofs.UFresh
import Verif.Proofs.UMono
import Verif.Proofs.UPlain
import Verif.Proofs.UDispatch
import Verif.Proofs.SimDict
/-!
# Parts of a document without references are decoded as if they stood alone
-/
namespace JP.Unpickler.Parts
open JP PyM
open V1 (kindAt Free)

/-- no placeholder is held anywhere, and none is waiting to be replaced -/
structure Tidy (s : UState) : Prop where
  cells : Quiet.Cells s.heap
  noId : ∀ a, kindAt s.heap a ≠ some .idproxy
  none : s.proxies = []

theorem tidy_empty : Tidy {} := ⟨(fun a o h => by cases h), (fun a h => by cases h), rfl⟩

/-- In the middle of decoding, a part without references is decoded as by a new `Unpickler`. -/
theorem step {env : UEnv} (g : env.Globals) (n : Nat) (j : Json) (hj : Free env j) (s : UState) (ht : Tidy s) :
    restore env n j s = none ∧ restoreTop env n j true {} = none ∨
    ∃ r s0 t, restoreTop env n j true {} = some (r, s0) ∧ restore env n j s = some (r.map (Val.shift s.heap.length s.nextId), t) ∧
      t.heap = s.heap ++ s0.heap.map (Obj.shift s.heap.length s.nextId) ∧ t.log = s.log ++ s0.log ∧ t.nextId = s0.nextId + s.nextId ∧ Tidy t ∧
      ∀ v, r.map (Val.shift s.heap.length s.nextId) = .ok v → Quiet.Sol t.heap v := by
  have rel : V1.Rel s.heap.length s { s with objs := [], idx := [], proxies := [] } := by
    refine ⟨Nat.le_refl _, rfl, ht.none.symm, rfl, rfl, ht.noId, fun a ha hk => ?_⟩
    have := V1.Sim.kindAt_lt hk
    omega
  have out := V1.sm_restore (env := env) (b := env.v1) n [] j hj s _ rel (fun _ h => by cases h)
  have lift := restoreTop_lift g n j s
  have quiet := Quiet.keeps_restore g n j hj s ht.cells
  unfold restoreTop at lift ⊢
  simp only [if_true] at lift ⊢
  rw [bind_run] at lift
  change (restore env n j >>= fun v => swapProxies >>= fun _ => Pure.pure v) { s with objs := [], idx := [], proxies := [] } = _ at lift
  rw [bind_run] at lift
  cases hr : restore env n j s with
  | none =>
    rw [hr] at out
    cases hr' : restore env n j { s with objs := [], idx := [], proxies := [] } with
    | some p => rw [show restore (V1.withV1 env env.v1) n j _ = _ from hr'] at out; exact out.elim
    | none =>
      rw [hr'] at lift
      refine .inl ⟨rfl, ?_⟩
      cases hq : (reset >>= fun _ => restore env n j >>= fun v => swapProxies >>= fun _ => Pure.pure v : U Val) {} with
      | none => rfl
      | some p => rw [hq] at lift; cases lift
  | some p =>
    rw [hr] at out
    obtain ⟨r, t⟩ := p
    cases hr' : restore env n j { s with objs := [], idx := [], proxies := [] } with
    | none => rw [show restore (V1.withV1 env env.v1) n j _ = _ from hr'] at out; exact out.elim
    | some p' =>
      obtain ⟨r', t'⟩ := p'
      rw [show restore (V1.withV1 env env.v1) n j _ = _ from hr'] at out
      obtain ⟨e, rel', _, _⟩ := out
      subst e
      obtain ⟨q1, q2, q3, q4⟩ := quiet r t hr
      have hn : t'.proxies = [] := by rw [rel'.proxies, q3, ht.none]
      have hsw : swapProxies t' = some (.ok (), { t' with proxies := [] }) := by
        unfold swapProxies
        rw [bind_run, get_run]
        simp only [hn, mapM_nil]
        rfl
      rw [hr'] at lift
      have hl : ∃ u, some (r, u) = ((reset >>= fun _ => restore env n j >>= fun v => swapProxies >>= fun _ => Pure.pure v : U Val) {}).map ((before s).liftRun (before s).v) ∧
          u.heap = t.heap ∧ u.log = t.log ∧ u.nextId = t.nextId := by
        cases r with
        | error e => exact ⟨t', lift, rel'.heap, rel'.log, rel'.nextId⟩
        | ok v =>
          dsimp only at lift
          rw [bind_run, hsw] at lift
          exact ⟨_, lift, rel'.heap, rel'.log, rel'.nextId⟩
      obtain ⟨u, hu, h1, h2, h3⟩ := hl
      cases hq : (reset >>= fun _ => restore env n j >>= fun v => swapProxies >>= fun _ => Pure.pure v : U Val) {} with
      | none => rw [hq] at hu; cases hu
      | some p0 =>
        obtain ⟨r0, s0⟩ := p0
        rw [hq] at hu
        have hu := Prod.mk.inj (Option.some.inj hu)
        obtain ⟨e1, e2⟩ := hu
        subst e2
        exact .inr ⟨r0, s0, t, rfl, by rw [e1]; rfl, h1.symm, h2.symm, h3.symm, ⟨q1, rel'.noId, by rw [q3, ht.none]⟩, fun v hv => q4 v (by rw [e1]; exact hv)⟩

/-- Decoded alone, a part without references has nothing to replace at the end. -/
theorem top {env : UEnv} (g : env.Globals) (n : Nat) (j : Json) (hj : Free env j) :
    restoreTop env n j true {} = (restore env n j {}).map (fun p => (p.1, { p.2 with proxies := [] })) := by
  have quiet := Quiet.keeps_restore g n j hj {} tidy_empty.cells
  unfold restoreTop
  rw [if_pos rfl, bind_run]
  change (restore env n j >>= fun v => swapProxies >>= fun _ => Pure.pure v) {} = _
  rw [bind_run]
  cases hr : restore env n j {} with
  | none => rfl
  | some p =>
    obtain ⟨r, t⟩ := p
    obtain ⟨_, _, q3, _⟩ := quiet r t hr
    have q3 : t.proxies = [] := q3
    obtain ⟨h, o, i, pr, ni, l⟩ := t
    subst q3
    cases r with
    | error e => rfl
    | ok v => rfl

/-- decoding alone, with bounded recursion -/
def Run (env : UEnv) (n : Nat) (j : Json) (r : Except Exc Val) (s : UState) : Prop := restoreTop env n j true {} = some (r, s)

/-- the first document that does not give a value, when decoded alone, does not come to an end -/
def Hangs (env : UEnv) (n : Nat) (js : List Json) : Prop :=
  ∃ pre j post, js = pre ++ j :: post ∧ (∀ i ∈ pre, ∃ y s, Run env n i (.ok y) s) ∧ restoreTop env n j true {} = none

theorem kept_append (h new : Heap) : Quiet.Kept h (h ++ new) := fun a k hk => by
  have hl := V1.Sim.kindAt_lt hk
  unfold kindAt at hk ⊢
  rw [List.getElem?_append_left hl]
  exact hk

theorem Raises.cons {G : Json → Except Exc Val → UState → Prop} {j : Json} {js : List Json} {e : Exc} (h : Raises G js e) {y s} (hj : G j (.ok y) s) :
    Raises G (j :: js) e := by
  obtain ⟨pre, i, post, h1, h2, h3⟩ := h
  refine ⟨j :: pre, i, post, by rw [h1]; rfl, fun k hk => ?_, h3⟩
  rcases List.mem_cons.1 hk with rfl | hk
  · exact ⟨_, _, hj⟩
  · exact h2 k hk

theorem Hangs.cons {env : UEnv} {n : Nat} {j : Json} {js : List Json} (h : Hangs env n js) {y s} (hj : restoreTop env n j true {} = some (.ok y, s)) :
    Hangs env n (j :: js) := by
  obtain ⟨pre, i, post, h1, h2, h3⟩ := h
  refine ⟨j :: pre, i, post, by rw [h1]; rfl, fun k hk => ?_, h3⟩
  rcases List.mem_cons.1 hk with rfl | hk
  · exact ⟨_, _, hj⟩
  · exact h2 k hk

/-- how decoding a sequence of parts, starting in `s`, ends -/
def Ends (env : UEnv) (n : Nat) (js : List Json) (s : UState) : Option (Except Exc (List Val) × UState) → Prop
  | none => Hangs env n js
  | some (.error e, _) => Raises (Run env n) js e
  | some (.ok vs, t) => ∃ new l, Alone (Run env n) s.heap.length s.nextId js vs new l ∧ t.heap = s.heap ++ new ∧ t.log = s.log ++ l ∧ Tidy t ∧ ∀ v ∈ vs, Quiet.Sol t.heap v

theorem seq {env : UEnv} (g : env.Globals) (n : Nat) : ∀ (js : List Json), (∀ j ∈ js, Free env j) → ∀ s, Tidy s → Ends env n js s (mapM (restore env n) js s)
  | [], _, s, ht => ⟨[], [], .nil, by simp, by simp, ht, fun v h => by cases h⟩
  | j :: js, hj, s, ht => by
    rw [mapM_cons, bind_run]
    rcases step g n j (hj j List.mem_cons_self) s ht with ⟨h1, h2⟩ | ⟨r, s0, t, h1, h2, h3, h4, h5, h6, h7⟩
    · rw [h1]
      exact ⟨[], j, js, rfl, (fun i hi => by cases hi), h2⟩
    · rw [h2]
      cases r with
      | error e => exact ⟨[], j, js, rfl, (fun i hi => by cases hi), _, h1⟩
      | ok y =>
        have ih := seq g n js (fun i hi => hj i (List.mem_cons_of_mem _ hi)) t h6
        dsimp only [Except.map]
        rw [bind_run]
        cases hm : mapM (restore env n) js t with
        | none => rw [hm] at ih; exact ih.cons h1
        | some p =>
          rw [hm] at ih
          obtain ⟨r', t'⟩ := p
          cases r' with
          | error e => exact Raises.cons ih h1
          | ok vs =>
            obtain ⟨new, l, a1, a2, a3, a4, a5⟩ := ih
            refine ⟨s0.heap.map (Obj.shift s.heap.length s.nextId) ++ new, s0.log ++ l, .cons h1 ?_, ?_, ?_, a4, fun v hv => ?_⟩
            · rw [h3, List.length_append, List.length_map, h5] at a1
              exact a1
            · rw [a2, h3, List.append_assoc]
            · rw [a3, h4, List.append_assoc]
            · rcases List.mem_cons.1 hv with rfl | hv
              · rw [a2]
                exact (h7 _ rfl).kept (kept_append _ _)
              · exact a5 v hv

theorem Alone.imp {G G' : Json → Except Exc Val → UState → Prop} (h : ∀ j r s, G j r s → G' j r s) {m i js vs hp l} (a : Alone G m i js vs hp l) :
    Alone G' m i js vs hp l := by
  induction a with
  | nil => exact .nil
  | cons h1 _ ih => exact .cons (h _ _ _ h1) ih

theorem Raises.imp {G G' : Json → Except Exc Val → UState → Prop} (h : ∀ j r s, G j r s → G' j r s) {js e} (a : Raises G js e) : Raises G' js e := by
  obtain ⟨pre, j, post, h1, h2, s, h3⟩ := a
  refine ⟨pre, j, post, h1, fun i hi => ?_, s, h _ _ _ h3⟩
  obtain ⟨y, t, h4⟩ := h2 i hi
  exact ⟨y, t, h _ _ _ h4⟩

theorem run_mono {env : UEnv} {n m : Nat} (h : n ≤ m) (j : Json) (r : Except Exc Val) (s : UState) (hr : Run env n j r s) : Run env m j r s :=
  restoreTop_mono h hr

theorem gives_of_run {env : UEnv} {n : Nat} (j : Json) (r : Except Exc Val) (s : UState) (h : Run env n j r s) : Gives env j r s := ⟨n, h⟩

theorem Alone.bound {env : UEnv} {m i js vs hp l} (a : Alone (Gives env) m i js vs hp l) : ∃ n, Alone (Run env n) m i js vs hp l := by
  induction a with
  | nil => exact ⟨0, .nil⟩
  | cons h1 _ ih =>
    obtain ⟨n1, h1⟩ := h1
    obtain ⟨n2, ih⟩ := ih
    exact ⟨max n1 n2, .cons (run_mono (Nat.le_max_left _ _) _ _ _ h1) (ih.imp (run_mono (Nat.le_max_right _ _)))⟩

theorem all_bound {env : UEnv} : ∀ {js : List Json}, (∀ j ∈ js, ∃ y s, Gives env j (.ok y) s) → ∃ n, ∀ j ∈ js, ∃ y s, Run env n j (.ok y) s
  | [], _ => ⟨0, fun j h => by cases h⟩
  | j :: js, h => by
    obtain ⟨y, s, n1, h1⟩ := h j List.mem_cons_self
    obtain ⟨n2, h2⟩ := all_bound (fun i hi => h i (List.mem_cons_of_mem _ hi))
    refine ⟨max n1 n2, fun i hi => ?_⟩
    rcases List.mem_cons.1 hi with rfl | hi
    · exact ⟨y, s, run_mono (Nat.le_max_left _ _) _ _ _ h1⟩
    · obtain ⟨y', s', h3⟩ := h2 i hi
      exact ⟨y', s', run_mono (Nat.le_max_right _ _) _ _ _ h3⟩

theorem Raises.bound {env : UEnv} {js : List Json} {e : Exc} (a : Raises (Gives env) js e) : ∃ n, Raises (Run env n) js e := by
  obtain ⟨pre, j, post, h1, h2, s, n1, h3⟩ := a
  obtain ⟨n2, h4⟩ := all_bound h2
  refine ⟨max n1 n2, pre, j, post, h1, fun i hi => ?_, s, run_mono (Nat.le_max_left _ _) _ _ _ h3⟩
  obtain ⟨y', s', h5⟩ := h4 i hi
  exact ⟨y', s', run_mono (Nat.le_max_right _ _) _ _ _ h5⟩

theorem Run.unique {env : UEnv} {n : Nat} {j : Json} {r r' : Except Exc Val} {s s' : UState} (h : Run env n j r s) (h' : Run env n j r' s') : r = r' ∧ s = s' :=
  Prod.mk.inj (Option.some.inj (h.symm.trans h'))

theorem Alone.all {G : Json → Except Exc Val → UState → Prop} {m i js vs hp l} (a : Alone G m i js vs hp l) : ∀ j ∈ js, ∃ y s, G j (.ok y) s := by
  induction a with
  | nil => exact fun j h => by cases h
  | cons h1 _ ih =>
    intro j hj
    rcases List.mem_cons.1 hj with rfl | hj
    · exact ⟨_, _, h1⟩
    · exact ih j hj

theorem Alone.unique {env : UEnv} {n m i js vs hp l} (a : Alone (Run env n) m i js vs hp l) : ∀ {vs' hp' l'}, Alone (Run env n) m i js vs' hp' l' →
    vs = vs' ∧ hp = hp' ∧ l = l' := by
  induction a with
  | nil =>
    intro _ _ _ b
    cases b
    exact ⟨rfl, rfl, rfl⟩
  | cons h1 _ ih =>
    intro _ _ _ b
    cases b with
    | cons h2 b =>
      obtain ⟨e1, e2⟩ := h1.unique h2
      cases e1
      subst e2
      obtain ⟨rfl, rfl, rfl⟩ := ih b
      exact ⟨rfl, rfl, rfl⟩

/-- the first part without a value -/
theorem first {env : UEnv} {n : Nat} {A B : Json → Prop} (hA : ∀ j, A j → ¬ ∃ y s, Run env n j (.ok y) s) (hB : ∀ j, B j → ¬ ∃ y s, Run env n j (.ok y) s) :
    ∀ {js : List Json}, (∃ pre j post, js = pre ++ j :: post ∧ (∀ i ∈ pre, ∃ y s, Run env n i (.ok y) s) ∧ A j) →
      (∃ pre j post, js = pre ++ j :: post ∧ (∀ i ∈ pre, ∃ y s, Run env n i (.ok y) s) ∧ B j) → ∃ j, A j ∧ B j := by
  rintro js ⟨pre, j, post, rfl, h2, h3⟩ ⟨pre', j', post', h4, h5, h6⟩
  induction pre generalizing pre' with
  | nil =>
    cases pre' with
    | nil => cases h4; exact ⟨_, h3, h6⟩
    | cons a pre' =>
      cases h4
      exact absurd (h5 _ List.mem_cons_self) (hA _ h3)
  | cons a pre ih =>
    cases pre' with
    | nil =>
      cases h4
      exact absurd (h2 _ List.mem_cons_self) (hB _ h6)
    | cons b pre' =>
      injection h4 with _ h4
      exact ih (fun i hi => h2 i (List.mem_cons_of_mem _ hi)) _ h4 (fun i hi => h5 i (List.mem_cons_of_mem _ hi))

theorem error_no {env : UEnv} {n : Nat} {e : Exc} (j : Json) (h : ∃ s, Run env n j (.error e) s) : ¬ ∃ y s, Run env n j (.ok y) s := by
  rintro ⟨y, s, h1⟩
  obtain ⟨s', h⟩ := h
  cases (h.unique h1).1

theorem hang_no {env : UEnv} {n : Nat} (j : Json) (h : restoreTop env n j true {} = none) : ¬ ∃ y s, Run env n j (.ok y) s := by
  rintro ⟨y, s, h1⟩
  rw [Run, h] at h1
  cases h1

theorem raises_hangs {env : UEnv} {n : Nat} {js : List Json} {e : Exc} (a : Raises (Run env n) js e) (b : Hangs env n js) : False := by
  obtain ⟨j, ⟨s, h1⟩, h2⟩ := first error_no hang_no a b
  rw [Run, h2] at h1
  cases h1

theorem raises_unique {env : UEnv} {n : Nat} {js : List Json} {e e' : Exc} (a : Raises (Run env n) js e) (b : Raises (Run env n) js e') : e = e' := by
  obtain ⟨j, ⟨s, h1⟩, ⟨s', h2⟩⟩ := first error_no error_no a b
  cases (h1.unique h2).1
  rfl

theorem alone_raises {env : UEnv} {n m i js vs hp l} {e : Exc} (a : Alone (Run env n) m i js vs hp l) (b : Raises (Run env n) js e) : False := by
  obtain ⟨pre, j, post, rfl, _, h⟩ := b
  exact error_no j h (a.all j (by simp))

theorem alone_hangs {env : UEnv} {n m i js vs hp l} (a : Alone (Run env n) m i js vs hp l) (b : Hangs env n js) : False := by
  obtain ⟨pre, j, post, rfl, _, h⟩ := b
  exact hang_no j h (a.all j (by simp))

/-! ### lists -/

theorem Tidy.change {s t : UState} (h : Tidy s) (h1 : t.heap = s.heap) (h2 : t.proxies = s.proxies) : Tidy t := by
  refine ⟨?_, ?_, ?_⟩
  · rw [h1]; exact h.cells
  · rw [h1]; exact h.noId
  · rw [h2]; exact h.none

theorem tidy_one (o : Obj) (q : Quiet.CellQ [o] o) (hk : V1.kindOf o ≠ .idproxy) (s : UState) (hs : s.heap = [o]) (hp : s.proxies = []) : Tidy s := by
  refine ⟨?_, fun a ha => ?_, hp⟩
  · rw [hs]
    have := Quiet.Cells.append (h := []) (fun a o h => by cases h) q
    exact this
  · rw [hs] at ha
    cases a with
    | zero => exact hk (Option.some.inj ha)
    | succ a => cases ha

/-- the run of a list -/
theorem list_run {env : UEnv} (g : env.Globals) (n : Nat) (js : List Json) (hj : ∀ j ∈ js, Free env j) :
    ∃ s : UState, s.heap = [.list []] ∧ s.log = [] ∧ s.nextId = 0 ∧ Tidy s ∧ Ends env n js s (mapM (restore env n) js s) ∧
      restore env (n + 1) (.arr js) {} = (mapM (restore env n) js s).map (fun p => (p.1.map (fun _ => Val.ref 0), match p.1 with
        | .ok vs => { p.2 with heap := p.2.heap.set 0 (.list vs) }
        | .error _ => p.2)) := by
  have h1 : mkref (.ref 0) { ({} : UState) with heap := [.list []] } = some (.ok (.ref 0), { heap := [.list []], objs := [.ref 0], idx := [(Val.ident (.ref 0), 0)] }) := rfl
  have ht : Tidy { heap := [.list []], objs := [.ref 0], idx := [(Val.ident (.ref 0), 0)] } := tidy_one (.list []) (fun v h => by cases h) (fun h => by cases h) _ rfl rfl
  have he := seq g n js hj _ ht
  refine ⟨_, rfl, rfl, rfl, ht, he, ?_⟩
  have hrun : restoreList (restore env n) (.ok js) {} = (mapM (restore env n) js >>= fun vs => setCell 0 (.list vs) >>= fun _ => noteList 0 0 vs >>= fun _ => Pure.pure (0 : Addr))
      { heap := [.list []], objs := [.ref 0], idx := [(Val.ident (.ref 0), 0)] } := rfl
  rw [show restore env (n + 1) (.arr js) = restoreList (restore env n) (.ok js) >>= fun a => Pure.pure (Val.ref a) from rfl, bind_run, hrun, bind_run]
  cases hm : mapM (restore env n) js { heap := [.list []], objs := [.ref 0], idx := [(Val.ident (.ref 0), 0)] } with
  | none => rfl
  | some p =>
    obtain ⟨r, t⟩ := p
    rw [hm] at he
    cases r with
    | error e => rfl
    | ok vs =>
      obtain ⟨new, l, a1, a2, a3, a4, a5⟩ := he
      have hk : Quiet.Kept t.heap (t.heap.set 0 (.list vs)) := Quiet.Kept.set (by rw [a2]; rfl)
      have hn : noteList 0 0 vs { t with heap := t.heap.set 0 (.list vs) } = some (.ok (), { t with heap := t.heap.set 0 (.list vs) }) :=
        noteList_none _ _ _ _ (fun v hv => ((a5 v hv).kept hk).proxyAddr)
      dsimp only
      rw [bind_run, show setCell 0 (.list vs) t = some (.ok (), { t with heap := t.heap.set 0 (.list vs) }) from rfl]
      dsimp only
      rw [bind_run, hn]
      rfl

/-! ### dicts -/

/-- how decoding the entries of the dict in the first cell ends -/
def EndsD (env : UEnv) (n : Nat) (kvs : List (Str × Json)) (es : List (Str × Val)) (rest : Heap) (s : UState) : Option (Except Exc (List Unit) × UState) → Prop
  | none => Hangs env n (kvs.map (·.2))
  | some (.error e, _) => Raises (Run env n) (kvs.map (·.2)) e
  | some (.ok _, t) => ∃ vs new l, Alone (Run env n) s.heap.length s.nextId (kvs.map (·.2)) vs new l ∧
      t.heap = .dict (Pickler.asItems (es ++ (kvs.map (·.1)).zip vs)) :: (rest ++ new) ∧ t.log = s.log ++ l ∧ t.proxies = []

/-- one entry: the value is decoded and stored -/
def Stores (env : UEnv) (n : Nat) (f : Str × Json → U Unit) : Prop :=
  ∀ kv s, (restore env n kv.2 s = none → f kv s = none) ∧ (∀ e t, restore env n kv.2 s = some (.error e, t) → f kv s = some (.error e, t)) ∧
    ∀ v t es rest, restore env n kv.2 s = some (.ok v, t) → Quiet.Sol t.heap v → t.heap = .dict es :: rest →
      f kv s = some (.ok (), { t with heap := .dict (vset (.str kv.1) v es) :: rest })

theorem tidy_dictSet {t : UState} (ht : Tidy t) {es rest} (he : t.heap = .dict es :: rest) {k : Str} {v : Val} (hv : Quiet.Sol t.heap v) :
    Tidy { t with heap := .dict (vset (.str k) v es) :: rest } := by
  have hd : dictSet 0 (.str k) v t = some (.ok (), { t with heap := .dict (vset (.str k) v es) :: rest }) := by
    unfold dictSet
    rw [he]
    rfl
  obtain ⟨h1, h2, h3, _⟩ := (Quiet.put_dictSet t 0 (.str k) v).keeps hv ht.cells _ _ hd
  refine ⟨h1, fun a ha => ?_, by rw [h3, ht.none]⟩
  cases a with
  | zero => cases ha
  | succ a => exact ht.noId (a + 1) (by rw [he]; exact ha)

theorem seqD {env : UEnv} (g : env.Globals) (n : Nat) {f : Str × Json → U Unit} (hf : Stores env n f) : ∀ (kvs : List (Str × Json)), (∀ kv ∈ kvs, Free env kv.2) →
    (kvs.map (·.1)).Nodup → ∀ s es rest, Tidy s → s.heap = .dict (Pickler.asItems es) :: rest → (∀ k ∈ kvs.map (·.1), k ∉ es.map (·.1)) →
      EndsD env n kvs es rest s (mapM f kvs s)
  | [], _, _, s, es, rest, ht, hh, _ => ⟨[], [], [], .nil, by simp [hh], by simp, ht.none⟩
  | (k, j) :: kvs, hj, hn, s, es, rest, ht, hh, hd => by
    rw [mapM_cons, bind_run]
    obtain ⟨f1, f2, f3⟩ := hf (k, j) s
    rcases step g n j (hj (k, j) List.mem_cons_self) s ht with ⟨h1, h2⟩ | ⟨r, s0, t, h1, h2, h3, h4, h5, h6, h7⟩
    · rw [f1 h1]
      exact ⟨[], j, kvs.map (·.2), rfl, (fun i hi => by cases hi), h2⟩
    · cases r with
      | error e =>
        rw [f2 _ _ h2]
        exact ⟨[], j, kvs.map (·.2), rfl, (fun i hi => by cases hi), _, h1⟩
      | ok y =>
        have hy := h7 _ rfl
        have h3' : t.heap = .dict (Pickler.asItems es) :: (rest ++ s0.heap.map (Obj.shift s.heap.length s.nextId)) := by rw [h3, hh]; rfl
        have hke : k ∉ es.map (·.1) := hd k (by simp)
        rw [f3 _ t _ _ h2 hy h3', JP.Sim.vset_name hke]
        have ht1 := tidy_dictSet h6 h3' (k := k) hy
        rw [JP.Sim.vset_name hke] at ht1
        have hn' := List.nodup_cons.1 hn
        have ih := seqD g n hf kvs (fun kv hkv => hj kv (List.mem_cons_of_mem _ hkv)) hn'.2 _ (es ++ [(k, y.shift s.heap.length s.nextId)]) _ ht1 rfl
          (fun k' hk' hm => by
            rw [List.map_append, List.mem_append] at hm
            rcases hm with hm | hm
            · exact hd k' (List.mem_cons_of_mem _ hk') hm
            · have : k' = k := by simpa using hm
              exact hn'.1 (this ▸ hk'))
        dsimp only
        rw [bind_run]
        revert ih
        generalize hm : mapM f kvs _ = m
        intro ih
        match m, ih with
        | none, ih => exact Hangs.cons ih h1
        | some (.error e, _), ih => exact Raises.cons ih h1
        | some (.ok _, t'), ih =>
          obtain ⟨vs, new, l, a1, a2, a3, a4⟩ := ih
          refine ⟨_, s0.heap.map (Obj.shift s.heap.length s.nextId) ++ new, s0.log ++ l, .cons h1 (vs := vs) ?_, ?_, ?_, a4⟩
          · have hl : s.heap.length + s0.heap.length = (Obj.dict (Pickler.asItems (es ++ [(k, y.shift s.heap.length s.nextId)])) ::
                (rest ++ s0.heap.map (Obj.shift s.heap.length s.nextId))).length := by
              rw [hh]
              simp only [List.length_cons, List.length_append, List.length_map]
              omega
            rw [hl, ← h5]
            exact a1
          · rw [a2]
            simp [List.append_assoc]
          · rw [a3, ← List.append_assoc, ← h4]

theorem dict_stores {env : UEnv} {n : Nat} : Stores env n (dictEntry (restore env n) 0) := by
  intro kv s
  unfold dictEntry
  rw [bind_run]
  refine ⟨fun h => by rw [h], fun e t h => by rw [h], fun v t es rest h hv hh => ?_⟩
  rw [h]
  dsimp only
  have hd : dictSet 0 (.str kv.1) v t = some (.ok (), { t with heap := .dict (vset (.str kv.1) v es) :: rest }) := by
    unfold dictSet
    rw [hh]
    rfl
  have hv' : Quiet.Sol (.dict (vset (.str kv.1) v es) :: rest) v := by
    refine hv.kept ?_
    rw [hh]
    exact Quiet.Kept.set (h := .dict es :: rest) (a := 0) (o := .dict (vset (.str kv.1) v es)) rfl
  rw [bind_run, hd]
  simp only [noteProxy, modify_run, hv'.proxyAddr]

def plainEntry (env : UEnv) (n : Nat) (kv : Str × Json) : U Unit := restore env n kv.2 >>= fun v => dictSet 0 (.str kv.1) v

theorem plain_stores {env : UEnv} {n : Nat} : Stores env n (plainEntry env n) := by
  intro kv s
  unfold plainEntry
  rw [bind_run]
  refine ⟨fun h => by rw [h], fun e t h => by rw [h], fun v t es rest h hv hh => ?_⟩
  rw [h]
  dsimp only
  unfold dictSet
  rw [hh]
  rfl

theorem mapM_congr {α β : Type} {f f' : α → U β} : ∀ (xs : List α), (∀ x ∈ xs, f x = f' x) → mapM f xs = mapM f' xs
  | [], _ => rfl
  | x :: xs, h => by rw [mapM_cons, mapM_cons, h x List.mem_cons_self, mapM_congr xs (fun y hy => h y (List.mem_cons_of_mem _ hy))]

theorem mapM_done {α : Type} {f : α → U Unit} : ∀ (xs : List α), (∀ x ∈ xs, f x = Pure.pure ()) → ∀ s, ∃ us, mapM f xs s = some (.ok us, s)
  | [], _, s => ⟨[], rfl⟩
  | x :: xs, h, s => by
    obtain ⟨us, hu⟩ := mapM_done xs (fun y hy => h y (List.mem_cons_of_mem _ hy)) s
    refine ⟨() :: us, ?_⟩
    rw [mapM_cons, h x List.mem_cons_self, bind_run]
    change (mapM f xs >>= fun bs => Pure.pure (() :: bs)) s = _
    rw [bind_run, hu]
    rfl

/-- the first cell while a dict is decoded -/
def dictStart (env : UEnv) : UState :=
  if env.v1 then { heap := [.dict []] } else { heap := [.dict []], objs := [.ref 0], idx := [(Val.ident (.ref 0), 0)] }

theorem dictStart_heap (env : UEnv) : (dictStart env).heap = [.dict []] ∧ (dictStart env).log = [] ∧ (dictStart env).nextId = 0 ∧ (dictStart env).proxies = [] := by
  unfold dictStart
  split <;> exact ⟨rfl, rfl, rfl, rfl⟩

/-- the run of a dict without tags -/
theorem dict_run {env : UEnv} (g : env.Globals) (n : Nat) (kvs : List (Str × Json)) (hj : ∀ kv ∈ kvs, Free env kv.2) (hn : (kvs.map (·.1)).Nodup)
    (ht : tagOf kvs = none) (hk : env.keys = true → ∀ kv ∈ kvs, isJsonKey kv.1 = false) :
    ∃ m : Option (Except Exc (List Unit) × UState), EndsD env n kvs [] [] (dictStart env) m ∧
      restore env (n + 1) (.obj kvs) {} = m.map (fun p => (p.1.map (fun _ => Val.ref 0), p.2)) := by
  have tidy : Tidy (dictStart env) := tidy_one (.dict []) (fun k v h => by cases h) (fun h => by cases h) _ (dictStart_heap env).1 (dictStart_heap env).2.2.2
  have e0 : ∀ (k : U Val), (alloc (.dict []) >>= fun a => mkrefUnlessV1 env a >>= fun _ => k) {} = k (dictStart env) := by
    intro k
    rw [bind_run]
    change (mkrefUnlessV1 env 0 >>= fun _ => k) { heap := [.dict []] } = _
    unfold mkrefUnlessV1 dictStart
    cases env.v1 <;> rfl
  rw [show restore env (n + 1) (.obj kvs) = restoreTags env (restore env n) kvs from rfl, restoreTags_plain ht]
  cases hkeys : env.keys with
  | false =>
    refine ⟨mapM (dictEntry (restore env n) 0) kvs (dictStart env), seqD g n dict_stores kvs hj hn _ [] [] tidy (dictStart_heap env).1 (fun k _ h => by cases h), ?_⟩
    have e1 : restoreDict env (restore env n) kvs {} = (mapM (dictEntry (restore env n) 0) kvs >>= fun _ => Pure.pure (Val.ref 0)) (dictStart env) := by
      rw [← e0 (mapM (dictEntry (restore env n) 0) kvs >>= fun _ => Pure.pure (Val.ref 0))]
      unfold restoreDict
      rw [hkeys]
      rfl
    rw [e1, bind_run]
    match mapM (dictEntry (restore env n) 0) kvs (dictStart env) with
    | none => rfl
    | some (.error e, _) => rfl
    | some (.ok us, t) => rfl
  | true =>
    refine ⟨mapM (plainEntry env n) kvs (dictStart env), seqD g n plain_stores kvs hj hn _ [] [] tidy (dictStart_heap env).1 (fun k _ h => by cases h), ?_⟩
    have e1 : restoreDict env (restore env n) kvs {} =
        (mapM (dictEntry1 (restore env n) 0) kvs >>= fun _ => mapM (dictEntry2 env (restore env n) 0) kvs >>= fun _ => Pure.pure (Val.ref 0)) (dictStart env) := by
      rw [← e0 (mapM (dictEntry1 (restore env n) 0) kvs >>= fun _ => mapM (dictEntry2 env (restore env n) 0) kvs >>= fun _ => Pure.pure (Val.ref 0))]
      unfold restoreDict
      rw [hkeys]
      rfl
    have e2 : mapM (dictEntry1 (restore env n) 0) kvs = mapM (plainEntry env n) kvs := mapM_congr kvs (fun kv hkv => by
      unfold dictEntry1
      rw [hk hkeys kv hkv]
      rfl)
    rw [e1, e2, bind_run]
    match mapM (plainEntry env n) kvs (dictStart env) with
    | none => rfl
    | some (.error e, _) => rfl
    | some (.ok us, t) =>
      obtain ⟨us', hu⟩ := mapM_done (f := dictEntry2 env (restore env n) 0) kvs (fun kv hkv => by
        unfold dictEntry2
        rw [hk hkeys kv hkv]
        rfl) t
      dsimp only
      rw [bind_run, hu]
      rfl

end JP.Unpickler.Parts
