import Verif.Proofs.SimStep
import Verif.Supported
/-!
# Generic loops of the simulation
-/
namespace JP

namespace PyM
variable {σ α β γ : Type}

theorem pure_bind' (a : α) (f : α → PyM σ β) : ((pure a : PyM σ α) >>= f) = f a := rfl
theorem ofExcept_ok' (a : α) : (PyM.ofExcept (.ok a) : PyM σ α) = pure a := rfl

theorem bind_assoc' (x : PyM σ α) (f : α → PyM σ β) (g : β → PyM σ γ) :
    (x >>= f >>= g) = (x >>= fun a => f a >>= g) := by
  funext s
  simp only [bind_run]
  cases x s with
  | none => rfl
  | some p =>
    obtain ⟨r, s'⟩ := p
    cases r <;> rfl

theorem bind_pure' (x : PyM σ α) : (x >>= fun a => (pure a : PyM σ α)) = x := by
  funext s
  simp only [bind_run]
  cases x s with
  | none => rfl
  | some p =>
    obtain ⟨r, s'⟩ := p
    cases r <;> rfl

theorem mapM_append (f : α → PyM σ β) : ∀ (xs ys : List α),
    mapM f (xs ++ ys) = (mapM f xs >>= fun a => mapM f ys >>= fun b => (pure (a ++ b) : PyM σ (List β)))
  | [], ys => by
    simp only [List.nil_append, mapM_nil]
    change _ = (mapM f ys >>= fun b => (pure b : PyM σ (List β)))
    rw [bind_pure']
  | x :: xs, ys => by
    simp only [List.cons_append, mapM_cons, mapM_append f xs ys, bind_assoc']
    rfl

/-- a loop whose body does nothing -/
theorem mapM_skip (f : α → PyM σ Unit) : ∀ (xs : List α) (s : σ), (∀ x ∈ xs, f x = pure ()) →
    ∃ us, mapM f xs s = some (.ok us, s)
  | [], s, _ => ⟨[], rfl⟩
  | x :: xs, s, h => by
    obtain ⟨us, hu⟩ := mapM_skip f xs s (fun y hy => h y (List.mem_cons_of_mem _ hy))
    refine ⟨() :: us, ?_⟩
    rw [mapM_cons, h x List.mem_cons_self]
    change (mapM f xs >>= fun ys => (pure (() :: ys) : PyM σ (List Unit))) s = _
    rw [bind_ok hu]
    rfl

theorem mapM_append_run {f : α → PyM σ β} {xs ys : List α} {s s1 s2 : σ} {a b : List β}
    (h1 : mapM f xs s = some (.ok a, s1)) (h2 : mapM f ys s1 = some (.ok b, s2)) :
    mapM f (xs ++ ys) s = some (.ok (a ++ b), s2) := by
  rw [mapM_append, bind_ok h1, bind_ok h2]
  rfl

end PyM

namespace Sim
open JP PyM Unpickler

variable {w : World} {cfg : PCfg} {env : UEnv}
variable {Bad : Ctx} {X : List Addr}
variable {fl : Val → P Json} {rs rs2 : Json → U Val}

/-- the value does not reach an object whose cell is still a placeholder, lies within every list and dict that is not complete
yet, and is not the state of an object other than those whose state is at hand -/
structure NoReach (h : Heap) (env : UEnv) (Bad : Ctx) (v : Val) : Prop where
  no : ∀ a ∈ Bad, ¬ Reach h v a
  under : ∀ x ∈ Bad.opn, ∀ b, Reach h v b → Reach h (.ref x) b
  mine : ∀ d, Mentions v d → ∀ a, StateOf h env a d → a ∈ Bad.own
  opn : ∀ d ∈ Bad.opn, ∀ a, StateOf h env a d → a ∈ Bad.own

theorem Mentions.reach {h : Heap} {v : Val} {d : Addr} (hm : Mentions v d) : Reach h v d := by
  induction hm with
  | self => exact .self _
  | tuple h1 _ ih => exact .tuple h1 ih
  | set h1 _ ih => exact .set h1 ih

theorem NoReach.nil {h : Heap} {env : UEnv} {v : Val} (hv : ∀ d, Mentions v d → ∀ a, ¬ StateOf h env a d) : NoReach h env {} v :=
  ⟨(fun _ hb => by cases hb), (fun _ hb => by cases hb), (fun d hd a ha => absurd ha (hv d hd a)), (fun _ hb => by cases hb)⟩

/-- The encoder's outcome `out`, started in `s`, can be matched by the decoder, started in `u`. -/
def SimRun (w : World) (cfg : PCfg) (rs : Json → U Val) (Bad : Ctx) (v : Val) (s : PState)
    (out : Option (Except Exc Json × PState)) (u : UState) : Prop :=
  ∀ r s', out = some (r, s') → ∃ j x u', r = .ok j ∧ rs j u = some (.ok x, u') ∧
    Step w cfg [] Bad s s' u u' ∧ VIso (Rof Bad s'.objs u'.objs) v x

/-- `fl` and `rs` are inverse to each other on supported values -/
def Sim (w : World) (cfg : PCfg) (env : UEnv) (fl : Val → P Json) (rs : Json → U Val) : Prop :=
  ∀ Bad v s u, 0 ≤ s.depth → SupportedAt w.heap env v → NoReach w.heap env Bad v → Rel w.heap Bad s.objs u →
    SimRun w cfg rs Bad v s (fl v s) u

/-- the value may be flattened here -/
def Fit (w : World) (env : UEnv) (Bad : Ctx) (v : Val) : Prop :=
  SupportedAt w.heap env v ∧ NoReach w.heap env Bad v

theorem valsOk_iff {h : Heap} {env : UEnv} : ∀ {xs : List Val}, ValsOk h env xs ↔ ∀ x ∈ xs, ValOk h env x
  | [] => by simp [ValsOk]
  | x :: xs => by simp [ValsOk, valsOk_iff (xs := xs)]

theorem Fit.tuple {i xs} (h : Fit w env Bad (.tuple i xs)) : ∀ x ∈ xs, Fit w env Bad x := by
  intro x hx
  have h1 := h.1.1
  simp only [ValOk] at h1
  exact ⟨⟨valsOk_iff.1 h1 x hx, fun a ha => h.1.2 a (.tuple hx ha)⟩, fun a ha hr => h.2.no a ha (.tuple hx hr), fun y hy b hb => h.2.under y hy b (.tuple hx hb),
    fun d hd => h.2.mine d (.tuple hx hd), h.2.opn⟩

theorem Fit.set {i xs} (h : Fit w env Bad (.set i xs)) : ∀ x ∈ xs, Fit w env Bad x := by
  intro x hx
  have h1 := h.1.1
  simp only [ValOk] at h1
  exact ⟨⟨valsOk_iff.1 h1.1 x hx, fun a ha => h.1.2 a (.set hx ha)⟩, fun a ha hr => h.2.no a ha (.set hx hr), fun y hy b hb => h.2.under y hy b (.set hx hb),
    fun d hd => h.2.mine d (.set hx hd), h.2.opn⟩

theorem Fit.keeps {a : Addr} {o : Obj} (h : Fit w env Bad (.ref a)) (ho : w.heap[a]? = some o) : Keeps w.heap env a o := by
  obtain ⟨o', e1, _, e3⟩ := h.1.2 a (.self a)
  rw [ho] at e1
  cases e1
  exact e3

theorem Fit.part {a : Addr} {o : Obj} {x : Val} (h : Fit w env Bad (.ref a)) (ho : w.heap[a]? = some o)
    (hx : x ∈ o.parts) (hok : ValOk w.heap env x) (hn : ∀ d, x = .ref d → ¬ StateOf w.heap env a d) : Fit w env Bad x :=
  ⟨⟨hok, fun b hb => h.1.2 b (.cell ho hx hb)⟩, fun b hb hr => h.2.no b hb (.cell ho hx hr), fun y hy b hb => h.2.under y hy b (.cell ho hx hb),
    fun d hd a' ha' => by
      obtain ⟨e1, e2⟩ := h.keeps ho x hx d hd a' ha'
      subst e1
      exact absurd ha' (hn d e2), h.2.opn⟩

theorem notState {h : Heap} {a : Addr} {o : Obj} (ho : h[a]? = some o) (hn : ∀ i, o ≠ .inst i) (d : Addr) : ¬ StateOf h env a d := by
  rintro ⟨i, h1, _⟩
  rw [ho] at h1
  cases h1
  exact hn i rfl

theorem notState_inst {h : Heap} {a : Addr} {i : Inst} (ha : h[a]? = some (.inst i))
    (hn : env.handler i.cls ≠ none ∨ i.info.reduces = true ∨ i.info.hasSetstate = true ∨ savedState h i = none) (d : Addr) : ¬ StateOf h env a d := by
  rintro ⟨i', h1, h2, h3, h4, h5⟩
  rw [ha] at h1
  cases h1
  rcases hn with hn | hn | hn | hn
  · exact hn h2
  · rw [hn] at h3; cases h3
  · rw [hn] at h4; cases h4
  · rw [hn] at h5; cases h5

theorem notState_handled {h : Heap} {a : Addr} {i : Inst} (ha : h[a]? = some (.inst i))
    (hh : env.handler i.cls = some .record ∨ (env.handler i.cls = some .opaque ∧ i.hfields = []) ∨ DateOk env i) (d : Addr) : ¬ StateOf h env a d :=
  notState_inst ha (Or.inl (by rcases hh with e | ⟨e, _⟩ | ⟨e, _⟩ <;> rw [e] <;> simp)) d

/-- a part of a list or dict that is about to be filled in -/
theorem Fit.enter {a : Addr} {o : Obj} {x : Val} (h : Fit w env Bad (.ref a)) (ho : w.heap[a]? = some o)
    (hx : x ∈ o.parts) (hok : ValOk w.heap env x) (hn : ∀ i, o ≠ .inst i) : Fit w env (Bad.enter a) x :=
  have hp := h.part ho hx hok (fun d _ => notState ho hn d)
  ⟨hp.1, fun b hb hr => hp.2.no b hb hr, fun y hy b hb => by
    rcases List.mem_cons.1 hy with e | e
    · subst e; exact .cell ho hx hb
    · exact h.2.under y e b (.cell ho hx hb), hp.2.mine, fun d hd a' ha' => by
    rcases List.mem_cons.1 hd with e | e
    · subst e; exact h.2.mine d (.self d) a' ha'
    · exact h.2.opn d e a' ha'⟩

/-- the state of the object at hand -/
theorem Fit.state {a : Addr} {i : Inst} {d : Addr} (h : Fit w env Bad (.ref a)) (ha : w.heap[a]? = some (.inst i))
    (hx : .ref d ∈ i.parts) : Fit w env (Bad.serve a) (.ref d) :=
  ⟨⟨by simp [ValOk], fun b hb => h.1.2 b (.cell ha (by simpa [Obj.parts] using hx) hb)⟩,
    fun b hb hr => h.2.no b hb (.cell ha (by simpa [Obj.parts] using hx) hr),
    fun y hy b hb => h.2.under y hy b (.cell ha (by simpa [Obj.parts] using hx) hb),
    fun d' hd a' ha' => by
      obtain ⟨e1, _⟩ := h.keeps ha _ (by simpa [Obj.parts] using hx) d' hd a' ha'
      subst e1
      exact List.mem_cons_self, fun d' hd a' ha' => List.mem_cons_of_mem _ (h.2.opn d' hd a' ha')⟩

/-- an object that does not reach the one at hand is not being filled in -/
theorem Fit.closed {a d : Addr} (h : Fit w env Bad (.ref a)) (hn : ¬ Reach w.heap (.ref d) a) : d ∉ Bad.opn :=
  fun hd => hn (h.2.under d hd a (.self a))

theorem Fit.cell {a : Addr} (h : Fit w env Bad (.ref a)) :
    ∃ o, w.heap[a]? = some o ∧ CellOk w.heap env a o :=
  have ⟨o, h1, h2, _⟩ := h.1.2 a (.self a)
  ⟨o, h1, h2⟩

theorem Fit.bad {a : Addr} {v : Val} (h : Fit w env Bad v) (hn : ¬ Reach w.heap v a) : Fit w env (Bad.hold a) v :=
  ⟨h.1, fun b hb hr => by
    rcases List.mem_cons.1 hb with e | e
    · subst e; exact hn hr
    · exact h.2.no b e hr, h.2.under, h.2.mine, h.2.opn⟩

/-- `[fl v for v in vs]` against `[rs j for j in js]` -/
theorem simMap (h : Sim w cfg env fl rs) : ∀ (vs : List Val) (s : PState) (u : UState) r s',
    0 ≤ s.depth → (∀ v ∈ vs, Fit w env Bad v) → Rel w.heap Bad s.objs u →
    mapM fl vs s = some (r, s') →
    ∃ js xs u', r = .ok js ∧ mapM rs js u = some (.ok xs, u') ∧ Step w cfg [] Bad s s' u u' ∧
      VIsos (Rof Bad s'.objs u'.objs) vs xs ∧ js.length = vs.length
  | [], s, u, r, s', _, _, hr, hrun => by
    simp only [mapM_nil] at hrun
    cases hrun
    exact ⟨[], [], u, rfl, rfl, Step.refl hr, by simp [VIsos], rfl⟩
  | v :: vs, s, u, r, s', hd, hf, hr, hrun => by
    rw [mapM_cons] at hrun
    change (fl v >>= fun y => mapM fl vs >>= fun ys => (pure (y :: ys) : P _)) s = _ at hrun
    rw [bind_run] at hrun
    have hv := hf v List.mem_cons_self
    cases hfl : fl v s with
    | none => rw [hfl] at hrun; cases hrun
    | some p =>
      obtain ⟨r1, s1⟩ := p
      obtain ⟨j, x, u1, hr1, hrs, hstep, hiso⟩ := h Bad v s u hd hv.1 hv.2 hr r1 s1 hfl
      subst hr1
      rw [hfl] at hrun
      simp only [] at hrun
      rw [bind_run] at hrun
      cases hm : mapM fl vs s1 with
      | none => rw [hm] at hrun; cases hrun
      | some p =>
        obtain ⟨r2, s2⟩ := p
        obtain ⟨js, xs, u2, hr2, hrs2, hstep2, hiso2, hlen⟩ := simMap h vs s1 u1 r2 s2 (by rw [hstep.depth]; exact hd)
          (fun v hv => hf v (List.mem_cons_of_mem _ hv)) hstep.rel hm
        subst hr2
        rw [hm] at hrun
        simp only [pure_run] at hrun
        cases hrun
        refine ⟨j :: js, x :: xs, u2, rfl, ?_, hstep.trans hstep2 (by simp), ?_, by simp [hlen]⟩
        · rw [mapM_cons]
          change (rs j >>= fun y => mapM rs js >>= fun ys => (pure (y :: ys) : U _)) u = _
          rw [bind_ok hrs, bind_ok hrs2]
          rfl
        · simp only [VIsos]
          exact ⟨VIso.mono hstep2.mono _ _ hiso, hiso2⟩

/-- entries paired by label, with corresponding values -/
abbrev Paired {κ : Type} (R : Addr → Addr → Prop) : List (κ × Val) → List (κ × Val) → Prop :=
  All2 (fun p q => p.1 = q.1 ∧ VIso R p.2 q.2)

theorem Paired.mono {κ : Type} {R R' : Addr → Addr → Prop} (h : ∀ a b, R a b → R' a b)
    {xs ys : List (κ × Val)} (hp : Paired R xs ys) : Paired R' xs ys :=
  All2.mono (fun _ _ p => ⟨p.1, VIso.mono h _ _ p.2⟩) hp

/-- `[fl v for v in vs]` against `for k, j in …: store(k, rs(j))`, where `store` adds one more entry to
the object under construction in cell `b`. -/
theorem simStore {κ : Type} (h : Sim w cfg env fl rs) (b : Nat) (cell : List (κ × Val) → Obj)
    (store : κ → Val → U Unit) (all : List (κ × Val))
    (hkind : ∀ acc acc' o, SameKind o (cell acc) → SameKind o (cell acc')) (hidp : ∀ acc n, cell acc ≠ .idproxy n)
    (hstore : ∀ pre k v post, all = pre ++ (k, v) :: post → ∀ acc x P u, Rel w.heap Bad P u →
      Paired (Rof Bad P u.objs) pre acc → VIso (Rof Bad P u.objs) v x → u.heap[b]? = some (cell acc) →
      store k x u = some (.ok (), { u with heap := u.heap.set b (cell (acc ++ [(k, x)])) })) :
    ∀ (ents pre acc : List (κ × Val)) (s : PState) (u : UState) r s', all = pre ++ ents →
    0 ≤ s.depth → (∀ e ∈ ents, Fit w env Bad e.2) → Rel w.heap Bad s.objs u →
    ((∀ acc, ∃ i, cell acc = .inst i) ∨ Spot w.heap Bad s.objs u b) →
    Paired (Rof Bad s.objs u.objs) pre acc → u.heap[b]? = some (cell acc) →
    mapM fl (ents.map (·.2)) s = some (r, s') →
    ∃ js us acc' u', r = .ok js ∧ js.length = ents.length ∧
      mapM (fun kj : κ × Json => rs kj.2 >>= store kj.1) ((ents.map (·.1)).zip js) u = some (.ok us, u') ∧
      Step w cfg [b] Bad s s' u u' ∧ Paired (Rof Bad s'.objs u'.objs) all acc' ∧
      u'.heap[b]? = some (cell acc') ∧ OwnOk s.objs s'.objs
  | [], pre, acc, s, u, r, s', hall, _, _, hr, _, hp, hb, hrun => by
    simp only [List.map_nil, mapM_nil] at hrun
    cases hrun
    rw [List.append_nil] at hall
    subst hall
    exact ⟨[], [], acc, u, rfl, rfl, rfl, Step.refl hr, hp, hb, OwnOk.refl⟩
  | (k, v) :: ents, pre, acc, s, u, r, s', hall, hd, hf, hr, hw, hp, hb, hrun => by
    simp only [List.map_cons, mapM_cons] at hrun
    change (fl v >>= fun y => mapM fl (ents.map (·.2)) >>= fun ys => (pure (y :: ys) : P _)) s = _ at hrun
    rw [bind_run] at hrun
    have hv := hf (k, v) List.mem_cons_self
    cases hfl : fl v s with
    | none => rw [hfl] at hrun; cases hrun
    | some p =>
      obtain ⟨r1, s1⟩ := p
      obtain ⟨j, x, u1, hr1, hrs, hstep, hiso⟩ := h Bad v s u hd hv.1 hv.2 hr r1 s1 hfl
      subst hr1
      rw [hfl] at hrun
      simp only [] at hrun
      rw [bind_run] at hrun
      have hblt : b < u.heap.length := get_lt hb
      have hb1 : u1.heap[b]? = some (cell acc) := by rw [hstep.ext.cells b hblt (by simp), hb]
      have hp1 : Paired (Rof Bad s1.objs u1.objs) pre acc := hp.mono hstep.mono
      have hst := hstore pre k v ents hall acc x s1.objs u1 hstep.rel hp1 hiso hb1
      have hw1 : Writable w.heap Bad s1.objs u1 b := by
        rcases hw with hw | hw
        · obtain ⟨i, hi⟩ := hw acc
          rw [hi] at hb1
          exact Writable.inst hstep.rel hb1
        · exact (hw.step hr hstep).2
      have hstep1 : Step w cfg [b] Bad s1 s1 u1 { u1 with heap := u1.heap.set b (cell (acc ++ [(k, x)])) } :=
        Step.set hstep.rel hb1 (hkind _ _) (by simp) hw1 (hidp _)
      have hstep' : Step w cfg [b] Bad s s1 u { u1 with heap := u1.heap.set b (cell (acc ++ [(k, x)])) } :=
        (hstep.weaken (by simp)).trans hstep1 (by simpa using hblt)
      cases hm : mapM fl (ents.map (·.2)) s1 with
      | none => rw [hm] at hrun; cases hrun
      | some p =>
        obtain ⟨r2, s2⟩ := p
        obtain ⟨js, us, acc', u2, hr2, hlen, hrs2, hstep2, hp2, hb2, ho2⟩ :=
          simStore h b cell store all hkind hidp hstore ents (pre ++ [(k, v)]) (acc ++ [(k, x)]) s1
            { u1 with heap := u1.heap.set b (cell (acc ++ [(k, x)])) } r2 s2
            (by rw [hall]; simp) (by rw [hstep.depth]; exact hd)
            (fun e he => hf e (List.mem_cons_of_mem _ he)) hstep1.rel (hw.imp id (fun hw => hw.step hr hstep'))
            (All2.append hp1 ⟨⟨rfl, hiso⟩, trivial⟩) (set_get (get_lt hb1)) hm
        subst hr2
        rw [hm] at hrun
        simp only [pure_run] at hrun
        cases hrun
        refine ⟨j :: js, () :: us, acc', u2, rfl, by simp [hlen], ?_, hstep'.trans hstep2 (by simpa using hblt), hp2, hb2, hstep.ownOk.trans hstep.objs ho2⟩
        simp only [List.map_cons, List.zip_cons_cons]
        rw [mapM_cons]
        have h1 : (rs j >>= store k) u =
            some (.ok (), { u1 with heap := u1.heap.set b (cell (acc ++ [(k, x)])) }) := by
          rw [bind_ok hrs, hst]
        rw [bind_ok h1, bind_ok hrs2]
        rfl

end Sim
end JP
