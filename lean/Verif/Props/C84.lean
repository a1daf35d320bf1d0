import Verif.HandlerContext
/-!
# C84 — handlers work with the pickler that called them

Handlers registered as classes always find the pickler (or unpickler) that called them in `self.context`.  A handler registered as an instance finds
the one that called it last, which can be another one after the method encoded something on its own: `seen` says what is found, `right_iff` when it is
right, `same_context` and `classes` are the simple sufficient conditions, `nested_encode` the witness.
-/
namespace JP.C84
open JP HandlerContext

/-- What happens, in order of time: a handler is called by a context, and a method of a handler, called by that context, reads `self.context`. -/
inductive Ev
  | enter (r : Reg) (ctx : Nat)
  | use (r : Reg) (ctx : Nat)

mutual
/-- the events of one action of a method of `r` called by `ctx` -/
def evs (r : Reg) (ctx : Nat) : Act → List Ev
  | .use => [.use r ctx]
  | .call ctx' r' body => .enter r' ctx' :: evsL r' ctx' body
def evsL (r : Reg) (ctx : Nat) : List Act → List Ev
  | [] => []
  | a :: as => evs r ctx a ++ evsL r ctx as
end

/-- the context that called the instance `n` last -/
def last (n : Nat) : List Ev → Option Nat
  | [] => none
  | .enter r c :: es => match last n es with
    | some c' => some c'
    | none => if r = .inst n then some c else none
  | _ :: es => last n es

/-- What `self.context` should be found to be at each use, given the events before (`past`). -/
def found (past : List Ev) : List Ev → List (Option Nat)
  | [] => []
  | .enter r c :: es => found (past ++ [.enter r c]) es
  | .use (.cls m) c :: es => some c :: found (past ++ [.use (.cls m) c]) es
  | .use (.inst n) c :: es => last n past :: found (past ++ [.use (.inst n) c]) es

/-- the contexts that called, at each use -/
def expected : List Ev → List (Option Nat)
  | [] => []
  | .enter _ _ :: es => expected es
  | .use _ c :: es => some c :: expected es

/-! ### lemmas -/

theorem last_append (n : Nat) (es es' : List Ev) : last n (es ++ es') = (match last n es' with | some c => some c | none => last n es) := by
  induction es with
  | nil => simp only [List.nil_append, last]; cases last n es' <;> rfl
  | cons e es ih =>
    cases e with
    | enter r c =>
      simp only [List.cons_append, last, ih]
      cases last n es' <;> rfl
    | use r c => simp only [List.cons_append, last, ih]

theorem found_append (past es es' : List Ev) : found past (es ++ es') = found past es ++ found (past ++ es) es' := by
  induction es generalizing past with
  | nil => simp only [List.nil_append, found, List.append_nil]
  | cons e es ih =>
    cases e with
    | enter r c => simp only [List.cons_append, found, ih, List.append_assoc, List.nil_append]
    | use r c => cases r <;> simp only [List.cons_append, found, ih, List.append_assoc, List.nil_append]

/-- the state holds what the events say -/
def Agrees (s : State) (past : List Ev) : Prop := ∀ n, dget n s = last n past

/-- the object is the one of the handler -/
def Of (o : Obj) (r : Reg) (ctx : Nat) : Prop :=
  match r with
  | .cls _ => o = .own ctx
  | .inst n => o = .shared n

theorem make_of (ctx : Nat) (r : Reg) {s : State} {past : List Ev} (h : Agrees s past) :
    Of (make ctx r s).1 r ctx ∧ Agrees (make ctx r s).2 (past ++ [.enter r ctx]) := by
  cases r with
  | cls m =>
    refine ⟨rfl, fun n => ?_⟩
    rw [last_append]
    exact h n
  | inst m =>
    refine ⟨rfl, fun n => ?_⟩
    rw [last_append]
    show dget n (dset m ctx s) = _
    by_cases e : m = n
    · subst e
      simp only [last, if_true]
      exact dget_dset_same ..
    · have e' : ¬ Reg.inst m = Reg.inst n := fun x => e (by injection x)
      simp only [last, e', if_false]
      rw [dget_dset_ne (fun x => e x.symm)]
      exact h n

mutual
theorem act_found (o : Obj) (r : Reg) (ctx : Nat) (ho : Of o r ctx) : ∀ (a : Act) (s : State) (past : List Ev), Agrees s past →
    (act o a s).1 = found past (evs r ctx a) ∧ Agrees (act o a s).2 (past ++ evs r ctx a)
  | .use, s, past, h => by
    cases r with
    | cls m =>
      have : o = .own ctx := ho
      subst this
      refine ⟨rfl, fun n => ?_⟩
      show dget n s = last n (past ++ [.use (.cls m) ctx])
      rw [last_append]
      exact h n
    | inst m =>
      have : o = .shared m := ho
      subst this
      refine ⟨?_, fun n => ?_⟩
      · show [dget m s] = [last m past]
        rw [h m]
      · show dget n s = last n (past ++ [.use (.inst m) ctx])
        rw [last_append]
        exact h n
  | .call ctx' r' body, s, past, h => by
    obtain ⟨h1, h2⟩ := make_of ctx' r' h
    obtain ⟨h3, h4⟩ := acts_found (make ctx' r' s).1 r' ctx' h1 body (make ctx' r' s).2 (past ++ [.enter r' ctx']) h2
    refine ⟨?_, ?_⟩
    · rw [act, h3]
      rfl
    · rw [act]
      simpa only [evs, List.append_assoc, List.cons_append, List.nil_append] using h4
theorem acts_found (o : Obj) (r : Reg) (ctx : Nat) (ho : Of o r ctx) : ∀ (as : List Act) (s : State) (past : List Ev), Agrees s past →
    (acts o as s).1 = found past (evsL r ctx as) ∧ Agrees (acts o as s).2 (past ++ evsL r ctx as)
  | [], s, past, h => ⟨rfl, by simpa only [evsL, List.append_nil, acts] using h⟩
  | a :: as, s, past, h => by
    obtain ⟨h1, h2⟩ := act_found o r ctx ho a s past h
    obtain ⟨h3, h4⟩ := acts_found o r ctx ho as (act o a s).2 _ h2
    refine ⟨?_, ?_⟩
    · rw [acts, evsL, found_append, h1, h3]
    · rw [acts, evsL, ← List.append_assoc]
      exact h4
end

/-- events that lead to a state -/
def history (s : State) : List Ev := (s.reverse).map (fun p => .enter (.inst p.1) p.2)

theorem history_agrees (s : State) : Agrees s (history s) := by
  intro n
  induction s with
  | nil => rfl
  | cons p s ih =>
    obtain ⟨m, c⟩ := p
    simp only [history, List.reverse_cons, List.map_append, List.map_cons, List.map_nil]
    rw [last_append, dget_cons]
    by_cases e : m = n
    · subst e
      simp only [last, if_true]
    · have e' : ¬ Reg.inst m = Reg.inst n := fun x => e (by injection x)
      simp only [last, e, e', if_false]
      exact ih

/-- every use is preceded by a call (or is by one of `K`) -/
def Scoped (K : Nat → Prop) : List Ev → Prop
  | [] => True
  | .enter (.cls _) _ :: es => Scoped K es
  | .enter (.inst n) _ :: es => Scoped (fun m => m = n ∨ K m) es
  | .use (.cls _) _ :: es => Scoped K es
  | .use (.inst n) _ :: es => K n ∧ Scoped K es

theorem Scoped.mono {K K' : Nat → Prop} (h : ∀ n, K n → K' n) : ∀ {es : List Ev}, Scoped K es → Scoped K' es := by
  intro es
  induction es generalizing K K' with
  | nil => exact fun _ => trivial
  | cons e es ih =>
    intro hs
    cases e with
    | enter r c =>
      cases r with
      | cls m => exact ih (K := K) h hs
      | inst m => exact ih (K := fun x => x = m ∨ K x) (fun n hn => hn.imp id (h n)) hs
    | use r c =>
      cases r with
      | cls m => exact ih (K := K) h hs
      | inst m => exact ⟨h _ hs.1, ih h hs.2⟩

theorem Scoped.append {K : Nat → Prop} {es es' : List Ev} (h : Scoped K es) (h' : Scoped K es') : Scoped K (es ++ es') := by
  induction es generalizing K with
  | nil => exact h'
  | cons e es ih =>
    cases e with
    | enter r c =>
      cases r with
      | cls m => exact ih (K := K) h h'
      | inst m => exact ih (K := fun x => x = m ∨ K x) h (h'.mono fun n hn => .inr hn)
    | use r c =>
      cases r with
      | cls m => exact ih (K := K) h h'
      | inst m => exact ⟨h.1, ih h.2 h'⟩

mutual
theorem evs_scoped {K : Nat → Prop} (r : Reg) (ctx : Nat) (h : ∀ n, r = .inst n → K n) : ∀ a : Act, Scoped K (evs r ctx a)
  | .use => by
    cases r with
    | cls m => exact trivial
    | inst m => exact ⟨h m rfl, trivial⟩
  | .call ctx' r' body => by
    cases r' with
    | cls m => exact evsL_scoped (K := K) (.cls m) ctx' (fun n hn => by cases hn) body
    | inst m => exact evsL_scoped (K := fun x => x = m ∨ K x) (.inst m) ctx' (fun n hn => .inl (by injection hn with hn; exact hn.symm)) body
theorem evsL_scoped {K : Nat → Prop} (r : Reg) (ctx : Nat) (h : ∀ n, r = .inst n → K n) : ∀ as : List Act, Scoped K (evsL r ctx as)
  | [] => trivial
  | a :: as => (evs_scoped r ctx h a).append (evsL_scoped r ctx h as)
end

theorem found_scoped {K : Nat → Prop} {past past' : List Ev} (hp : ∀ n, K n → last n past = last n past') {es : List Ev} (hs : Scoped K es) :
    found past es = found past' es := by
  induction es generalizing K past past' with
  | nil => rfl
  | cons e es ih =>
    cases e with
    | enter r c =>
      cases r with
      | cls m =>
        refine ih (K := K) (fun n hn => ?_) hs
        rw [last_append, last_append, hp n hn]
      | inst m =>
        refine ih (K := fun x => x = m ∨ K x) (fun n hn => ?_) hs
        rw [last_append, last_append]
        by_cases e : m = n
        · subst e
          simp only [last, if_true]
        · have e' : ¬ Reg.inst m = Reg.inst n := fun x => e (by injection x)
          simp only [last, e', if_false]
          exact hp n (hn.resolve_left fun x => e x.symm)
    | use r c =>
      have hq : ∀ n, K n → last n (past ++ [.use r c]) = last n (past' ++ [.use r c]) := fun n hn => by
        rw [last_append, last_append, hp n hn]
      cases r with
      | cls m => simp only [found, ih hq hs]
      | inst m => simp only [found, ih hq hs.2, hp m hs.1]

theorem found_iff {past es : List Ev} :
    found past es = expected es ↔ ∀ pre n c post, es = pre ++ .use (.inst n) c :: post → last n (past ++ pre) = some c := by
  induction es generalizing past with
  | nil => exact ⟨(fun _ pre n c post h => by cases pre <;> cases h), fun _ => rfl⟩
  | cons e es ih =>
    have hrest : (∀ pre n c post, es = pre ++ .use (.inst n) c :: post → last n ((past ++ [e]) ++ pre) = some c) ↔
        ∀ pre n c post, pre ≠ [] → e :: es = pre ++ .use (.inst n) c :: post → last n (past ++ pre) = some c := by
      constructor
      · intro h pre n c post hn he
        cases pre with
        | nil => exact absurd rfl hn
        | cons e' pre =>
          simp only [List.cons_append, List.cons.injEq] at he
          obtain ⟨rfl, he⟩ := he
          have := h pre n c post he
          simpa only [List.append_assoc, List.cons_append, List.nil_append] using this
      · intro h pre n c post he
        have := h (e :: pre) n c post (by simp) (by rw [he]; rfl)
        simpa only [List.append_assoc, List.cons_append, List.nil_append] using this
    have split : (∀ pre n c post, e :: es = pre ++ .use (.inst n) c :: post → last n (past ++ pre) = some c) ↔
        (∀ n c, e = .use (.inst n) c → last n past = some c) ∧
        ∀ pre n c post, pre ≠ [] → e :: es = pre ++ .use (.inst n) c :: post → last n (past ++ pre) = some c := by
      refine ⟨fun h => ⟨fun n c he => ?_, fun pre n c post _ he => h pre n c post he⟩, fun h pre n c post he => ?_⟩
      · have := h [] n c es (by rw [he]; rfl)
        simpa only [List.append_nil] using this
      · by_cases hp : pre = []
        · subst hp
          simp only [List.nil_append, List.cons.injEq] at he
          rw [List.append_nil]
          exact h.1 n c he.1
        · exact h.2 pre n c post hp he
    rw [split, ← hrest, ← ih]
    cases e with
    | enter r c => exact ⟨fun h => ⟨(fun n c he => by cases he), h⟩, fun h => h.2⟩
    | use r c =>
      cases r with
      | cls m =>
        simp only [found, expected, List.cons.injEq, true_and]
        exact ⟨fun h => ⟨(fun n c he => by cases he), h⟩, fun h => h.2⟩
      | inst m =>
        simp only [found, expected, List.cons.injEq]
        exact ⟨fun h => ⟨(fun n c he => by injection he with h1 h2; injection h1 with h1; subst h1; subst h2; exact h.1), h.2⟩, fun h => ⟨h.1 m c rfl, h.2⟩⟩

/-! ### theorems -/

/-- Everything that happens when the pickler `ctx` meets an object with the handler `r`. -/
def story (ctx : Nat) (r : Reg) (body : List Act) : List Ev := .enter r ctx :: evsL r ctx body

/-- What the methods find in `self.context`, whatever the instances were used for before: methods of classes the caller, methods of instances the
last caller of the instance. -/
theorem seen (ctx : Nat) (r : Reg) (body : List Act) (s : State) : run ctx r body s = found [] (story ctx r body) := by
  have h := (act_found (.own ctx) (.cls 0) ctx rfl (.call ctx r body) s (history s) (history_agrees s)).1
  refine h.trans ?_
  exact found_scoped (K := fun _ => False) (fun _ hn => hn.elim) (evs_scoped (.cls 0) ctx (fun n hn => by cases hn) (.call ctx r body))

/-- All methods find their callers iff an instance that reads its context was called last by the caller of that method. -/
theorem right_iff (ctx : Nat) (r : Reg) (body : List Act) (s : State) : run ctx r body s = expected (story ctx r body) ↔
    ∀ pre n c post, story ctx r body = pre ++ .use (.inst n) c :: post → last n pre = some c := by
  rw [seen]
  exact found_iff

mutual
/-- handlers that are classes -/
def Classes : Act → Prop
  | .use => True
  | .call _ r body => (∃ m, r = .cls m) ∧ ClassesL body
def ClassesL : List Act → Prop
  | [] => True
  | a :: as => Classes a ∧ ClassesL as
end

mutual
theorem classes_evs {r : Reg} {ctx : Nat} (hr : ∃ m, r = .cls m) : ∀ {a : Act}, Classes a → ∀ n c, .use (.inst n) c ∉ evs r ctx a
  | .use, _, n, c, h => by
    obtain ⟨m, rfl⟩ := hr
    rcases List.mem_singleton.1 h with h
    cases h
  | .call ctx' r' body, hc, n, c, h => by
    rcases List.mem_cons.1 h with h | h
    · cases h
    · exact classes_evsL hc.1 hc.2 n c h
theorem classes_evsL {r : Reg} {ctx : Nat} (hr : ∃ m, r = .cls m) : ∀ {as : List Act}, ClassesL as → ∀ n c, .use (.inst n) c ∉ evsL r ctx as
  | [], _, _, _, h => by cases h
  | _ :: _, hc, n, c, h => (List.mem_append.1 h).elim (classes_evs hr hc.1 n c) (classes_evsL hr hc.2 n c)
end

/-- Handlers registered as classes always find their caller. -/
theorem classes (ctx m : Nat) (body : List Act) (s : State) (h : ClassesL body) : run ctx (.cls m) body s = expected (story ctx (.cls m) body) := by
  refine (right_iff ..).2 fun pre n c post he => ?_
  have : .use (.inst n) c ∈ story ctx (.cls m) body := he ▸ List.mem_append.2 (.inr (List.mem_cons_self ..))
  rcases List.mem_cons.1 this with h' | h'
  · cases h'
  · exact absurd h' (classes_evsL ⟨m, rfl⟩ h n c)

mutual
/-- all calls are by `ctx`: the methods encode nothing on their own -/
def One (ctx : Nat) : Act → Prop
  | .use => True
  | .call c _ body => c = ctx ∧ OneL ctx body
def OneL (ctx : Nat) : List Act → Prop
  | [] => True
  | a :: as => One ctx a ∧ OneL ctx as
end

/-- what is called and who reads -/
def who : Ev → Nat
  | .enter _ c => c
  | .use _ c => c

mutual
theorem one_evs {r : Reg} {ctx : Nat} : ∀ {a : Act}, One ctx a → ∀ e ∈ evs r ctx a, who e = ctx
  | .use, _, e, h => by rw [List.mem_singleton.1 h]; rfl
  | .call ctx' r' body, hc, e, h => by
    obtain ⟨rfl, hc⟩ := hc
    rcases List.mem_cons.1 h with rfl | h
    · rfl
    · exact one_evsL hc e h
theorem one_evsL {r : Reg} {ctx : Nat} : ∀ {as : List Act}, OneL ctx as → ∀ e ∈ evsL r ctx as, who e = ctx
  | [], _, _, h => by cases h
  | _ :: _, hc, e, h => (List.mem_append.1 h).elim (one_evs hc.1 e) (one_evsL hc.2 e)
end

theorem last_who {n ctx : Nat} : ∀ {es : List Ev}, (∀ e ∈ es, who e = ctx) → ∀ c, last n es = some c → c = ctx
  | [], _, _, h => by cases h
  | .enter r c' :: es, hw, c, h => by
    have ih := last_who (n := n) (fun e he => hw e (List.mem_cons_of_mem _ he))
    rw [last] at h
    split at h
    · next c'' hc => injection h with h; subst h; exact ih _ hc
    · split at h
      · injection h with h; subst h; exact hw _ (List.mem_cons_self ..)
      · cases h
  | .use r c' :: es, hw, c, h => last_who (n := n) (fun e he => hw e (List.mem_cons_of_mem _ he)) c h

theorem scoped_last {K : Nat → Prop} {n c : Nat} {post : List Ev} : ∀ {pre : List Ev}, Scoped K (pre ++ .use (.inst n) c :: post) → ¬ K n → last n pre ≠ none := by
  intro pre
  induction pre generalizing K with
  | nil => exact fun h hk => absurd h.1 hk
  | cons e pre ih =>
    intro h hk
    cases e with
    | enter r c' =>
      cases r with
      | cls m =>
        rw [last]
        cases hl : last n pre with
        | some _ => simp
        | none => exact absurd hl (ih (K := K) h hk)
      | inst m =>
        rw [last]
        cases hl : last n pre with
        | some _ => simp
        | none =>
          by_cases e : m = n
          · simp [e]
          · exact absurd hl (ih (K := fun x => x = m ∨ K x) h (fun x => x.elim (fun y => e y.symm) hk))
    | use r c' =>
      cases r with
      | cls m => exact ih (K := K) h hk
      | inst m => exact ih h.2 hk

theorem story_scoped (ctx : Nat) (r : Reg) (body : List Act) : Scoped (fun _ => False) (story ctx r body) :=
  evs_scoped (.cls 0) ctx (fun n hn => by cases hn) (.call ctx r body)

/-- Instances find their caller too as long as no method encodes or decodes anything with another pickler or unpickler. -/
theorem same_context (ctx : Nat) (r : Reg) (body : List Act) (s : State) (h : OneL ctx body) : run ctx r body s = expected (story ctx r body) := by
  refine (right_iff ..).2 fun pre n c post he => ?_
  have hw : ∀ e ∈ story ctx r body, who e = ctx := one_evs (r := .cls 0) (a := .call ctx r body) ⟨rfl, h⟩
  have hn : last n pre ≠ none := scoped_last (he ▸ story_scoped ctx r body) id
  have hc : c = ctx := hw (.use (.inst n) c) (he ▸ List.mem_append.2 (.inr (List.mem_cons_self ..)))
  cases hl : last n pre with
  | none => exact absurd hl hn
  | some c' => rw [hc, last_who (fun e h' => hw e (he ▸ List.mem_append.2 (.inl h'))) c' hl]

def isCall : Act → Bool
  | .use => false
  | .call _ _ _ => true

mutual
/-- methods that read the context before anything else -/
def Early : Act → Prop
  | .use => True
  | .call _ _ body => EarlyL body
def EarlyL : List Act → Prop
  | [] => True
  | a :: as => Early a ∧ EarlyL as ∧ (isCall a = true → as.all isCall = true)
end

theorem expected_append (es es' : List Ev) : expected (es ++ es') = expected es ++ expected es' := by
  induction es with
  | nil => rfl
  | cons e es ih => cases e <;> simp only [List.cons_append, expected, ih]

mutual
theorem early_act {r : Reg} {ctx : Nat} : ∀ {a : Act} {past : List Ev}, Early a → (isCall a = false → ∀ n, r = .inst n → last n past = some ctx) →
    found past (evs r ctx a) = expected (evs r ctx a)
  | .use, past, _, hr => by
    cases r with
    | cls m => rfl
    | inst m =>
      show [last m past] = [some ctx]
      rw [hr rfl m rfl]
  | .call ctx' r' body, past, h, _ => early_found (r := r') (ctx := ctx') (as := body) (past := past ++ [.enter r' ctx']) h
      (fun _ n hn => by subst hn; rw [last_append]; simp only [last, if_true])
theorem early_found {r : Reg} {ctx : Nat} : ∀ {as : List Act} {past : List Ev}, EarlyL as → (as.all isCall = false → ∀ n, r = .inst n → last n past = some ctx) →
    found past (evsL r ctx as) = expected (evsL r ctx as)
  | [], _, _, _ => rfl
  | a :: as, past, h, hr => by
    have h1 := early_act (r := r) (ctx := ctx) (a := a) (past := past) h.1 (fun ha => hr (by simp [ha]))
    have h2 := early_found (r := r) (ctx := ctx) (as := as) (past := past ++ evs r ctx a) h.2.1 (fun ha n hn => by
      cases a with
      | use =>
        rw [evs, last_append]
        exact hr (by simp [isCall]) n hn
      | call c r' body => rw [h.2.2 rfl] at ha; cases ha)
    rw [evsL, found_append, expected_append, h1, h2]
end

/-- Methods that read `self.context` before they do anything else always find their caller. -/
theorem read_first (ctx : Nat) (r : Reg) (body : List Act) (s : State) (h : EarlyL body) : run ctx r body s = expected (story ctx r body) := by
  rw [seen]
  exact early_act (r := .cls 0) (ctx := ctx) (a := .call ctx r body) (past := []) h (fun hc => by cases hc)

/-- An array (handler instance 7) that is a view onto an array of objects, one of which is a data frame (handler class 0): the frame encodes its cells
with a pickler of its own (2), and one of them is an array.  Afterwards the method of the view finds the pickler 2. -/
def view : List Act := [.use, .call 1 (.inst 7) [.use, .call 1 (.cls 0) [.call 2 (.inst 7) [.use]]], .use]

theorem nested_encode (s : State) : run 1 (.inst 7) view s = [some 1, some 1, some 2, some 2] ∧
    expected (story 1 (.inst 7) view) = [some 1, some 1, some 2, some 1] := ⟨by rw [seen]; rfl, rfl⟩

-- the same with a handler class
example (s : State) : run 1 (.cls 7) [.use, .call 1 (.cls 7) [.use, .call 1 (.cls 0) [.call 2 (.cls 7) [.use]]], .use] s = [some 1, some 1, some 2, some 1] :=
  classes 1 7 _ s ⟨trivial, ⟨⟨7, rfl⟩, trivial, ⟨⟨0, rfl⟩, ⟨⟨7, rfl⟩, trivial, trivial⟩, trivial⟩, trivial⟩, trivial, trivial⟩

-- instances, with one pickler
example (s : State) : run 1 (.inst 7) [.use, .call 1 (.inst 7) [.use, .call 1 (.cls 0) [.use]], .use] s = [some 1, some 1, some 1, some 1] :=
  same_context 1 (.inst 7) _ s ⟨trivial, ⟨rfl, trivial, ⟨rfl, trivial, trivial⟩, trivial⟩, trivial, trivial⟩

-- instances that read the context first
example (s : State) : run 1 (.inst 7) [.use, .call 2 (.inst 7) [.use], .call 1 (.inst 7) [.use, .use]] s = [some 1, some 2, some 1, some 1] :=
  read_first 1 (.inst 7) _ s (by simp [EarlyL, Early, isCall])

end JP.C84
