import Verif.Proofs.RoundTrip
import Verif.Proofs.Run
import Verif.SampleCovered
import Verif.ExpandSpec
import Verif.Proofs.PLevel
/-!
# C31 — reduce tuples survive trimming and padding

The encoder fills the tuple that `__reduce_ex__` returned with `None` to six elements and does not write the trailing
`None`s; the decoder fills up again.
-/
namespace JP.C31
open JP Sample

theorem dropWhile_replicate : ∀ (js : List Json), ∃ k, js = js.takeWhile Pickler.isNullJ ++ js.dropWhile Pickler.isNullJ ∧
    js.takeWhile Pickler.isNullJ = List.replicate k .null
  | [] => ⟨0, rfl, rfl⟩
  | j :: js => by
    obtain ⟨k, h1, h2⟩ := dropWhile_replicate js
    by_cases h : Pickler.isNullJ j = true
    · have hj : j = .null := by cases j <;> first | rfl | cases h
      refine ⟨k + 1, by simp, ?_⟩
      rw [List.takeWhile_cons_of_pos h, h2, hj, List.replicate_succ]
    · refine ⟨0, by simp, ?_⟩
      rw [List.takeWhile_cons_of_neg h]
      rfl

theorem trim_split (js : List Json) : ∃ k, js = Pickler.trimReduce js ++ List.replicate k .null := by
  obtain ⟨k, h1, h2⟩ := dropWhile_replicate (js.drop 2).reverse
  refine ⟨k, ?_⟩
  unfold Pickler.trimReduce
  have h3 : js.drop 2 = ((js.drop 2).reverse.dropWhile Pickler.isNullJ).reverse ++ List.replicate k .null := by
    have h4 := congrArg List.reverse h1
    rw [List.reverse_reverse, List.reverse_append, h2, List.reverse_replicate] at h4
    exact h4
  rw [List.append_assoc, ← h3, List.take_append_drop]

/-- Trimming and padding are inverse to each other, whatever the six elements are and however they are read, if `null` is read
as `None`. -/
theorem pad_trim (f : Json → Val) (hf : f .null = .none) (js : List Json) (hl : js.length = 6) :
    Unpickler.padVals ((Pickler.trimReduce js).map f) = js.map f := by
  obtain ⟨k, hk⟩ := trim_split js
  have h6 : k = 6 - (Pickler.trimReduce js).length := by
    have := congrArg List.length hk
    rw [List.length_append, List.length_replicate] at this
    omega
  have h7 : js.map f = (Pickler.trimReduce js).map f ++ (List.replicate k Json.null).map f := by rw [← List.map_append, ← hk]
  rw [h7, List.map_replicate, hf, h6]
  unfold Unpickler.padVals
  rw [List.length_map]

/-- At least the callable and the arguments are written, and never a trailing `null` after them. -/
theorem trim_minimal (js : List Json) (hl : 2 ≤ js.length) : 2 ≤ (Pickler.trimReduce js).length ∧
    (2 < (Pickler.trimReduce js).length → (Pickler.trimReduce js).getLast? ≠ some .null) := by
  unfold Pickler.trimReduce
  have h2 : (js.take 2).length = 2 := by rw [List.length_take]; omega
  constructor
  · rw [List.length_append, h2]
    omega
  · intro h
    rw [List.length_append, h2, List.length_reverse] at h
    rw [List.getLast?_append, List.getLast?_reverse]
    cases hd : (js.drop 2).reverse.dropWhile Pickler.isNullJ with
    | nil => rw [hd] at h; simp at h
    | cons y ys =>
      intro e
      have := List.head?_dropWhile_not Pickler.isNullJ (js.drop 2).reverse
      rw [hd] at this
      cases e
      cases this

/-! ### for every document and every graph -/

section
open PyM Unpickler

theorem mapM_nulls {rs : Json → U Val} (hn : ∀ u, rs .null u = some (.ok .none, u)) : ∀ (k : Nat) (u : UState),
    PyM.mapM rs (List.replicate k .null) u = some (.ok (List.replicate k .none), u)
  | 0, _ => rfl
  | k + 1, u => by
    rw [List.replicate_succ, mapM_cons, bind_ok (hn u), bind_ok (mapM_nulls hn k u)]
    rfl

theorem mapM_trailing {rs : Json → U Val} (hn : ∀ u, rs .null u = some (.ok .none, u)) (k : Nat) : ∀ (t : List Json) (u : UState),
    PyM.mapM rs (t ++ List.replicate k .null) u = (PyM.mapM rs t >>= fun zs => (pure (zs ++ List.replicate k .none) : PyM UState (List Val))) u
  | [], u => by rw [List.nil_append, mapM_nulls hn]; rfl
  | j :: t, u => by
    rw [List.cons_append, mapM_cons, mapM_cons]
    simp only [bind_run]
    rcases rs j u with _ | ⟨e | x, u1⟩
    · rfl
    · rfl
    · simp only [bind_run, mapM_trailing hn k t u1]
      rcases PyM.mapM rs t u1 with _ | ⟨e | x, u1⟩ <;> rfl

theorem padVals_trailing (zs : List Val) (k : Nat) (h : zs.length + k = 6) : padVals (zs ++ List.replicate k .none) = padVals zs := by
  unfold padVals
  rw [List.length_append, List.length_replicate, h, show 6 - zs.length = k by omega]
  simp

theorem mapM_length {σ α β : Type} {f : α → PyM σ β} : ∀ {l : List α} {s s' : σ} {r : List β}, PyM.mapM f l s = some (.ok r, s') → r.length = l.length
  | [], _, _, _, h => by cases h; rfl
  | x :: l, s, s', r, h => by
    rw [mapM_cons, bind_eq_ok] at h
    obtain ⟨y, s1, _, h⟩ := h
    rw [bind_eq_ok] at h
    obtain ⟨ys, s2, h2, h⟩ := h
    cases h
    simp [mapM_length h2]

/-- the loop over the entries of the recipe, ended by a `TypeError` -/
def entries (rs : Json → U Val) (js : List Json) : U (Option (List Val)) :=
  PyM.tryCatch (PyM.mapM rs js >>= fun vs => (pure (some vs) : PyM UState (Option (List Val)))) (· == .typeError) (fun _ => pure none)

theorem restoreReduce_eq (env : UEnv) (rs : Json → U Val) (js : List Json) : restoreReduce env rs [(Tags.REDUCE, .arr js)] =
    (alloc (.proxy none) >>= fun p => mkref (.ref p) >>= fun _ => entries rs js >>= fun r => match r with
      | none => reduceFallback p
      | some vs => reduceBuild env p (padVals vs)) := rfl

theorem reduce_trim (env : UEnv) (rs : Json → U Val) (hn : ∀ u, rs .null u = some (.ok .none, u)) (js : List Json) (hl : js.length = 6) :
    restoreReduce env rs [(Tags.REDUCE, .arr (Pickler.trimReduce js))] = restoreReduce env rs [(Tags.REDUCE, .arr js)] := by
  rw [restoreReduce_eq, restoreReduce_eq]
  obtain ⟨k, hk⟩ := trim_split js
  have h6 : (Pickler.trimReduce js).length + k = 6 := by
    have := congrArg List.length hk
    rw [List.length_append, List.length_replicate] at this
    omega
  congr 1
  funext p
  congr 1
  funext _
  funext u
  simp only [bind_run]
  have he : entries rs js u = (entries rs (Pickler.trimReduce js) >>= fun r => (pure (r.map (· ++ List.replicate k .none)) : PyM UState (Option (List Val)))) u := by
    conv => lhs; rw [hk]
    unfold entries
    simp only [PyM.tryCatch, bind_run, mapM_trailing hn k]
    rcases PyM.mapM rs (Pickler.trimReduce js) u with _ | ⟨e | zs, u1⟩
    · rfl
    · dsimp only
      by_cases h : (e == Exc.typeError) = true
      · simp only [h, if_true]; rfl
      · simp only [h, if_false, Bool.false_eq_true]
    · rfl
  rw [he]
  simp only [bind_run]
  cases hr : entries rs (Pickler.trimReduce js) u with
  | none => rfl
  | some q =>
    obtain ⟨r, u1⟩ := q
    cases r with
    | error e => rfl
    | ok r =>
      cases r with
      | none => rfl
      | some zs =>
        have hz : zs.length = (Pickler.trimReduce js).length := by
          unfold entries at hr
          simp only [PyM.tryCatch, bind_run] at hr
          cases hm : PyM.mapM rs (Pickler.trimReduce js) u with
          | none => rw [hm] at hr; cases hr
          | some q =>
            obtain ⟨r, u2⟩ := q
            rw [hm] at hr
            cases r with
            | error e =>
              simp only at hr
              split at hr
              · cases hr
              · cases hr
            | ok l =>
              cases hr
              exact mapM_length hm
        show reduceBuild env p (padVals zs) u1 = reduceBuild env p (padVals (zs ++ List.replicate k .none)) u1
        rw [padVals_trailing zs k (by omega)]

/-- What `encode` writes for an object with a reduce value: the six entries of the recipe, one by one, without the trailing `null`s. -/
theorem recipe_written (w : World) (cfg : PCfg) (fl : Val → P Json) (a : Addr) (i : Inst) (xs : List Val) (hu : cfg.unpicklable = true)
    (hh : w.handler i.cls = none) (hr : i.info.reduces = true) (hx : i.reduce = .tup xs) (hne : xs ≠ []) (hs : Pickler.reduceSane w i xs = true) :
    Pickler.flattenInst w cfg fl a i = (PyM.mapM fl (Pickler.newobjMark (Pickler.padReduce xs)) >>= fun js =>
      (pure (.obj [(Tags.REDUCE, .arr (Pickler.trimReduce js))]) : PyM PState Json)) := by
  unfold Pickler.flattenInst
  rw [hh]
  unfold Pickler.flattenReduce
  rw [hu, hr, hx]
  cases xs with
  | nil => exact absurd rfl hne
  | cons x xs =>
    simp only [Bool.and_self, if_true, List.isEmpty_cons, Bool.false_eq_true, if_false, hs]

theorem padReduce_six (xs : List Val) (h : xs.length ≤ 6) : (Pickler.newobjMark (Pickler.padReduce xs)).length = 6 := by
  have h1 : ∀ l : List Val, (Pickler.newobjMark l).length = l.length := by
    intro l
    unfold Pickler.newobjMark
    split <;> rfl
  rw [h1, Pickler.padReduce, List.length_append, List.length_replicate]
  omega

/-! ### the recipe, described entry by entry -/

/-- a function (or class) called `__newobj__`, in whatever module -/
def Newobj (f : Val) : Prop := ∃ n, (f = .func n ∨ f = .type n) ∧ (n = p!"__newobj__" ∨ ∃ m, n = m ++ p!".__newobj__")

/-- the six entries that are written for the reduce value `xs`: the first is what rebuilds the object, with a marker for `__newobj__`; what is
absent is `None` -/
structure Six (xs ys : List Val) : Prop where
  six : ys.length = 6
  newobj : ∀ f, xs.head? = some f → Newobj f → ys[0]? = some (.str p!"py/newobj")
  func : ∀ f, xs.head? = some f → ¬ Newobj f → ys[0]? = some f
  given : ∀ k, 0 < k → k < xs.length → ys[k]? = xs[k]?
  absent : ∀ k, xs.length ≤ k → k < 6 → ys[k]? = some .none

/-- the reduce value is given up if it has a state that nothing would take: the class has a `__getstate__` of its own and no `__setstate__`, and it is
no subclass of `dict` -/
def GivenUp (w : World) (i : Inst) (xs : List Val) : Prop :=
  (∃ st, xs[2]? = some st ∧ truthy w.heap st = true) ∧ i.info.ownGetstate = true ∧ i.info.hasSetstate = false ∧ i.info.base ≠ .dict

theorem short_newobj (n : Str) : (Pickler.shortOf n == p!"__newobj__") = true ↔ n = p!"__newobj__" ∨ ∃ m, n = m ++ p!".__newobj__" := by
  rw [beq_iff_eq]
  unfold Pickler.shortOf
  have split : ∀ l : List Nat, l = l.takeWhile (· != 46) ++ l.dropWhile (· != 46) := fun l => (List.takeWhile_append_dropWhile).symm
  constructor
  · intro h
    have hr : n.reverse.takeWhile (· != 46) = p!"__newobj__".reverse := by
      rw [← h, List.reverse_reverse]
    have h2 := split n.reverse
    rw [hr] at h2
    cases hd : n.reverse.dropWhile (· != 46) with
    | nil =>
      left
      rw [hd, List.append_nil] at h2
      exact List.reverse_inj.1 h2
    | cons c r =>
      right
      have hc := List.head?_dropWhile_not (· != 46) n.reverse
      rw [hd] at hc
      have hc : c = 46 := by simpa using hc
      refine ⟨r.reverse, ?_⟩
      rw [hd, hc] at h2
      have := congrArg List.reverse h2
      rw [List.reverse_reverse, List.reverse_append, List.reverse_reverse] at this
      rw [this, List.reverse_cons, List.append_assoc]
      rfl
  · rintro (rfl | ⟨m, rfl⟩)
    · rfl
    · rw [List.reverse_append]
      rfl

theorem newobjMark_head (f : Val) (r : List Val) : ∃ g, Pickler.newobjMark (f :: r) = g :: r ∧ (Newobj f → g = .str p!"py/newobj") ∧ (¬ Newobj f → g = f) := by
  have key : ∀ (n : Str) (f : Val), (f = .func n ∨ f = .type n) → ∀ g, (if (Pickler.shortOf n == p!"__newobj__") = true then .str Tags.NEWOBJ else f) = g →
      (Newobj f → g = .str p!"py/newobj") ∧ (¬ Newobj f → g = f) := by
    intro n f hf g hg
    have hiff : Newobj f ↔ (Pickler.shortOf n == p!"__newobj__") = true := by
      rw [short_newobj]
      constructor
      · rintro ⟨n', h1, h2⟩
        have : n' = n := by rcases hf with rfl | rfl <;> rcases h1 with h1 | h1 <;> cases h1 <;> rfl
        rw [← this]
        exact h2
      · intro h
        exact ⟨n, hf, h⟩
    rw [hiff]
    split at hg
    · next h => exact ⟨fun _ => hg.symm, fun h' => absurd h h'⟩
    · next h => exact ⟨fun h' => absurd h' h, fun _ => hg.symm⟩
  cases f with
  | func n => exact ⟨_, rfl, key n _ (.inl rfl) _ rfl⟩
  | type n => exact ⟨_, rfl, key n _ (.inr rfl) _ rfl⟩
  | _ => exact ⟨_, rfl, (fun ⟨n, h, _⟩ => by rcases h with h | h <;> cases h), fun _ => rfl⟩

theorem six_of (xs : List Val) (hne : xs ≠ []) (hl : xs.length ≤ 6) : Six xs (Pickler.newobjMark (Pickler.padReduce xs)) := by
  cases xs with
  | nil => exact absurd rfl hne
  | cons f r =>
    obtain ⟨g, h1, h2, h3⟩ := newobjMark_head f (r ++ List.replicate (6 - (f :: r).length) .none)
    have he : Pickler.newobjMark (Pickler.padReduce (f :: r)) = g :: (r ++ List.replicate (6 - (f :: r).length) .none) := h1
    refine ⟨padReduce_six _ hl, fun f' hf hn => ?_, fun f' hf hn => ?_, fun k h0 hk => ?_, fun k hk h6 => ?_⟩
    · cases hf
      rw [he, h2 hn]
      rfl
    · cases hf
      rw [he, h3 hn]
      rfl
    · rw [he]
      cases k with
      | zero => cases h0
      | succ k =>
        rw [List.getElem?_cons_succ, List.getElem?_cons_succ, List.getElem?_append_left (by simpa using hk)]
    · rw [he]
      cases k with
      | zero => simp at hk
      | succ k =>
        rw [List.getElem?_cons_succ]
        simp only [List.length_cons] at hk ⊢
        rw [List.getElem?_append_right (by omega), List.getElem?_replicate, if_pos (by omega)]

theorem sane_iff (w : World) (i : Inst) (xs : List Val) : Pickler.reduceSane w i xs = true ↔ ¬ GivenUp w i xs := by
  unfold Pickler.reduceSane GivenUp
  have hst : truthy w.heap (xs.getD 2 .none) = true ↔ ∃ st, xs[2]? = some st ∧ truthy w.heap st = true := by
    rw [List.getD_eq_getElem?_getD]
    cases xs[2]? with
    | none => simp [truthy]
    | some st => simp
  rw [← hst]
  cases truthy w.heap (xs.getD 2 .none) <;> cases i.info.ownGetstate <;> cases i.info.hasSetstate <;> simp

/-- For an object with a reduce value that is met for the first time (and not cut off by `max_depth`), `encode` writes the entries of the recipe, encoded one after the other, under
`py/reduce`: at least two, and after these no trailing `null`s.  With `fail_safe` the object may be replaced instead. -/
theorem recipe_in_document (w : World) (cfg : PCfg) (a : Addr) (i : Inst) (ha : w.heap[a]? = some (.inst i)) (xs : List Val) (hu : cfg.unpicklable = true)
    (hh : w.handler i.cls = none) (hr : i.info.reduces = true) (hx : i.reduce = .tup xs) (hne : xs ≠ []) (hl : xs.length ≤ 6) (hg : ¬ GivenUp w i xs)
    (m : Nat) (s s' : PState) (hs : New a s) (hd : cfg.maxDepth ≠ some (s.depth + 1)) (j : Json)
    (h : Pickler.flatten w cfg (m + 1) (.ref a) s = some (.ok j, s')) :
    (∃ ys js ts k s1 s2, Six xs ys ∧ InTurn (Pickler.flatten w cfg m) s1 ys js s2 ∧ js = ts ++ List.replicate k .null ∧ 2 ≤ ts.length ∧
      (2 < ts.length → ts.getLast? ≠ some .null) ∧ j = .obj [(p!"py/reduce", .arr ts)]) ∨ Replaced cfg j := by
  refine (Pickler.level_inst ha hs hd h).imp (fun ⟨s2, h1⟩ => ?_) id
  rw [recipe_written w cfg _ a i xs hu hh hr hx hne ((sane_iff w i xs).2 hg)] at h1
  obtain ⟨js, s3, h2, h3⟩ := bind_eq_ok.1 h1
  cases h3
  obtain ⟨k, hk⟩ := trim_split js
  have hlen : js.length = 6 := (mapM_length h2).trans (padReduce_six xs hl)
  obtain ⟨t1, t2⟩ := trim_minimal js (by omega)
  exact ⟨_, js, _, k, _, _, six_of xs hne hl, Pickler.mapM_inTurn h2, hk, t1, t2, rfl⟩

/-- an instance that is rebuilt by `copyreg.__newobj__(C)` and a state -/
def rebuilt : Heap := [.inst { cls := p!"m.C", info := { reduces := true }, reduce := .tup [.func p!"copyreg.__newobj__", .tuple 1 [.type p!"m.C"], .int 5] }]

example : ¬ GivenUp (Sample.world rebuilt) { cls := p!"m.C", info := { reduces := true }, reduce := .tup [.func p!"copyreg.__newobj__", .tuple 1 [.type p!"m.C"], .int 5] }
    [.func p!"copyreg.__newobj__", .tuple 1 [.type p!"m.C"], .int 5] := fun h => by cases h.2.1

example : Newobj (.func p!"copyreg.__newobj__") ∧ Sample.res (Pickler.flatten (Sample.world rebuilt) {} 5 (.ref 0) {}) =
    some (.ok (.obj [(p!"py/reduce", .arr [.str p!"py/newobj", .obj [(p!"py/tuple", .arr [.obj [(p!"py/type", .str p!"m.C")]])], .int 5])])) :=
  ⟨⟨_, .inl rfl, .inr ⟨p!"copyreg", rfl⟩⟩, by decide +kernel⟩

/-- Leaving them out makes no difference to `decode`: no document, no state, no environment tells the two apart. -/
theorem trimming_unseen (env : UEnv) (js : List Json) (hl : js.length = 6) : ∀ n,
    restore env n (.obj [(Tags.REDUCE, .arr (Pickler.trimReduce js))]) = restore env n (.obj [(Tags.REDUCE, .arr js)])
  | 0 => rfl
  | 1 => by
    show restoreReduce env (restore env 0) _ = restoreReduce env (restore env 0) _
    rw [restoreReduce_eq, restoreReduce_eq]
    obtain ⟨x, l, e⟩ : ∃ x l, Pickler.trimReduce js = x :: l := by
      have := (trim_minimal js (by omega)).1
      cases h : Pickler.trimReduce js with
      | nil => rw [h] at this; simp at this
      | cons x l => exact ⟨x, l, rfl⟩
    obtain ⟨y, m, e'⟩ : ∃ y m, js = y :: m := by
      cases h : js with
      | nil => rw [h] at hl; cases hl
      | cons x l => exact ⟨x, l, rfl⟩
    rw [e, e']
    rfl
  | n + 2 => reduce_trim env (restore env (n + 1)) (fun _ => rfl) js hl

theorem last_steps {p : Addr} {o : Obj} {u u' : UState} {v : Val}
    (h : (alloc o >>= fun a => setCell p (.proxy (some (.ref a))) >>= fun _ => swapref p (.ref a) >>= fun _ => (pure (.ref a) : PyM UState Val)) u = some (.ok v, u')) :
    v = .ref u.heap.length ∧ u'.heap = (u.heap ++ [o]).set p (.proxy (some (.ref u.heap.length))) := by
  rw [bind_eq_ok] at h
  obtain ⟨a, u1, h1, h⟩ := h
  cases h1
  rw [bind_eq_ok] at h
  obtain ⟨_, u2, h2, h⟩ := h
  cases h2
  rw [bind_eq_ok] at h
  obtain ⟨_, u3, h3, h⟩ := h
  cases h
  refine ⟨rfl, ?_⟩
  unfold swapref at h3
  split at h3
  · cases h3
  · cases h3; rfl

theorem last_cell {p : Addr} {o : Obj} {u u' : UState} {b : Addr} {i' : Inst}
    (h : (alloc o >>= fun a => setCell p (.proxy (some (.ref a))) >>= fun _ => swapref p (.ref a) >>= fun _ => (pure (.ref a) : PyM UState Val)) u = some (.ok (.ref b), u'))
    (hb : u'.heap[b]? = some (.inst i')) : o = .inst i' := by
  obtain ⟨h1, h2⟩ := last_steps h
  cases h1
  rw [h2, List.getElem?_set] at hb
  split at hb
  · split at hb <;> cases hb
  · rw [List.getElem?_append_right (Nat.le_refl _), Nat.sub_self] at hb
    cases hb
    rfl

theorem finish_recipe {env : UEnv} {p : Addr} {cls : Str} {vals : List Val} {c d e g : Val} {u u' : UState} {b : Addr} {i' : Inst}
    (h : reduceFinish env p cls vals c d e g u = some (.ok (.ref b), u')) (hb : u'.heap[b]? = some (.inst i')) : i'.reduce = .tup vals := by
  unfold reduceFinish at h
  obtain ⟨_, u1, _, h⟩ := bind_eq_ok.1 h
  obtain ⟨_, u2, _, h⟩ := bind_eq_ok.1 h
  obtain ⟨_, u3, _, h⟩ := bind_eq_ok.1 h
  obtain ⟨_, u4, _, h⟩ := bind_eq_ok.1 h
  obtain ⟨_, u5, _, h⟩ := bind_eq_ok.1 h
  have h6 := last_cell h hb
  injection h6 with h6
  rw [← h6]
  rfl

theorem fallback_list {p : Addr} {u u' : UState} {b : Addr} {i' : Inst}
    (h : reduceFallback p u = some (.ok (.ref b), u')) (hb : u'.heap[b]? = some (.inst i')) : False := by
  cases last_cell h hb

theorem build_recipe {env : UEnv} {p : Addr} {vals : List Val} {u u' : UState} {b : Addr} {i' : Inst}
    (h : reduceBuild env p vals u = some (.ok (.ref b), u')) (hb : u'.heap[b]? = some (.inst i')) : i'.reduce = .tup vals := by
  unfold reduceBuild at h
  split at h
  · obtain ⟨_, u1, _, h⟩ := bind_eq_ok.1 h
    split at h
    · obtain ⟨⟨a1, a2⟩, u2, _, h⟩ := bind_eq_ok.1 h
      cases a1 with
      | type n =>
        dsimp only at h
        split at h
        · obtain ⟨_, u3, _, h⟩ := bind_eq_ok.1 h
          exact finish_recipe h hb
        · cases h
      | _ => cases h
    · split at h
      · generalize starArgs _ _ = q at h
        cases q with
        | none => cases h
        | some l =>
          dsimp only at h
          split at h
          · obtain ⟨_, u3, _, h⟩ := bind_eq_ok.1 h
            exact finish_recipe h hb
          · cases h
      · generalize starArgs _ _ = q at h
        cases q with
        | none => cases h
        | some l =>
          dsimp only at h
          split at h
          · obtain ⟨_, u3, _, h⟩ := bind_eq_ok.1 h
            exact finish_recipe h hb
          · cases h
      · exact (fallback_list h hb).elim
  · cases h

theorem entries_some {rs : Json → U Val} {js : List Json} {u u' : UState} {vs : List Val} (h : entries rs js u = some (.ok (some vs), u')) :
    PyM.mapM rs js u = some (.ok vs, u') := by
  unfold entries at h
  simp only [PyM.tryCatch, bind_run] at h
  cases hm : PyM.mapM rs js u with
  | none => rw [hm] at h; cases h
  | some q =>
    obtain ⟨r, u2⟩ := q
    rw [hm] at h
    cases r with
    | error e =>
      simp only at h
      split at h
      · cases h
      · cases h
    | ok l => cases h; rfl

/-- The recipe that `decode` works with has six entries: what it makes of the six documents that `encode` made, one after the other. -/
theorem recipe_used (env : UEnv) (n : Nat) (js : List Json) (hl : js.length = 6) (u u' : UState) (b : Addr) (i' : Inst)
    (h : restore env (n + 1) (.obj [(Tags.REDUCE, .arr (Pickler.trimReduce js))]) u = some (.ok (.ref b), u')) (hb : u'.heap[b]? = some (.inst i')) :
    ∃ vals q u1 u2, (alloc (.proxy none) >>= fun p => mkref (.ref p)) u = some (.ok q, u1) ∧ PyM.mapM (restore env n) js u1 = some (.ok vals, u2) ∧
      vals.length = 6 ∧ i'.reduce = .tup vals := by
  rw [trimming_unseen env js hl] at h
  have h : restoreReduce env (restore env n) [(Tags.REDUCE, .arr js)] u = some (.ok (.ref b), u') := h
  rw [restoreReduce_eq, bind_eq_ok] at h
  obtain ⟨p, u1, h1, h⟩ := h
  rw [bind_eq_ok] at h
  obtain ⟨_, u2, h2, h⟩ := h
  rw [bind_eq_ok] at h
  obtain ⟨r, u3, h3, h⟩ := h
  cases r with
  | none => exact (fallback_list h hb).elim
  | some vs =>
    have h4 := entries_some h3
    have h5 := mapM_length h4
    have h6 := build_recipe h hb
    have h7 : padVals vs = vs := by
      unfold padVals
      rw [show 6 - vs.length = 0 by omega]
      simp
    rw [h7] at h6
    exact ⟨vs, _, u2, u3, (bind_ok h1).trans h2, h4, by omega, h6⟩
end

/-- The object under the path `ps`, for which `__reduce_ex__` returned the tuple `xs` of any length from 2 to 6: it is rebuilt from
the same recipe, in its six-element form, under the isomorphism that relates the whole graphs. -/
theorem recipe_delivered (w : World) (cfg : PCfg) (env : UEnv) (v x : Val) (text : Str) (u u' : UState)
    (hc : Covered w cfg env v) (he : Encodes w cfg v text) (hd : Decodes env text u x u')
    (ps : List Access) (a : Addr) (i : Inst) (xs : List Val)
    (hp : walk (writeOrder cfg.keys) (saved (hasHandler w) w.heap) w.heap v ps = some (.ref a))
    (ha : w.heap[a]? = some (.inst i)) (hh : hasHandler w i.cls = false) (hr : i.info.reduces = true) (hx : i.reduce = .tup xs) :
    ∃ R : Addr → Addr → Prop, (∀ a b b', R a b → R a b' → b = b') ∧ (∀ a a' b, R a b → R a' b → a = a') ∧
      (∀ a b, R a b → ∃ o o', w.heap[a]? = some o ∧ u'.heap[b]? = some o' ∧
        SameCell (writeOrder cfg.keys) (hasHandler w) w.heap u'.heap R o o') ∧
      VIso R v x ∧
      ∃ b i' vals, walk id anyPart u'.heap x ps = some (.ref b) ∧ u'.heap[b]? = some (.inst i') ∧ R a b ∧
        i'.reduce = .tup vals ∧ VIsos R (recipe p!"py/newobj" xs) vals := by
  obtain ⟨R, f, g, hv, hR⟩ := hc.graph he hd
  refine ⟨R, f, g, hR, hv, ?_⟩
  obtain ⟨z, h1, h2⟩ := walk_iso hR ps hv hp
  cases z <;> simp only [VIso] at h2
  rename_i b
  obtain ⟨o1, o', e1, e2, e3⟩ := hR a b h2
  rw [ha] at e1
  cases e1
  cases o' <;> simp only [SameCell] at e3
  rename_i i'
  cases e3 with
  | handled q => rw [hh] at q; cases q
  | state _ q => rw [hr] at q; cases q
  | stateAttrs _ q => rw [hr] at q; cases q
  | fields _ q => rw [hr] at q; cases q
  | reduced _ _ q1 q2 q3 =>
    rw [hx] at q1
    cases q1
    exact ⟨b, i', _, h1, e2, h2, q2, q3⟩

/-- In the sample graph `x[16]` is made by `f(1, e)` with the state `(1, e)`, the list items `1` and `e` and the dict item `e` for
the key `1`, where `e` is one and the same list. -/
example (text : Str) (x : Val) (u' : UState) (he : Encodes (program.world graph) {} (.ref 0) text) (hd : Decodes program.env text {} x u') :
    ∃ b i' l1 l2 l3 l4 l5 e, walk id anyPart u'.heap x [.elem 16] = some (.ref b) ∧ u'.heap[b]? = some (.inst i') ∧
      i'.reduce = .tup [.func p!"m.f", .tuple l1 [.int 1, .ref e], .tuple l2 [.int 1, .ref e], .tuple l3 [.int 1, .ref e],
        .tuple l4 [.tuple l5 [.int 1, .ref e]], .none] := by
  obtain ⟨R, f, g, hR, hv, b, i', vals, h1, h2, h3, h4, h5⟩ := recipe_delivered _ _ _ _ _ _ _ _ (covered false) he hd
    [.elem 16] 9 _ _ rfl rfl rfl rfl rfl
  match vals, h5 with
  | [.func n, .tuple l1 [.int k1, .ref e1], .tuple l2 [.int k2, .ref e2], .tuple l3 [.int k3, .ref e3],
      .tuple l4 [.tuple l5 [.int k4, .ref e4]], .none], h5 =>
    obtain ⟨h6, ⟨a1, b1, -⟩, ⟨a2, b2, -⟩, ⟨a3, b3, -⟩, ⟨⟨a4, b4, -⟩, -⟩, -⟩ := h5
    have h6 : p!"m.f" = n := h6
    have a1 : 1 = k1 := a1
    have a2 : 1 = k2 := a2
    have a3 : 1 = k3 := a3
    have a4 : 1 = k4 := a4
    refine ⟨b, i', l1, l2, l3, l4, l5, e1, h1, h2, ?_⟩
    rw [h4, ← h6, ← a1, ← a2, ← a3, ← a4, f _ _ _ b2 b1, f _ _ _ b3 b1, f _ _ _ b4 b1]

/-- `decode('{"py/reduce": [{"py/function": "m.f"}, {"py/tuple": [1]}, null, [2]]}')`: the two entries that are not there are `None`. -/
example (u' : UState) (b : Addr) (i' : Inst)
    (h : Unpickler.restore program.env 9 (.obj [(Tags.REDUCE, .arr [.obj [(Tags.FUNCTION, .str p!"m.f")], .obj [(Tags.TUPLE, .arr [.int 1])], .null, .arr [.int 2]])]) {} = some (.ok (.ref b), u'))
    (hb : u'.heap[b]? = some (.inst i')) :
    i'.reduce = .tup [.func p!"m.f", .tuple 1 [.int 1], .none, .ref 1, .none, .none] := by
  obtain ⟨vals, q, u1, u2, h1, h2, h3, h4⟩ := recipe_used program.env 8 [.obj [(Tags.FUNCTION, .str p!"m.f")], .obj [(Tags.TUPLE, .arr [.int 1])], .null, .arr [.int 2], .null, .null] rfl {} u' b i' h hb
  cases h1
  rw [h4]
  have h5 : vals = [.func p!"m.f", .tuple 1 [.int 1], .none, .ref 1, .none, .none] := by
    cases h2
    rfl
  rw [h5]

/-- … and there is such an object. -/
example : (match Unpickler.restore program.env 9 (.obj [(Tags.REDUCE, .arr [.obj [(Tags.FUNCTION, .str p!"m.f")], .obj [(Tags.TUPLE, .arr [.int 1])], .null, .arr [.int 2]])]) {} with
    | some (.ok (.ref b), u') => (match u'.heap[b]? with
      | some (.inst i) => (match i.reduce with | .tup l => l.length == 6 | _ => false)
      | _ => false)
    | _ => false) = true := by decide +kernel

example : Pickler.trimReduce [.int 1, .null, .null, .int 2, .null, .null] = [.int 1, .null, .null, .int 2] := by decide

end JP.C31
