import Verif.Proofs.PProbe
import Verif.Api
import Verif.Sample
/-!
# C64 — `encode` asks every callable object for its `repr`
-/
namespace JP.C64
open JP PyM Pickler Pickler.WithProbe

/-- When every callable has a `repr` that returns a text not beginning with `<cyfunction `, and there are no bound methods, the question
makes no difference. -/
theorem quiet {q : Probe} {w : World} (h : Quiet q w) (cfg : PCfg) (n : Nat) (v : Val) :
    Api.encodeProbe q w cfg n v = Api.encode w cfg n v true := by
  unfold Api.encodeProbe Api.encode Pickler.flattenTop
  rw [flatten_off h]
  rfl

/-- An instance that is callable and whose `repr` raises `e`. -/
structure Raises (q : Probe) (w : World) (b : Addr) (e : Exc) : Prop where
  inst : ∃ i, w.heap[b]? = some (.inst i)
  calls : q.calls (.ref b) = true
  repr : w.repr (.ref b) = .error e

variable {q : Probe} {w : World} {cfg : PCfg}

theorem Raises.cython {b : Addr} {e : Exc} (h : Raises q w b e) : isCython q w (.ref b) = .error e := by
  unfold isCython
  rw [if_pos h.calls, h.repr]

theorem Raises.module {b : Addr} {e : Exc} (h : Raises q w b e) : isModuleFunction q w (.ref b) = .error e := by
  obtain ⟨i, hi⟩ := h.inst
  show (match w.heap[b]? with
    | some (.inst _) => isCython q w (.ref b)
    | _ => .ok false) = _
  rw [hi]
  exact h.cython

/-- a key that is not one of the tags -/
def Ordinary (k : Val) : Prop := ∀ s, k = .str s → Tags.isReserved s = false

theorem Raises.picklable {b : Addr} {e : Exc} (h : Raises q w b e) {k : Val} (hk : Ordinary k) : WithProbe.isPicklable q w k (.ref b) = .error e := by
  unfold WithProbe.isPicklable
  rw [h.module]
  cases k with
  | str s => simp [hk s rfl]
  | _ => rfl

theorem Raises.flattenBy {b : Addr} {e : Exc} (h : Raises q w b e) (fl : Val → P Json) (s : PState) :
    WithProbe.flattenBy q w cfg fl (.ref b) s = some (.error e, s) := by
  obtain ⟨i, hi⟩ := h.inst
  unfold WithProbe.flattenBy
  dsimp only
  rw [hi]
  dsimp only
  rw [h.cython]
  rfl

/-- the result of a call: a value or an exception; `none` stands for a recursion that has not come to its end -/
def result {σ α : Type} (r : Option (Except Exc α × σ)) : Option (Except Exc α) := r.map (·.1)

/-- the text of a result -/
def text (w : World) : Except Exc Json → Except Exc Str
  | .ok j => .ok (w.dumps j)
  | .error e => .error e

/-- The result of `encode` is that of `_flatten_obj` in the first call. -/
theorem top (q : Probe) (w : World) (cfg : PCfg) (n : Nat) (a : Addr) (s : PState) :
    result (Api.encodeProbe q w cfg (n + 1) (.ref a) s) =
      (result (WithProbe.flattenObj q w cfg (WithProbe.flatten q w cfg n) (.ref a) { depth := 0 })).map (text w) := by
  have hI : ∀ r s1, WithProbe.flattenObj q w cfg (WithProbe.flatten q w cfg n) (.ref a) { depth := 0 } = some (r, s1) →
      ∃ s2, WithProbe.flattenImpl q w cfg (WithProbe.flatten q w cfg n) (.ref a) {} = some (r, s2) := by
    intro r s1 h
    have h' : WithProbe.flattenObj q w cfg (WithProbe.flatten q w cfg n) (.ref a) { ({} : PState) with depth := ({} : PState).depth + 1 } = some (r, s1) := h
    unfold WithProbe.flattenImpl push
    dsimp only
    rw [bind_run, modify_run]
    dsimp only
    rw [bind_run, h']
    cases r with
    | error e => exact ⟨_, rfl⟩
    | ok j => exact ⟨_, rfl⟩
  have hF : Api.encodeProbe q w cfg (n + 1) (.ref a) s = (match WithProbe.flattenStep q w cfg (WithProbe.flatten q w cfg n) (.ref a) {} with
    | none => none
    | some (.error e, s') => some (.error e, s')
    | some (.ok j, s') => some (.ok (w.dumps j), s')) := by
    show (WithProbe.flattenStep q w cfg (WithProbe.flatten q w cfg n) (.ref a) >>= fun j => pure (w.dumps j) : PyM PState Str) {} = _
    rw [bind_run]
    rcases WithProbe.flattenStep q w cfg (WithProbe.flatten q w cfg n) (.ref a) {} with _ | ⟨_ | _, _⟩ <;> rfl
  rw [hF]
  have hC : WithProbe.flattenStep q w cfg (WithProbe.flatten q w cfg n) (.ref a) {} =
    (if cfg.unpicklable && cfg.makeRefs then WithProbe.flattenImpl q w cfg (WithProbe.flatten q w cfg n) (.ref a) {}
      else match WithProbe.flattenImpl q w cfg (WithProbe.flatten q w cfg n) (.ref a) {} with
        | none => none
        | some (.error e, s') => some (.error e, s')
        | some (.ok j, s') => some (.ok j, { s' with flattened := (.addr a, j) :: s'.flattened })) := by
    unfold WithProbe.flattenStep cached
    dsimp only
    cases cfg.unpicklable && cfg.makeRefs with
    | true => rfl
    | false =>
      show (WithProbe.flattenImpl q w cfg (WithProbe.flatten q w cfg n) (.ref a) >>= fun j =>
        (PyM.modify (fun s : PState => { s with flattened := (.addr a, j) :: s.flattened }) >>= fun _ => pure j) : PyM PState Json) {} = _
      rw [bind_run]
      rcases WithProbe.flattenImpl q w cfg (WithProbe.flatten q w cfg n) (.ref a) {} with _ | ⟨_ | _, _⟩ <;> rfl
  rw [hC]
  cases hx : WithProbe.flattenObj q w cfg (WithProbe.flatten q w cfg n) (.ref a) { depth := 0 } with
  | none =>
    have : WithProbe.flattenImpl q w cfg (WithProbe.flatten q w cfg n) (.ref a) {} = none := by
      have h' : WithProbe.flattenObj q w cfg (WithProbe.flatten q w cfg n) (.ref a) { ({} : PState) with depth := ({} : PState).depth + 1 } = none := hx
      unfold WithProbe.flattenImpl push
      dsimp only
      rw [bind_run, modify_run]
      dsimp only
      rw [bind_run, h']
    rw [this]
    cases cfg.unpicklable && cfg.makeRefs <;> rfl
  | some p =>
    obtain ⟨r, s1⟩ := p
    obtain ⟨s2, h2⟩ := hI r s1 hx
    rw [h2]
    cases r <;> cases cfg.unpicklable && cfg.makeRefs <;> rfl

/-- `_flatten_obj` at the top, unless `max_depth=0` -/
theorem flattenObj_top (hd : cfg.maxDepth ≠ some 0) (fl : Val → P Json) (a : Addr) :
    WithProbe.flattenObj q w cfg fl (.ref a) { depth := 0 } =
      PyM.tryCatch (WithProbe.flattenBy q w cfg fl (.ref a)) (fun e => e.isException && cfg.failSafe.isSome)
        (fun e => match cfg.failSafe with
          | some f => ofExcept (f e)
          | none => throw e) { depth := 0, seen := [.ref a] } := by
  have hm : (some (0 : Int) == cfg.maxDepth) = false := by
    cases h : cfg.maxDepth with
    | none => rfl
    | some d =>
      by_cases hd0 : d = 0
      · rw [h, hd0] at hd; exact absurd rfl hd
      · simp; exact fun h => hd0 h.symm
  have hi : ∀ e m, inCycle (.addr a) e (some (0 : Int) == cfg.maxDepth) m { depth := 0, seen := [.ref a] } = some (.ok false, { depth := 0, seen := [.ref a] }) := by
    intro e m
    rw [hm]
    unfold inCycle
    cases m <;> rfl
  unfold WithProbe.flattenObj flattenObjWith maxReached
  rw [bind_run, modify_run]
  dsimp only
  rw [bind_run, gets_run]
  dsimp only
  show PyM.tryCatch _ _ _ _ = PyM.tryCatch _ _ _ _
  unfold PyM.tryCatch
  rw [bind_ok (a := false) (s' := { depth := 0, seen := [.ref a] }) (hi _ _)]
  rfl

/-! ### a `repr` that raises -/

theorem tryCatch_none {α : Type} {x : P α} {g : Exc → P α} {s s' : PState} {e : Exc} (hx : x s = some (.error e, s')) :
    PyM.tryCatch x (fun e => e.isException && (none : Option (Exc → Except Exc Json)).isSome) g s = some (.error e, s') := by
  unfold PyM.tryCatch
  rw [hx]
  simp

theorem flattenObjWith_error {v : Val} {id : Ident} {en : Bool} {body : P Json} {e : Exc} (hf : cfg.failSafe = none)
    (hb : ∀ s, ∃ s', body s = some (.error e, s')) (s : PState) :
    ∃ s1, flattenObjWith cfg v id en (.error e) body s = some (.error e, s1) := by
  unfold flattenObjWith maxReached
  rw [bind_run, modify_run]
  dsimp only
  rw [bind_run, gets_run, hf]
  dsimp only
  generalize ({ s with seen := s.seen ++ [v] } : PState) = s0
  have : ∃ c, inCycle id en (some s.depth == cfg.maxDepth) cfg.makeRefs s0 = some (.ok c, s0) := ⟨_, rfl⟩
  obtain ⟨c, hc⟩ := this
  obtain ⟨s', hs'⟩ := hb s0
  cases c with
  | true => exact ⟨s0, tryCatch_none (by rw [bind_ok hc, if_pos rfl]; rfl)⟩
  | false => exact ⟨s', tryCatch_none (by rw [bind_ok hc, if_neg (by decide), hs'])⟩

/-- An object that is callable and whose `repr` raises makes `encode` raise: nothing of the object is looked at before. -/
theorem object_raises {b : Addr} {e : Exc} (h : Raises q w b e) (hf : cfg.failSafe = none) (n : Nat) (s : PState) :
    result (Api.encodeProbe q w cfg (n + 1) (.ref b) s) = some (.error e) := by
  rw [top]
  have hb : ∀ s, WithProbe.flattenBy q w cfg (WithProbe.flatten q w cfg n) (.ref b) s = some (.error e, s) := h.flattenBy _
  unfold WithProbe.flattenObj
  rw [h.repr]
  obtain ⟨s1, h1⟩ := flattenObjWith_error (v := .ref b) (id := (Val.ref b).ident) (en := isEnumV w (.ref b)) hf (fun s => ⟨s, hb s⟩) { depth := 0 }
  rw [h1]
  rfl

theorem foldM_member {α : Type} {f : List (Str × Json) → α → P (List (Str × Json))} {x : α} {e : Exc}
    (hx : ∀ d s, f d x s = some (.error e, s)) {l : List α} (hm : x ∈ l) :
    ∀ d s d' s', foldM f d l s ≠ some (.ok d', s') := by
  induction l with
  | nil => cases hm
  | cons y l ih =>
    intro d s d' s' hh
    rw [foldM_cons] at hh
    obtain ⟨d1, s1, h1, h2⟩ := bind_eq_ok.1 hh
    cases hm with
    | head => rw [hx] at h1; cases h1
    | tail _ hm => exact ih hm _ _ _ _ h2

theorem itemsExcl_nil (kvs : List (Val × Val)) : itemsExcl [] kvs = kvs := by
  unfold itemsExcl
  rw [List.filter_eq_self]
  intro kv _
  cases kv.1 <;> rfl

theorem first_mkref (cfg : PCfg) (a : Addr) :
    mkref cfg (.addr a) { depth := 0, seen := [.ref a] } = some (.ok true, { depth := 0, seen := [.ref a], objs := [.addr a] }) := by
  unfold mkref
  rw [bind_ok (a := true) (s' := { depth := 0, seen := [.ref a], objs := [.addr a] }) rfl]
  cases cfg.unpicklable <;> cases cfg.makeRefs <;> rfl

theorem dict_not_ok {a b : Addr} {e : Exc} (h : Raises q w b e) {kvs : List (Val × Val)} (ha : w.heap[a]? = some (.dict kvs)) {k : Val}
    (hk : Ordinary k) (hm : (k, .ref b) ∈ kvs) (hkeys : cfg.keys = false) (n : Nat) (j : Json) (s1 : PState) :
    WithProbe.flattenBy q w cfg (WithProbe.flatten q w cfg n) (.ref a) { depth := 0, seen := [.ref a] } ≠ some (.ok j, s1) := by
  intro hx
  unfold WithProbe.flattenBy at hx
  dsimp only at hx
  rw [ha] at hx
  dsimp only at hx
  rw [bind_ok (first_mkref cfg a), if_pos rfl] at hx
  obtain ⟨d, s2, h2, _⟩ := bind_eq_ok.1 hx
  unfold WithProbe.flattenEntries at h2
  rw [hkeys] at h2
  refine foldM_member (f := fun d (kv : Val × Val) => WithProbe.flattenKeyValuePair q w (WithProbe.flatten q w cfg n) kv.1 kv.2 d)
    (x := (k, .ref b)) (e := e) ?_ ?_ _ _ _ _ h2
  · intro d s
    unfold WithProbe.flattenKeyValuePair
    rw [h.picklable hk]
    rfl
  · rw [itemsExcl_nil]; exact hm

/-- A dict with such an object among its values is never written, whatever else is in it.  (With `max_depth=0` the dict is written as a
text.) -/
theorem dict_raises {a b : Addr} {e : Exc} (h : Raises q w b e) {kvs : List (Val × Val)} (ha : w.heap[a]? = some (.dict kvs)) {k : Val}
    (hk : Ordinary k) (hm : (k, .ref b) ∈ kvs) (hf : cfg.failSafe = none) (hkeys : cfg.keys = false) (hd : cfg.maxDepth ≠ some 0)
    (n : Nat) (s : PState) (t : Str) : result (Api.encodeProbe q w cfg n (.ref a) s) ≠ some (.ok t) := by
  cases n with
  | zero => intro hh; cases hh
  | succ n =>
    rw [top, flattenObj_top hd]
    intro hh
    rw [hf] at hh
    unfold PyM.tryCatch at hh
    cases hx : WithProbe.flattenBy q w cfg (WithProbe.flatten q w cfg n) (.ref a) { depth := 0, seen := [.ref a] } with
    | none => rw [hx] at hh; cases hh
    | some p =>
      obtain ⟨r, s1⟩ := p
      cases r with
      | error e1 => rw [hx] at hh; simp [result, text] at hh
      | ok j => exact dict_not_ok h ha hk hm hkeys n j s1 hx

theorem flattenObjWith_replaced {v : Val} {id : Ident} {en : Bool} {body : P Json} {e : Exc} {f : Exc → Except Exc Json} {j : Json}
    (hf : cfg.failSafe = some f) (he : e.isException = true) (hj : f e = .ok j) (hb : ∀ s, body s = some (.error e, s)) (s : PState) :
    flattenObjWith cfg v id en (.error e) body s = some (.ok j, { s with seen := s.seen ++ [v] }) := by
  unfold flattenObjWith maxReached
  rw [bind_run, modify_run]
  dsimp only
  rw [bind_run, gets_run, hf]
  dsimp only
  generalize ({ s with seen := s.seen ++ [v] } : PState) = s0
  have : ∃ c, inCycle id en (some s.depth == cfg.maxDepth) cfg.makeRefs s0 = some (.ok c, s0) := ⟨_, rfl⟩
  obtain ⟨c, hc⟩ := this
  have hx : (do
      let cyc ← inCycle id en (some s.depth == cfg.maxDepth) cfg.makeRefs
      if cyc then do
        let r ← ofExcept (.error e)
        pure (.str r)
      else body : PyM PState Json) s0 = some (.error e, s0) := by
    rw [bind_ok hc]
    cases c with
    | true => rfl
    | false => exact hb s0
  unfold PyM.tryCatch
  rw [hx]
  dsimp only
  simp [he, hj]

/-- With `fail_safe` it is not the object but the dict that holds it which is replaced. -/
theorem dict_replaced {a b : Addr} {e : Exc} (h : Raises q w b e) {kvs : List (Val × Val)} (ha : w.heap[a]? = some (.dict kvs)) {k : Val}
    (hk : Ordinary k) (hm : (k, .ref b) ∈ kvs) {f : Exc → Except Exc Json} (hf : cfg.failSafe = some f) (hkeys : cfg.keys = false)
    (hd : cfg.maxDepth ≠ some 0) (n : Nat) (s : PState) (t : Str) (ht : result (Api.encodeProbe q w cfg n (.ref a) s) = some (.ok t)) :
    ∃ e' j, f e' = .ok j ∧ t = w.dumps j := by
  cases n with
  | zero => cases ht
  | succ n =>
    rw [top, flattenObj_top hd] at ht
    rw [hf] at ht
    unfold PyM.tryCatch at ht
    cases hx : WithProbe.flattenBy q w cfg (WithProbe.flatten q w cfg n) (.ref a) { depth := 0, seen := [.ref a] } with
    | none => rw [hx] at ht; cases ht
    | some p =>
      obtain ⟨r, s1⟩ := p
      rw [hx] at ht
      cases r with
      | ok j => exact absurd hx (dict_not_ok h ha hk hm hkeys n j s1)
      | error e1 =>
        dsimp only at ht
        cases hi : e1.isException with
        | false => simp [result, text, hi] at ht
        | true =>
          cases hj : f e1 with
          | error e2 => simp [result, text, hi, hj] at ht
          | ok j => exact ⟨e1, j, hj, by simp [result, text, hi, hj] at ht; exact ht.symm⟩

/-- In a list it is the object itself. -/
theorem list_keeps {a b : Addr} {e : Exc} (h : Raises q w b e) (ha : w.heap[a]? = some (.list [.ref b]))
    {f : Exc → Except Exc Json} (hf : cfg.failSafe = some f) (he : e.isException = true) {j : Json} (hj : f e = .ok j)
    (hd : cfg.maxDepth ≠ some 0) (n : Nat) (s : PState) :
    result (Api.encodeProbe q w cfg (n + 2) (.ref a) s) = some (.ok (w.dumps (.arr [j]))) := by
  rw [top, flattenObj_top hd]
  have hb : ∀ s, WithProbe.flattenBy q w cfg (WithProbe.flatten q w cfg n) (.ref b) s = some (.error e, s) := h.flattenBy _
  have hi : ∀ s : PState, s.flattened = [] → ∃ s', WithProbe.flatten q w cfg (n + 1) (.ref b) s = some (.ok j, s') := by
    intro s hs
    have hI : ∀ s, ∃ s', WithProbe.flattenImpl q w cfg (WithProbe.flatten q w cfg n) (.ref b) s = some (.ok j, s') := by
      intro s
      unfold WithProbe.flattenImpl push
      dsimp only
      rw [bind_run, modify_run]
      dsimp only
      unfold WithProbe.flattenObj
      rw [h.repr, bind_ok (flattenObjWith_replaced hf he hj hb _)]
      exact ⟨_, rfl⟩
    show ∃ s', cached cfg (Val.ref b).ident _ s = _
    unfold cached
    cases cfg.unpicklable && cfg.makeRefs with
    | true => exact hI s
    | false =>
      obtain ⟨s', hs'⟩ := hI s
      rw [if_neg (by decide), bind_run, get_run]
      dsimp only
      rw [hs]
      dsimp only [List.find?]
      rw [bind_ok hs']
      exact ⟨_, rfl⟩
  obtain ⟨s', hs'⟩ := hi { depth := 0, seen := [.ref a], objs := [.addr a] } rfl
  have hx : WithProbe.flattenBy q w cfg (WithProbe.flatten q w cfg (n + 1)) (.ref a) { depth := 0, seen := [.ref a] } = some (.ok (.arr [j]), s') := by
    unfold WithProbe.flattenBy
    dsimp only
    rw [ha]
    dsimp only
    rw [bind_ok (first_mkref cfg a), if_pos rfl, bind_ok (a := [j]) (s' := s') (by rw [mapM_cons, bind_ok hs']; rfl)]
    rfl
  unfold PyM.tryCatch
  rw [hx]
  rfl

/-! ### bound methods -/

/-- the entries of a dict whose values are not bound methods -/
def Other (q : Probe) (kvs : List (Val × Val)) : List (Val × Val) := kvs.filter (fun kv => !q.method kv.2)

/-- A bound method is an instance (of `types.MethodType`) whose `repr` is no text of a Cython function. -/
def Method (w : World) (v : Val) : Prop :=
  ∃ b i s, v = .ref b ∧ w.heap[b]? = some (.inst i) ∧ w.repr v = .ok s ∧ startsWith s p!"<cyfunction " = false

theorem method_not_picklable {k v : Val} (hv : Method w v) (hm : q.method v = true) : WithProbe.isPicklable q w k v = .ok false := by
  obtain ⟨b, i, s, rfl, hi, hr, hs⟩ := hv
  have hc : isCython q w (.ref b) = .ok false := by
    unfold isCython
    cases q.calls (.ref b) with
    | false => rfl
    | true => rw [if_pos rfl, hr]; dsimp only; rw [hs]
  have hmf : isModuleFunction q w (.ref b) = .ok false := by
    show (match w.heap[b]? with
      | some (.inst _) => isCython q w (.ref b)
      | _ => .ok false) = _
    rw [hi]
    exact hc
  unfold WithProbe.isPicklable
  rw [hmf]
  have hf : isFunction q (.ref b) = true := hm
  rw [hf]
  simp

/-- Bound methods among the values of a dict are left out, whatever their keys. -/
theorem methods_left_out {kvs : List (Val × Val)} (hv : ∀ kv ∈ kvs, q.method kv.2 = true → Method w kv.2) (hkeys : cfg.keys = false)
    (ex : List Str) (fl : Val → P Json) (d : List (Str × Json)) :
    WithProbe.flattenEntries q w cfg fl kvs ex d = WithProbe.flattenEntries q w cfg fl (Other q kvs) ex d := by
  have hcomm : itemsExcl ex (Other q kvs) = Other q (itemsExcl ex kvs) := by
    unfold Other itemsExcl
    rw [List.filter_filter, List.filter_filter]
    congr 1
    funext kv
    exact Bool.and_comm _ _
  have hv' : ∀ kv ∈ itemsExcl ex kvs, q.method kv.2 = true → Method w kv.2 := fun kv hm => hv kv ((List.mem_filter.1 hm).1)
  unfold WithProbe.flattenEntries
  rw [hcomm, hkeys]
  show foldM _ _ _ = foldM _ _ _
  generalize itemsExcl ex kvs = l at hv'
  induction l generalizing d with
  | nil => rfl
  | cons x l ih =>
    have ih' := fun d => ih d (fun kv hm => hv' kv (List.mem_cons_of_mem _ hm))
    cases hm : q.method x.2 with
    | true =>
      have e : Other q (x :: l) = Other q l := by unfold Other; simp [hm]
      rw [e, ← ih']
      rw [foldM_cons]
      funext s
      rw [bind_ok (a := d) (s' := s)]
      show WithProbe.flattenKeyValuePair q w fl x.1 x.2 d s = _
      unfold WithProbe.flattenKeyValuePair
      rw [method_not_picklable (hv' x List.mem_cons_self hm) hm]
      rfl
    | false =>
      have e : Other q (x :: l) = x :: Other q l := by unfold Other; simp [hm]
      rw [e, foldM_cons, foldM_cons]
      congr 1
      funext d
      exact ih' d

/-- A dict whose only value is a bound method becomes the empty dict. -/
theorem method_dropped {a : Addr} {k v : Val} (ha : w.heap[a]? = some (.dict [(k, v)])) (hv : Method w v) (hm : q.method v = true)
    (hkeys : cfg.keys = false) (hd : cfg.maxDepth ≠ some 0) (n : Nat) (s : PState) :
    result (Api.encodeProbe q w cfg (n + 1) (.ref a) s) = some (.ok (w.dumps (.obj []))) := by
  rw [top, flattenObj_top hd]
  have hx : WithProbe.flattenBy q w cfg (WithProbe.flatten q w cfg n) (.ref a) { depth := 0, seen := [.ref a] }
      = some (.ok (.obj []), { depth := 0, seen := [.ref a], objs := [.addr a] }) := by
    unfold WithProbe.flattenBy
    dsimp only
    rw [ha]
    dsimp only
    rw [bind_ok (first_mkref cfg a), if_pos rfl, methods_left_out (by simpa using fun _ => hv) hkeys]
    have e : Other q [(k, v)] = [] := by unfold Other; simp [hm]
    rw [e]
    unfold WithProbe.flattenEntries
    rw [hkeys]
    rfl
  unfold PyM.tryCatch
  rw [hx]
  rfl

/-! ### an object that is taken for a Cython function -/

/-- An object whose `repr` begins with `<cyfunction ` is written as a function: only its name is written, nothing of its state; with `unpicklable=False` it is
written as null. -/
theorem taken_for_function {b : Addr} {i : Inst} {t n : Str} (hi : w.heap[b]? = some (.inst i)) (hc : q.calls (.ref b) = true)
    (hr : w.repr (.ref b) = .ok t) (ht : startsWith t p!"<cyfunction " = true) (hn : q.name (.ref b) = .ok n)
    (hd : cfg.maxDepth ≠ some 0) (m : Nat) (s : PState) :
    result (Api.encodeProbe q w cfg (m + 1) (.ref b) s) = some (.ok (w.dumps (if cfg.unpicklable then .obj [(Tags.FUNCTION, .str n)] else .null))) := by
  rw [top, flattenObj_top hd]
  have hx : WithProbe.flattenBy q w cfg (WithProbe.flatten q w cfg m) (.ref b) { depth := 0, seen := [.ref b] }
      = some (.ok (if cfg.unpicklable then .obj [(Tags.FUNCTION, .str n)] else .null), { depth := 0, seen := [.ref b] }) := by
    have hcy : isCython q w (.ref b) = .ok true := by
      unfold isCython
      rw [if_pos hc, hr]
      dsimp only
      rw [ht]
    unfold WithProbe.flattenBy
    dsimp only
    rw [hi]
    dsimp only
    rw [hcy]
    show flattenFunction q cfg (.ref b) _ = _
    unfold flattenFunction
    rw [hn]
    cases cfg.unpicklable <;> rfl
  unfold PyM.tryCatch
  rw [hx]
  rfl

/-! ### examples -/

/-- object 0 is callable and its `repr` raises `AttributeError`; 1 is a dict that holds it and a number, 2 a list with it, 3 an object with slots
`f` and `x` -/
def aWorld : World where
  heap := [.inst { cls := p!"m.Proxy" }, .dict [(.str p!"n", .int 1), (.str p!"f", .ref 0)], .list [.ref 0], .inst { cls := p!"m.S", info := { hasDict := false, hasSlots := true, slots := [p!"f", p!"x"] }, attrs := [(p!"f", .ref 0), (p!"x", .int 2)] }]
  repr v := if v == .ref 0 then .error .attributeError else .ok p!"R"
  pystr _ := .ok p!"S"
  dumps := Sample.dumps
  handler _ := none

def aProbe : Probe where
  calls v := v == .ref 0
  method _ := false
  name _ := .ok p!"N"

theorem a_raises : Raises aProbe aWorld 0 .attributeError := ⟨⟨_, rfl⟩, rfl, rfl⟩

example (n : Nat) : result (Api.encodeProbe aProbe aWorld {} (n + 1) (.ref 0) {}) = some (.error .attributeError) :=
  object_raises a_raises rfl n {}

example (n : Nat) (t : Str) : result (Api.encodeProbe aProbe aWorld {} n (.ref 1) {}) ≠ some (.ok t) :=
  dict_raises a_raises (kvs := [(.str p!"n", .int 1), (.str p!"f", .ref 0)]) rfl (k := .str p!"f")
    (by intro s h; injection h with h; rw [← h]; decide +kernel) (by simp) rfl rfl (by simp) n {} t

/-- In an object with slots the attribute disappears without a word. -/
theorem slot_dropped : result (Api.encodeProbe aProbe aWorld {} 9 (.ref 3) {}) =
    some (.ok (Sample.dumps (.obj [(Tags.OBJECT, .str p!"m.S"), (p!"x", .int 2)]))) := by
  decide +kernel

/-- With `fail_safe`: the dict and its number are gone; in the list only the object is. -/
theorem replaced_example :
    result (Api.encodeProbe aProbe aWorld { failSafe := some fun _ => .ok .null } 9 (.ref 1) {}) = some (.ok (Sample.dumps .null)) ∧
    result (Api.encodeProbe aProbe aWorld { failSafe := some fun _ => .ok .null } 9 (.ref 2) {}) = some (.ok (Sample.dumps (.arr [.null]))) := by
  decide +kernel

/-- Object 0 is a bound method of object 1; 2 is a dict with it, 3 a list with it. -/
def mWorld : World where
  heap := [.inst { cls := p!"types.MethodType", info := { hasDict := false, reduces := true }, reduce := .tup [.func p!"builtins.getattr", .tuple 0 [.ref 1, .str p!"f"]] }, .inst { cls := p!"m.C" }, .dict [(.str p!"f", .ref 0)], .list [.ref 0]]
  repr _ := .ok p!"<bound method C.f of R>"
  pystr _ := .ok p!"S"
  dumps := Sample.dumps
  handler _ := none

def mProbe : Probe where
  calls v := v == .ref 0
  method v := v == .ref 0
  name _ := .ok p!"N"

/-- In a list a bound method is written, and can be read back; as a value of a dict it is left out. -/
theorem method_in_list :
    result (Api.encodeProbe mProbe mWorld {} 9 (.ref 3) {}) = some (.ok (Sample.dumps (.arr [.obj [(Tags.REDUCE, .arr [.obj [(Tags.FUNCTION, .str p!"builtins.getattr")], .obj [(Tags.TUPLE, .arr [.obj [(Tags.OBJECT, .str p!"m.C")], .str p!"f"])]])]]))) ∧
    result (Api.encodeProbe mProbe mWorld {} 9 (.ref 2) {}) = some (.ok (Sample.dumps (.obj []))) := by
  decide +kernel

example (n : Nat) : result (Api.encodeProbe mProbe mWorld {} (n + 1) (.ref 2) {}) = some (.ok (Sample.dumps (.obj []))) :=
  method_dropped (k := .str p!"f") (v := .ref 0) rfl ⟨0, _, p!"<bound method C.f of R>", rfl, rfl, rfl, by decide⟩ rfl rfl (by simp) n {}

/-- An object whose `repr` says that it is a Cython function. -/
def cWorld : World := { mWorld with repr := fun _ => .ok p!"<cyfunction f at 0x7f>" }

example (m : Nat) (s : PState) : result (Api.encodeProbe mProbe cWorld {} (m + 1) (.ref 0) s) = some (.ok (Sample.dumps (.obj [(p!"py/function", .str p!"N")]))) ∧
    result (Api.encodeProbe mProbe cWorld { unpicklable := false } (m + 1) (.ref 0) s) = some (.ok (Sample.dumps .null)) :=
  ⟨taken_for_function (cfg := {}) rfl rfl rfl (by decide) rfl (by decide) m s, taken_for_function (cfg := { unpicklable := false }) rfl rfl rfl (by decide) rfl (by decide) m s⟩

end JP.C64
