import Verif.Api
import Verif.Proofs.ReadExtent
import Verif.Proofs.UExtent
import Verif.Proofs.UMono
import Verif.Props.C41
/-!
# C77 — decoding ends, and what it does is linear in the length of the text
-/
namespace JP.C77
open JP PyM Unpickler Unpickler.Cost

/-- Only subclasses of `tuple` (as namedtuples are) have a `_fields` attribute. -/
def FieldsOnTuples (env : UEnv) : Prop :=
  ∀ n c, env.loadclass n = some (.type c) → (env.classInfo c).numFields.isSome = true → (env.classInfo n).base = .tuple

/-- `decode(text)` comes to an end, for every text, all options (`keys=True` included: documents inside of keys are restored too), all
classes and handlers and whatever the decoder remembers: with as many nested calls as the text has characters it returns a value or raises
an exception. -/
theorem terminates (env : UEnv) (ft : JsonText.FloatText) (hl : env.loads = JsonText.loads ft) (text : Str) (n : Nat) (hn : text.length < n) (reset own : Bool) (u : UState) :
    ∃ r u', Api.decode env n text reset own u = some (r, u') := by
  unfold Api.decode
  cases ht : env.loads text with
  | none => exact ⟨_, _, rfl⟩
  | some j =>
    have hj : j.extent ≤ text.length := JsonText.loads_extent ft (by rw [← hl]; exact ht)
    obtain ⟨r, s, h, -, -⟩ := fin_restoreTop (env := env) (fun t j h => JsonText.loads_extent ft (by rw [← hl]; exact h)) (Nat.lt_of_le_of_lt hj hn) reset u
    simp only []
    rw [bind_run, h]
    cases r with
    | error e => exact ⟨_, _, rfl⟩
    | ok a => cases own <;> exact ⟨_, _, rfl⟩

/-- What happens while decoding (look-ups of names, calls of classes, functions and state setters, evaluations of `py/repr`, callbacks,
`py/object` entries processed) is at most five times as much as the text has characters, if only subclasses of `tuple` have a `_fields`
attribute. -/
theorem linear (env : UEnv) (ft : JsonText.FloatText) (hl : env.loads = JsonText.loads ft) (hf : FieldsOnTuples env) (text : Str) (n : Nat) (hn : text.length < n)
    (reset own : Bool) (u u' : UState) (r : Except Exc Val) (h : Api.decode env n text reset own u = some (r, u')) :
    u'.log.length ≤ u.log.length + 5 * text.length := by
  unfold Api.decode at h
  cases ht : env.loads text with
  | none =>
    rw [ht] at h
    cases h
    omega
  | some j =>
    have hj : j.extent ≤ text.length := JsonText.loads_extent ft (by rw [← hl]; exact ht)
    obtain ⟨q, s, h1, h2, -⟩ := fin_restoreTop (env := env) (fun t j h => JsonText.loads_extent ft (by rw [← hl]; exact h)) (Nat.lt_of_le_of_lt hj hn) reset u
    have h2' := h2 hf
    rw [ht] at h
    simp only [] at h
    rw [bind_run, h1] at h
    cases q with
    | error e =>
      injection h with h
      injection h with _ h
      subst h
      exact Nat.le_trans h2' (by omega)
    | ok a =>
      cases own <;> (injection h with h; injection h with _ h; subst h; exact Nat.le_trans h2' (by omega))

/-- The same for `Unpickler.restore` of a document, in terms of the number of lists and objects and the length of the keys. -/
theorem linear_document (env : UEnv) (ft : JsonText.FloatText) (hl : env.loads = JsonText.loads ft) (hf : FieldsOnTuples env) (j : Json) (n : Nat) (hn : j.extent < n)
    (reset : Bool) (u : UState) : ∃ r u', restoreTop env n j reset u = some (r, u') ∧ u'.log.length ≤ u.log.length + 5 * j.extent := by
  obtain ⟨r, s, h1, h2, -⟩ := fin_restoreTop (env := env) (fun t j h => JsonText.loads_extent ft (by rw [← hl]; exact h)) hn reset u
  exact ⟨r, s, h1, h2 hf⟩

/-! ### a sample: classes, a key that holds a document, a missing class and a reduce value -/

/-- a namedtuple `m.N` with two fields, a class `m.C` and nothing else -/
def env : UEnv where
  keys := true
  loadclass n := if n = p!"m.N" ∨ n = p!"m.C" then some (.type n) else none
  classInfo n := if n = p!"m.N" then { base := .tuple, numFields := some 2, hasDict := false } else {}
  handler _ := none
  loadmodule _ := .ok none
  loadrepr _ := .error .valueError
  loads := JsonText.loads C41.sampleFloat

theorem env_fields : FieldsOnTuples env := by
  intro n c h1 h2
  have hn : c = n := by
    simp only [env] at h1
    split at h1
    · cases h1; rfl
    · cases h1
  subst hn
  simp only [env] at h2 ⊢
  split
  · rfl
  · next hc => rw [if_neg hc] at h2; cases h2

def text : Str := p!"[{\"py/object\": \"m.N\", \"py/seq\": [1, {\"py/object\": \"m.C\", \"x\": 2}]}, {\"json://{\\\"py/object\\\": \\\"m.C\\\"}\": 3}, {\"py/object\": \"no.X\"}, {\"py/reduce\": [{\"py/type\": \"m.C\"}, {\"py/tuple\": []}]}]"

def happened : Option (List Event) := (Api.decode env 300 text true true {}).map (fun p => p.2.log)

example : happened = some [.imp p!"m.N", .obj p!"m.N", .imp p!"m.N", .imp p!"m.C", .obj p!"m.C", .call p!"m.C", .call p!"m.N", .imp p!"m.C", .obj p!"m.C",
    .call p!"m.C", .imp p!"no.X", .obj p!"no.X", .imp p!"m.C", .call p!"m.C"] := by decide +kernel

example : ∀ r u', Api.decode env 300 text true true {} = some (r, u') → u'.log.length ≤ 5 * text.length := fun r u' h => by
  have := linear env C41.sampleFloat rfl env_fields text 300 (by decide +kernel) true true {} u' r h
  simpa using this

/-! ### with `_fields` on another class: exponential -/

/-- `class L(list): _fields = ("x",)` -/
def envL (ft : JsonText.FloatText) : UEnv where
  loadclass n := some (.type n)
  classInfo _ := { base := .list, numFields := some 1 }
  handler _ := none
  loadmodule _ := .ok none
  loadrepr _ := .error .valueError
  loads := JsonText.loads ft

/-- `L([L([… L([None]) …])])`, as it is encoded -/
def nest : Nat → Json
  | 0 => .null
  | n + 1 => .obj [(p!"py/object", .str p!"m.L"), (p!"py/seq", .arr [nest n])]

/-- nothing known is forgotten and at least `n` things happened -/
structure Up (s s' : UState) (n : Nat) : Prop where
  heap : s.heap.length ≤ s'.heap.length
  idx : ∀ q, q < s.heap.length → idxGet (.addr q) s.idx ≠ none → idxGet (.addr q) s'.idx ≠ none
  log : s.log.length + n ≤ s'.log.length

theorem Up.refl (s : UState) : Up s s 0 := ⟨Nat.le_refl _, fun _ _ h => h, Nat.le_refl _⟩

theorem Up.trans {s t u : UState} {n m : Nat} (h : Up s t n) (k : Up t u m) : Up s u (n + m) :=
  ⟨Nat.le_trans h.heap k.heap, fun q hq hi => k.idx q (Nat.lt_of_lt_of_le hq h.heap) (h.idx q hq hi), by have := h.log; have := k.log; omega⟩

theorem Up.le {s t : UState} {n m : Nat} (h : Up s t n) (hm : m ≤ n) : Up s t m := ⟨h.heap, h.idx, by have := h.log; omega⟩

/-- `x` returns from every state, and at least `n` things happen -/
def Grows {α : Type} (x : U α) (n : Nat) : Prop := ∀ s, ∃ a s', x s = some (.ok a, s') ∧ Up s s' n

theorem grows_bind {α β : Type} {x : U α} {f : α → U β} {n m : Nat} (h : Grows x n) (k : ∀ a, Grows (f a) m) : Grows (x >>= f) (n + m) := by
  intro s
  obtain ⟨a, s1, h1, u1⟩ := h s
  obtain ⟨b, s2, h2, u2⟩ := k a s1
  exact ⟨b, s2, by rw [bind_run, h1]; exact h2, u1.trans u2⟩

theorem grows_pure {α : Type} (a : α) : Grows (pure a : U α) 0 := fun s => ⟨a, s, rfl, Up.refl s⟩

theorem grows_emit (e : Event) : Grows (emit e) 1 := fun s => ⟨(), _, rfl, Nat.le_refl _, fun _ _ h => h, by simp⟩

theorem grows_alloc (o : Obj) : Grows (alloc o) 0 := fun s => ⟨_, _, rfl, by simp, fun _ _ h => h, Nat.le_refl _⟩

theorem idxGet_append {i : Ident} {l : List (Ident × Nat)} (h : idxGet i l ≠ none) (k : List (Ident × Nat)) : idxGet i (l ++ k) ≠ none := by
  unfold idxGet at *
  intro e
  rw [Option.map_eq_none_iff, List.find?_append] at e
  cases hf : l.find? (fun p => p.1 == i) with
  | none => rw [hf] at h; exact h rfl
  | some p => rw [hf] at e; cases e

theorem grows_mkref (v : Val) : Grows (mkref v) 0 := by
  intro s
  unfold mkref
  cases hg : idxGet v.ident s.idx with
  | some n => exact ⟨v, s, rfl, Up.refl s⟩
  | none => exact ⟨v, _, rfl, Nat.le_refl _, fun q _ h => idxGet_append h _, Nat.le_refl _⟩

theorem grows_setCell (a : Addr) (o : Obj) : Grows (setCell a o) 0 := fun s => ⟨(), _, rfl, by simp, fun _ _ h => h, Nat.le_refl _⟩

theorem grows_noteProxy (a : Addr) (sl : Slot) (v : Val) : Grows (noteProxy a sl v) 0 := by
  intro s
  unfold noteProxy PyM.modify
  refine ⟨(), _, rfl, ?_⟩
  dsimp only
  split
  · exact ⟨Nat.le_refl _, fun _ _ h => h, Nat.le_refl _⟩
  · exact Up.refl s

theorem grows_modInst (a : Addr) (f : Inst → Inst) : Grows (modInst a f) 0 := by
  intro s
  unfold modInst PyM.modify
  refine ⟨(), _, rfl, ?_⟩
  dsimp only
  split
  · exact ⟨by simp, fun _ _ h => h, Nat.le_refl _⟩
  · exact Up.refl s

theorem grows_fixFactory (v : Val) : Grows (fixFactory v) 0 := by
  intro s
  unfold fixFactory PyM.modify
  refine ⟨(), _, rfl, ?_⟩
  dsimp only
  repeat' split
  all_goals first | exact Up.refl s | exact ⟨by simp, fun _ _ h => h, Nat.le_refl _⟩

theorem grows_noteList (a : Addr) : ∀ (n : Nat) (vs : List Val), Grows (noteList a n vs) 0
  | _, [] => grows_pure ()
  | n, v :: vs => grows_bind (grows_noteProxy a _ v) (fun _ => grows_noteList a (n + 1) vs)

theorem grows_one {rs : Json → U Val} {j : Json} {k : Nat} (h : Grows (rs j) k) : Grows (PyM.mapM rs [j]) k := by
  rw [mapM_cons]
  have := grows_bind h (fun a => grows_bind (m := 0) (f := fun as => (pure (a :: as) : U (List Val))) (grows_pure []) (fun as => grows_pure _))
  simpa using this

theorem grows_list {rs : Json → U Val} {j : Json} {k : Nat} (h : Grows (rs j) k) : Grows (restoreList rs (.ok [j])) k := by
  have h2 : Grows (alloc (.list []) >>= fun a => mkref (.ref a) >>= fun _ => PyM.mapM rs [j] >>= fun vs => setCell a (.list vs) >>= fun _ => noteList a 0 vs >>= fun _ => (pure a : U Addr))
      (0 + (0 + (k + (0 + (0 + 0))))) :=
    grows_bind (grows_alloc _) (fun a => grows_bind (grows_mkref _) (fun _ => grows_bind (grows_one h) (fun vs => grows_bind (grows_setCell _ _) (fun _ => grows_bind (grows_noteList _ _ _) (fun _ => grows_pure a)))))
  rw [show 0 + (0 + (k + (0 + (0 + 0)))) = k by omega] at h2
  exact h2

theorem grows_arr {ft : JsonText.FloatText} {n : Nat} {j : Json} {k : Nat} (h : Grows (restore (envL ft) n j) k) : Grows (restore (envL ft) (n + 1) (.arr [j])) k :=
  grows_bind (grows_list h) (fun a => grows_pure _)

theorem construct_list (h : Heap) (args : Val) : ∃ i, construct h p!"m.L" { base := .list, numFields := some 1 } .none args (.tuple 0 []) = some i ∧ i.info = { base := .list, numFields := some 1 } := by
  unfold construct
  dsimp only
  cases starArgs h args with
  | none => exact ⟨_, rfl, rfl⟩
  | some xs => exact ⟨_, rfl, rfl⟩

theorem grows_seq {rs : Json → U Val} {j : Json} {k : Nat} (h : Grows (rs j) k) (a : Addr) (s : UState) (i : Inst) (ha : s.heap[a]? = some (.inst i)) (hb : i.info.base = .list) :
    ∃ s', restoreSeq rs a (.arr [j]) s = some (.ok (), s') ∧ Up s s' k := by
  have h2 : Grows (rs j >>= fun v => modInst a (fun i => { i with elems := i.elems ++ [v] })) (k + 0) := grows_bind h (fun v => grows_modInst _ _)
  obtain ⟨u, s', h3, h4⟩ := h2 s
  refine ⟨s', ?_, h4⟩
  have hi : (infoOf s.heap a).base = .list := by
    unfold infoOf
    rw [ha]
    exact hb
  unfold restoreSeq
  rw [bind_run, get_run]
  simp only [hi]
  have e : (PyM.mapM (fun x => rs x >>= fun v => modInst a (fun i => { i with elems := i.elems ++ [v] })) [j]) s = some (.ok [u], s') := by
    rw [mapM_cons, bind_run, h3]
    rfl
  show (PyM.mapM (fun x => rs x >>= fun v => modInst a (fun i => { i with elems := i.elems ++ [v] })) [j] >>= fun _ => (pure () : U Unit)) s = _
  rw [bind_run, e]
  rfl

theorem idxGet_kept {q p a : Addr} {l : List (Ident × Nat)} (hp : q ≠ p) (ha : q ≠ a) (h : idxGet (.addr q) l ≠ none) :
    idxGet (.addr q) (l.filter (fun e => e.1 != .addr p && e.1 != .addr a)) ≠ none := by
  induction l with
  | nil => exact absurd rfl h
  | cons e l ih =>
    unfold idxGet at h ih ⊢
    by_cases he : e.1 = .addr q
    · have : (e.1 != .addr p && e.1 != .addr a) = true := by
        rw [he]
        simp [hp, ha]
      rw [List.filter_cons, if_pos this, List.find?_cons]
      simp [he]
    · have hq : (e.1 == Ident.addr q) = false := by simpa using he
      rw [List.find?_cons, hq] at h
      have ih := ih h
      rw [List.filter_cons]
      split
      · rw [List.find?_cons, hq]
        exact ih
      · exact ih

theorem mkref_known (v : Val) (s : UState) : ∃ s', mkref v s = some (.ok v, s') ∧ idxGet v.ident s'.idx ≠ none ∧ s'.heap = s.heap := by
  unfold mkref
  cases hg : idxGet v.ident s.idx with
  | some n => exact ⟨s, rfl, by rw [hg]; exact fun h => (by cases h), rfl⟩
  | none =>
    refine ⟨_, rfl, ?_, rfl⟩
    unfold idxGet
    rw [List.find?_append]
    cases s.idx.find? (fun p => p.1 == v.ident) with
    | some p => exact fun h => by cases h
    | none => simp

/-- one level: what is inside is restored twice -/
theorem grows_instance {ft : JsonText.FloatText} {rs : Json → U Val} {j : Json} {k : Nat} (h : Grows (rs j) k) (ha : Grows (rs (.arr [j])) k) :
    Grows (restoreInstance (envL ft) rs p!"m.L" [(p!"py/object", .str p!"m.L"), (p!"py/seq", .arr [j])]) (2 * k + 2) := by
  intro s
  obtain ⟨s2, e2, k2, hp2⟩ := mkref_known (.ref s.heap.length) { s with heap := s.heap ++ [.proxy none] }
  obtain ⟨_, _, e2', u2⟩ := grows_mkref (.ref s.heap.length) { s with heap := s.heap ++ [.proxy none] }
  rw [e2] at e2'
  cases e2'
  have u0 : Up s { s with heap := s.heap ++ [.proxy none] } 0 := ⟨by simp, fun _ _ h => h, Nat.le_refl _⟩
  have u2 : Up s s2 (0 + 0) := u0.trans u2
  obtain ⟨_, s3, e3, u3⟩ := grows_emit (.imp p!"m.L") s2
  obtain ⟨args, s4, e4, u4⟩ := ha s3
  obtain ⟨_, s5, e5, u5⟩ := grows_emit (.call p!"m.L") s4
  obtain ⟨i, ei, hi⟩ := construct_list s4.heap args
  -- the new object
  have hlt : s.heap.length < s4.heap.length := by
    have h1 : s2.heap.length = s.heap.length + 1 := by rw [hp2]; simp
    have h2 := u3.heap
    have h3 := u4.heap
    omega
  have hs5 : s5.heap = s4.heap ∧ s5.idx = s4.idx := by
    injection e5 with e5
    injection e5 with _ e5
    subst e5
    exact ⟨rfl, rfl⟩
  have hk : idxGet (.addr s.heap.length) s5.idx ≠ none := by
    have h1 : s.heap.length < s2.heap.length := by rw [hp2]; simp
    rw [hs5.2]
    exact (u3.trans u4).idx _ h1 k2
  obtain ⟨m, hm⟩ := Option.ne_none_iff_exists'.1 hk
  generalize hs6 : ({ s5 with heap := (s5.heap ++ [Obj.inst i]).set s.heap.length (.proxy (some (.ref s5.heap.length))), idx := (s5.idx.filter (fun q => q.1 != .addr s.heap.length && q.1 != .addr s5.heap.length)) ++ [(.addr s5.heap.length, m)], objs := s5.objs.set m (.ref s5.heap.length) } : UState) = s6
  have u6 : Up s s6 (k + 2) := by
    have u5 := ((u2.trans u3).trans (u4.trans u5))
    subst hs6
    refine ⟨?_, fun q hq hi => ?_, ?_⟩
    · have := u5.heap
      simp
      omega
    · refine idxGet_append (idxGet_kept (Nat.ne_of_lt hq) ?_ (u5.idx q hq hi)) _
      rw [hs5.1]
      exact Nat.ne_of_lt (Nat.lt_trans hq hlt)
    · have := u5.log
      show _ ≤ s5.log.length
      omega
  have hget : s6.heap[s5.heap.length]? = some (.inst i) := by
    subst hs6
    show ((s5.heap ++ [Obj.inst i]).set s.heap.length _)[s5.heap.length]? = _
    rw [List.getElem?_set_ne (by rw [hs5.1]; omega)]
    simp
  obtain ⟨s7, e7, u7⟩ := grows_seq h s5.heap.length s6 i hget (by rw [hi])
  obtain ⟨_, s8, e8, u8⟩ := grows_fixFactory (.ref s5.heap.length) s7
  refine ⟨.ref s5.heap.length, s8, ?_, ((u6.trans u7).trans u8).le (by omega)⟩
  unfold restoreInstance
  rw [bind_run]
  show (mkref (.ref s.heap.length) >>= _) { s with heap := s.heap ++ [.proxy none] } = _
  rw [bind_run, e2]
  dsimp only
  have hf : ∀ t, loadFactory rs [(p!"py/object", .str p!"m.L"), (p!"py/seq", .arr [j])] t = some (.ok (.none, [(p!"py/object", .str p!"m.L"), (p!"py/seq", .arr [j])]), t) := fun _ => rfl
  have hc : ctorArgs (envL ft) [(p!"py/object", .str p!"m.L"), (p!"py/seq", .arr [j])] s2 = some (.ok (.arr [j], .obj []), s3) := by
    show (emit (.imp p!"m.L") >>= fun _ => (pure (Json.arr [j], Json.obj []) : U (Json × Json))) s2 = _
    rw [bind_run, e3]
    rfl
  have hr : restoreArg rs (.arr [j]) s3 = some (.ok args, s4) := e4
  have hw : restoreArg rs (.obj []) s4 = some (.ok (.tuple 0 []), s4) := rfl
  rw [bind_run, hf]
  dsimp only
  rw [bind_run, hc]
  dsimp only
  rw [bind_run, hr]
  dsimp only
  rw [bind_run, hw]
  dsimp only
  rw [bind_run, get_run]
  dsimp only
  rw [bind_run, e5]
  dsimp only
  rw [show (envL ft).classInfo p!"m.L" = { base := .list, numFields := some 1 } from rfl, ei]
  dsimp only
  have hsw : swapref s.heap.length (.ref s5.heap.length) { s5 with heap := (s5.heap ++ [Obj.inst i]).set s.heap.length (.proxy (some (.ref s5.heap.length))) } = some (.ok (), s6) := by
    unfold swapref
    simp only [hm]
    rw [← hs6]
    rfl
  rw [bind_run]
  show (setCell s.heap.length (.proxy (some (.ref s5.heap.length))) >>= _) { s5 with heap := s5.heap ++ [Obj.inst i] } = _
  rw [bind_run]
  show (swapref s.heap.length (.ref s5.heap.length) >>= _) { s5 with heap := (s5.heap ++ [Obj.inst i]).set s.heap.length (.proxy (some (.ref s5.heap.length))) } = _
  rw [bind_run, hsw]
  dsimp only
  rw [hi]
  dsimp only
  rw [if_neg (by decide)]
  have hv : restoreVariables (envL ft) rs s5.heap.length [(p!"py/object", .str p!"m.L"), (p!"py/seq", .arr [j])] s6 = some (.ok (.ref s5.heap.length), s7) := by
    show (restoreSeq rs s5.heap.length (.arr [j]) >>= fun _ => (pure (Val.ref s5.heap.length) : U Val)) s6 = _
    rw [bind_run, e7]
    rfl
  rw [bind_run, hv]
  dsimp only
  rw [bind_run, e8]
  rfl

theorem grows_nest (ft : JsonText.FloatText) : ∀ n : Nat, Grows (restore (envL ft) (2 * n + 1) (nest n)) (2 ^ n - 1)
  | 0 => grows_pure _
  | n + 1 => by
    have h := grows_nest ft n
    have h1 : Grows (restore (envL ft) (2 * n + 2) (nest n)) (2 ^ n - 1) := by
      intro s
      obtain ⟨a, s', e, u⟩ := h s
      exact ⟨a, s', le_restore (2 * n + 1) 1 _ _ _ e, u⟩
    have h2 := grows_instance (ft := ft) h1 (grows_arr h)
    have h3 : Grows (restore (envL ft) (2 * (n + 1) + 1) (nest (n + 1))) (1 + (1 + (2 * (2 ^ n - 1) + 2))) := by
      show Grows (emit (.imp p!"m.L") >>= fun _ => emit (.obj p!"m.L") >>= fun _ => restoreInstance (envL ft) (restore (envL ft) (2 * n + 2)) p!"m.L" [(p!"py/object", .str p!"m.L"), (p!"py/seq", .arr [nest n])]) _
      exact grows_bind (grows_emit _) (fun _ => grows_bind (grows_emit _) (fun _ => h2))
    intro s
    obtain ⟨a, s', e, u⟩ := h3 s
    refine ⟨a, s', e, u.le ?_⟩
    have := Nat.one_le_two_pow (n := n)
    rw [Nat.pow_succ]
    omega

/-- the text is short -/
theorem nest_text (ft : JsonText.FloatText) : ∀ n : Nat, (JsonText.dumps ft (nest n)).length = 34 * n + 4
  | 0 => rfl
  | n + 1 => by
    have := nest_text ft n
    simp only [nest, JsonText.dumps, JsonText.dumpsKv, JsonText.dumpsL, List.length_cons, List.length_append, List.length_nil, this]
    have h1 : (JsonText.escStr p!"py/object").length = 10 := by decide
    have h2 : (JsonText.escStr p!"m.L").length = 4 := by decide
    have h3 : (JsonText.escStr p!"py/seq").length = 7 := by decide
    rw [h1, h2, h3]
    omega

theorem nest_writable : ∀ n : Nat, (nest n).Writable
  | 0 => trivial
  | n + 1 => by
    have hs : ∀ s : Str, s.all (· < 128) = true → StrOk s := by
      intro s h
      rw [List.all_eq_true] at h
      refine ⟨fun c hc => ?_, fun pre hi lo post e hh => ?_⟩
      · have := of_decide_eq_true (h c hc)
        omega
      · have := of_decide_eq_true (h hi (by rw [e]; simp))
        omega
    refine ⟨by simp, hs _ (by decide), hs _ (by decide), hs _ (by decide), ⟨nest_writable n, trivial⟩, trivial⟩

/-- Without the condition the number of calls can be exponential in the length of the text: with `class L(list): _fields = ("x",)` the
elements of an `L` are restored twice, as arguments of `L.__new__` and again as elements. -/
theorem exponential (ft : JsonText.FloatText) (hl : ft.Lawful) (n m : Nat) (hm : 2 * n < m) (u : UState) : ∃ text r u', text.length = 34 * n + 4 ∧
    Api.decode (envL ft) m text true true u = some (r, u') ∧ u.log.length + (2 ^ n - 1) ≤ u'.log.length := by
  have hg := grows_nest ft n { u with objs := [], idx := [], proxies := [] }
  obtain ⟨v, s', e, h⟩ := hg
  obtain ⟨k, rfl⟩ := Nat.exists_eq_add_of_le (Nat.succ_le_of_lt hm)
  have e := le_restore (2 * n + 1) k _ _ _ e
  obtain ⟨r2, s2, e2, -, -⟩ := fin_swapProxies (H := True) s'
  have h2 : s'.log.length ≤ s2.log.length := by
    obtain ⟨evs, h2, -⟩ := Traced.swapProxies (env := envL ft) (G := fun _ _ => True) ⟨fun _ => trivial, fun _ _ => trivial, fun _ _ => trivial, fun _ => trivial, fun _ => trivial, fun _ _ => trivial, fun _ _ => trivial, fun _ _ => trivial, fun _ _ => trivial, fun _ _ => trivial⟩ s' r2 s2 e2
    rw [h2, List.length_append]
    omega
  have hlog := h.log
  have hd : ∃ r u', Api.decode (envL ft) (2 * n + 1 + k) (JsonText.dumps ft (nest n)) true true u = some (r, u') ∧ u'.log = s2.log := by
    unfold Api.decode
    rw [show (envL ft).loads (JsonText.dumps ft (nest n)) = some (nest n) from JsonText.loads_dumps hl _ (nest_writable n)]
    dsimp only
    have ht : restoreTop (envL ft) (2 * n + 1 + k) (nest n) true u = (swapProxies >>= fun _ => (pure v : U Val)) s' := by
      show (restore (envL ft) (2 * n + 1 + k) (nest n) >>= fun v => swapProxies >>= fun _ => (pure v : U Val)) { u with objs := [], idx := [], proxies := [] } = _
      rw [bind_run, e]
    rw [bind_run, ht, bind_run, e2]
    cases r2 with
    | error e => exact ⟨_, _, rfl, rfl⟩
    | ok _ => exact ⟨_, _, rfl, rfl⟩
  obtain ⟨r, u', h3, h4⟩ := hd
  refine ⟨JsonText.dumps ft (nest n), r, u', nest_text ft n, h3, ?_⟩
  rw [h4]
  exact Nat.le_trans hlog h2

theorem not_linear : ¬ ∀ (env : UEnv) (ft : JsonText.FloatText), ft.Lawful → env.loads = JsonText.loads ft → ∃ k, ∀ (text : Str) (n : Nat), text.length < n →
    ∀ r u', Api.decode env n text true true {} = some (r, u') → u'.log.length ≤ k * text.length := by
  intro h
  obtain ⟨k, hk⟩ := h (envL C41.sampleFloat) C41.sampleFloat C41.sampleFloat_lawful rfl
  have hp : ∀ n : Nat, n * n ≤ 2 ^ (2 * n) := by
    intro n
    have h1 : n ≤ 2 ^ n := Nat.le_of_lt Nat.lt_two_pow_self
    have := Nat.mul_le_mul h1 h1
    rwa [← Nat.pow_add, ← Nat.two_mul] at this
  obtain ⟨text, v, u', h1, h2, h3⟩ := exponential C41.sampleFloat C41.sampleFloat_lawful (2 * (200 * k + 200)) (34 * (2 * (200 * k + 200)) + 5) (by omega) {}
  have h4 := hk text _ (by omega) _ _ h2
  have h5 := hp (200 * k + 200)
  rw [h1] at h4
  have h6 : k * (34 * (2 * (200 * k + 200)) + 4) + 1 < (200 * k + 200) * (200 * k + 200) := by
    have e1 : k * (34 * (2 * (200 * k + 200)) + 4) = 13600 * (k * k) + 13604 * k := by
      simp only [Nat.mul_add]
      have : ∀ c, k * (c * k) = c * (k * k) := fun c => by rw [Nat.mul_left_comm]
      rw [show 34 * (2 * (200 * k)) = 13600 * k by omega, this]
      omega
    have e2 : (200 * k + 200) * (200 * k + 200) = 40000 * (k * k) + 80000 * k + 40000 := by
      rw [Nat.mul_add, Nat.add_mul, Nat.mul_mul_mul_comm]
      omega
    rw [e1, e2]
    omega
  have : ([] : List Event).length = 0 := rfl
  dsimp only at h3
  omega

example : ∃ text r u', text.length = 344 ∧ Api.decode (envL C41.sampleFloat) 345 text true true {} = some (r, u') ∧ 1023 ≤ u'.log.length := by
  obtain ⟨text, v, u', h1, h2, h3⟩ := exponential C41.sampleFloat C41.sampleFloat_lawful 10 345 (by omega) {}
  exact ⟨text, v, u', h1, h2, by simpa using h3⟩

end JP.C77
