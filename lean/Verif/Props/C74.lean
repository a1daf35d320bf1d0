import Verif.StdObjects
import Verif.Props.C51
import Verif.Props.C52
import Verif.Proofs.RoundTrip
import Verif.Proofs.SimDate
import Verif.Proofs.Run
import Verif.SampleCovered
/-!
# C74 — dates, UUIDs, arrays, patterns, locks and queues anywhere in a graph come back

C51 and C52 are about the handlers alone.  Here they meet the rest of the library: what a handler writes is what `encode` writes for the instance that
stands for the object (`flatten_*`), what it reads is what `decode` reads (`restore_*`), and wherever such an object sits in a covered graph, the object
at the same place of the result reads back as the same date, UUID and so on.
-/
namespace JP.C74
open JP PyM Handlers Std Pickler

section Encoder
variable {w : World} {cfg : PCfg} {n : Nat} {a : Addr} {i : Inst}

theorem scalar_str (s : Str) : flatten w cfg (n + 1) (.str s) = pure (.str s) := rfl
theorem scalar_int (k : Int) : flatten w cfg (n + 1) (.int k) = pure (.int k) := rfl
theorem scalar_bool (b : Bool) : flatten w cfg (n + 1) (.bool b) = pure (.bool b) := rfl

/-- what `DatetimeHandler.flatten` writes -/
theorem flatten_date (hh : w.handler i.cls = some .datetime) (he : i.errs.handler = none) (t : Temporal) (ht : StandsFor w.heap i (.temporal t)) (iso : Str)
    (hs : w.pystr (.ref a) = .ok iso) (fl : Val → P Json) :
    flattenInst w cfg fl a i = datetimeFlatten fl cfg.unpicklable iso i.cls t (objTag cfg i) := by
  cases ht with
  | temporal l hf =>
    unfold flattenInst datetimeFlatten
    rw [hh]
    simp only [flattenDate, he]
    cases hu : cfg.unpicklable with
    | false =>
      simp only [Bool.not_false, Bool.false_eq_true, if_false, if_true, hs]
      rfl
    | true =>
      simp only [Bool.not_true, Bool.false_eq_true, if_false, if_true]
      have h1 : i.hfields.tail.map (·.2) = t.reduce.2 ++ [.type i.cls] := by
        rw [hf]
        simp [Function.comp_def]
      have h2 : dateText i.hfields = b64encode t.reduce.1 := by rw [hf]; rfl
      rw [h1, h2, mapM_append]
      simp only [bind_assoc', mapM_cons, mapM_nil]
      congr 1
      funext js
      congr 1
      funext c
      simp only [pure_bind', List.getLastD_concat, List.dropLast_concat]
      rfl

/-- what `UUIDHandler.flatten` writes -/
theorem flatten_uuid (hh : w.handler i.cls = some .record) (he : i.errs.handler = none) (u : UUID) (hu : StandsFor w.heap i (.uuid u)) :
    flattenInst w cfg (flatten w cfg (n + 1)) a i = pure (uuidFlatten u (objTag cfg i)) := by
  cases hu with
  | uuid hf =>
    unfold flattenInst
    rw [hh, hf, he]
    rfl

/-- what `LockHandler.flatten` writes -/
theorem flatten_lock (hh : w.handler i.cls = some .record) (he : i.errs.handler = none) (b : Bool) (hb : StandsFor w.heap i (.lock b)) :
    flattenInst w cfg (flatten w cfg (n + 1)) a i = pure (lockFlatten b (objTag cfg i)) := by
  cases hb with
  | lock hf =>
    unfold flattenInst
    rw [hh, hf, he]
    rfl

/-- what `RegexHandler.flatten` writes -/
theorem flatten_regex (hh : w.handler i.cls = some .record) (he : i.errs.handler = none) (s : Str) (k : Nat) (hr : StandsFor w.heap i (.regex s k)) :
    ∃ d, dumpable (regexFlatten (.text s) k (objTag cfg i)) = .ok d ∧ flattenInst w cfg (flatten w cfg (n + 1)) a i = pure (.obj d) := by
  cases hr with
  | regex hf =>
    refine ⟨dset p!"flags" (.int k) (dset p!"pattern" (.str s) (objTag cfg i)), ?_, ?_⟩
    · unfold regexFlatten objTag
      cases cfg.unpicklable <;> rfl
    · unfold flattenInst
      rw [hh, hf, he]
      rfl

/-- what `ArrayHandler.flatten` writes; the list is what `tolist` made -/
theorem flatten_array (hh : w.handler i.cls = some .record) (he : i.errs.handler = none) (tc : Nat) (b : Addr)
    (hf : i.hfields = [(p!"typecode", .str [tc]), (p!"values", .ref b)]) :
    flattenInst w cfg (flatten w cfg (n + 1)) a i = arrayFlatten (flatten w cfg (n + 1)) tc (.ref b) (objTag cfg i) := by
  unfold flattenInst arrayFlatten
  rw [hh, hf, he]
  simp only [foldM_cons, foldM_nil, scalar_str, pure_bind', bind_assoc']
  rfl

/-- what `QueueHandler.flatten` writes -/
theorem flatten_queue (hh : w.handler i.cls = some .opaque) (he : i.errs.handler = none) (q : Queue) (fl : Val → P Json) :
    flattenInst w cfg fl a i = pure (queueFlatten q (objTag cfg i)) := by
  unfold flattenInst
  rw [hh, he]
  rfl

end Encoder

section Decoder
open Unpickler
variable {env : UEnv} {n : Nat} {c : Str} {u : UState}

/-- what `DatetimeHandler.restore` reads, whatever the document -/
theorem restore_date (rs : Json → U Val) (kvs : List (Str × Json)) (x : Val) (u2 : UState) (h : handlerRestore env rs .datetime c kvs u = some (.ok x, u2)) :
    ∃ u1 i, x = .ref u1.heap.length ∧ u2 = { u1 with heap := u1.heap ++ [.inst i], log := u1.log ++ [.call i.cls] } ∧
      ∀ kindOf isTz k, kindOf (.type i.cls) = some k → datetimeRestore rs kindOf isTz kvs u = some (readDate isTz k i, u1) := by
  simp only [handlerRestore, restoreDate] at h
  obtain ⟨r, u3, h1, h⟩ := bind_eq_ok.1 h
  obtain ⟨parts, u4, h2, h⟩ := bind_eq_ok.1 h
  split at h
  · next c' a =>
    obtain ⟨cls, u5, h3, h⟩ := bind_eq_ok.1 h
    obtain ⟨pa, u6, h4, h⟩ := bind_eq_ok.1 h
    obtain ⟨b, u7, h5, h⟩ := bind_eq_ok.1 h
    obtain ⟨params, u8, h6, h⟩ := bind_eq_ok.1 h
    cases cls with
    | type m =>
      simp only at h
      obtain ⟨_, u9, h7, h⟩ := bind_eq_ok.1 h
      obtain ⟨b', u10, h8, h⟩ := bind_eq_ok.1 h
      cases h7
      cases h8
      cases h
      refine ⟨u8, _, rfl, rfl, fun kindOf isTz k hk => ?_⟩
      unfold datetimeRestore
      refine (bind_ok h1).trans ?_
      refine (bind_ok h2).trans ?_
      refine (bind_ok h3).trans ?_
      refine (bind_ok h4).trans ?_
      refine (bind_ok h5).trans ?_
      refine (bind_ok h6).trans ?_
      simp only [hk, readDate]
      simp only [List.cons_append, List.dropLast_concat, List.map_map, Function.comp_def, List.map_id']
      cases Temporal.new isTz k b params <;> rfl
    | _ => cases h
  · cases h

/-- what `UUIDHandler.restore` reads from the document of a UUID -/
theorem restore_uuid (x : UUID) (d : List (Str × Json)) (h : uuidFlatten x [(Tags.OBJECT, .str c)] = .obj d) :
    ∃ i, handlerRestore env (restore env (n + 1)) .record c d u = some (.ok (.ref u.heap.length), { u with heap := u.heap ++ [.inst i] }) ∧
      i.cls = c ∧ readUUID i = uuidRestore d := by
  cases h
  exact ⟨_, rfl, rfl, rfl⟩

/-- what `LockHandler.restore` reads from the document of a lock -/
theorem restore_lock (b : Bool) (d : List (Str × Json)) (h : lockFlatten b [(Tags.OBJECT, .str c)] = .obj d) :
    ∃ i, handlerRestore env (restore env (n + 1)) .record c d u = some (.ok (.ref u.heap.length), { u with heap := u.heap ++ [.inst i] }) ∧
      i.cls = c ∧ readLock i = lockRestore d := by
  cases h
  exact ⟨_, rfl, rfl, by cases b <;> rfl⟩

/-- what `RegexHandler.restore` reads from the document of a pattern -/
theorem restore_regex (s : Str) (k : Nat) (d : List (Str × Json)) (h : dumpable (regexFlatten (.text s) k [(Tags.OBJECT, .str c)]) = .ok d) :
    ∃ i, handlerRestore env (restore env (n + 1)) .record c d u = some (.ok (.ref u.heap.length), { u with heap := u.heap ++ [.inst i] }) ∧
      i.cls = c ∧ regexRestore d = .ok (.str s, .int k) ∧ readRegex i = some (.str s, .int k) := by
  cases h
  exact ⟨_, rfl, rfl, rfl, rfl⟩

/-- what `ArrayHandler.restore` reads from the document of an array whose list of items was written as `j` -/
theorem restore_array (f32 : UInt64 → UInt64) (tc : Nat) (j : Json) (v : Val) (u1 : UState) (h : restore env (n + 1) j u = some (.ok v, u1)) :
    ∃ i, handlerRestore env (restore env (n + 1)) .record c [(Tags.OBJECT, .str c), (p!"typecode", .str [tc]), (p!"values", j)] u =
        some (.ok (.ref u1.heap.length), { u1 with heap := u1.heap ++ [.inst i] }) ∧ i.cls = c ∧
      arrayRestore f32 (restore env (n + 1)) [(Tags.OBJECT, .str c), (p!"typecode", .str [tc]), (p!"values", j)] u = some (readArray f32 u1.heap i, u1) := by
  refine ⟨{ cls := c, info := env.classInfo c, hfields := [(p!"typecode", .str [tc]), (p!"values", v)] }, ?_, rfl, ?_⟩
  · have hm : mapM (fun (kv : Str × Json) => do
        let v ← restore env (n + 1) kv.2
        pure (kv.1, v)) [(p!"typecode", Json.str [tc]), (p!"values", j)] u = some (.ok [(p!"typecode", .str [tc]), (p!"values", v)], u1) := by
      rw [mapM_cons]
      refine (bind_ok (a := (p!"typecode", Val.str [tc])) (s' := u) rfl).trans ?_
      rw [mapM_cons]
      refine (bind_ok (a := [(p!"values", v)]) (s' := u1) ?_).trans rfl
      refine (bind_ok (a := (p!"values", v)) (s' := u1) ?_).trans rfl
      exact (bind_ok h).trans rfl
    exact (bind_ok (s' := u1) hm).trans rfl
  · unfold arrayRestore
    refine (bind_ok (a := .str [tc]) (s' := u) rfl).trans ?_
    refine (bind_ok (a := j) (s' := u) rfl).trans ?_
    refine (bind_ok h).trans ?_
    refine (bind_ok (a := u1.heap) (s' := u1) rfl).trans ?_
    have hr : readArray f32 u1.heap { cls := c, info := env.classInfo c, hfields := [(p!"typecode", .str [tc]), (p!"values", v)] } = (match v with
        | .ref a => match u1.heap[a]? with
          | some (.list xs) => (arrayNew f32 tc xs).map (fun ys => (tc, ys))
          | _ => .error .typeError
        | _ => .error .typeError) := by
      cases v <;> rfl
    rw [hr]
    cases v with
    | ref a =>
      cases ho : u1.heap[a]? with
      | none => simp only [ho]; rfl
      | some o =>
        cases o with
        | list xs =>
          simp only [ho]
          cases arrayNew f32 tc xs <;> rfl
        | _ => simp only [ho]; rfl
    | _ => rfl

end Decoder

/-! ### in a graph -/

/-- the objects that can exist -/
def Valid (f32 : UInt64 → UInt64) : Std.Obj → Prop
  | .temporal t => C51.Valid t
  | .uuid u => u.int < 2 ^ 128
  | .array tc xs => ∃ vs, arrayNew f32 tc vs = .ok xs
  | _ => True

def OptIso (R : Addr → Addr → Prop) : Option Val → Option Val → Prop
  | none, none => True
  | some z, some z' => VIso R z z'
  | _, _ => False

/-- The second object is the first one come back: the same date and time with the corresponding time zone, except that `fold` is 0; the same number, except that
`is_safe` is not known; the same type code and items; the same pattern and flags; locked if it was.  A queue comes back empty and unbounded. -/
def Back (R : Addr → Addr → Prop) : Std.Obj → Std.Obj → Prop
  | .temporal t, .temporal t' => ∃ tz', t' = C51.withTz t tz' ∧ OptIso R (C51.tz t) tz'
  | .uuid u, .uuid u' => u' = { int := u.int }
  | .lock b, .lock b' => b' = b
  | .regex s k, .regex s' k' => s' = s ∧ k' = k
  | .array tc xs, .array tc' xs' => tc' = tc ∧ xs' = xs
  | .queue _, .queue q' => q'.items = [] ∧ q'.maxsize = 0
  | _, _ => False

theorem stored_int {lo hi : Int} {v x : Val} (h : intItem lo hi v = .ok x) : ∃ k, x = .int k := by
  unfold intItem at h
  split at h
  · split at h
    · cases h; exact ⟨_, rfl⟩
    · cases h
  · cases h; exact ⟨_, rfl⟩
  · cases h

theorem stored_item {f32 : UInt64 → UInt64} {tc : Nat} {v x : Val} (h : arrayItem f32 tc v = .ok x) : (∃ k, x = .int k) ∨ (∃ c, x = .str c) ∨ (∃ b, x = .float b) := by
  unfold arrayItem at h
  by_cases hc : tc = 98
  · rw [if_pos hc] at h; exact .inl (stored_int h)
  rw [if_neg hc] at h; clear hc
  by_cases hc : tc = 66
  · rw [if_pos hc] at h; exact .inl (stored_int h)
  rw [if_neg hc] at h; clear hc
  by_cases hc : tc = 104
  · rw [if_pos hc] at h; exact .inl (stored_int h)
  rw [if_neg hc] at h; clear hc
  by_cases hc : tc = 72
  · rw [if_pos hc] at h; exact .inl (stored_int h)
  rw [if_neg hc] at h; clear hc
  by_cases hc : tc = 105
  · rw [if_pos hc] at h; exact .inl (stored_int h)
  rw [if_neg hc] at h; clear hc
  by_cases hc : tc = 73
  · rw [if_pos hc] at h; exact .inl (stored_int h)
  rw [if_neg hc] at h; clear hc
  by_cases hc : tc = 108 ∨ tc = 113
  · rw [if_pos hc] at h; exact .inl (stored_int h)
  rw [if_neg hc] at h; clear hc
  by_cases hc : tc = 76 ∨ tc = 81
  · rw [if_pos hc] at h; exact .inl (stored_int h)
  rw [if_neg hc] at h; clear hc
  by_cases hc : tc = 117 ∨ tc = 119
  · rw [if_pos hc] at h
    split at h
    · cases h; exact .inr (.inl ⟨_, rfl⟩)
    · cases h
  rw [if_neg hc] at h; clear hc
  by_cases hc : tc = 102
  · rw [if_pos hc] at h
    split at h
    · cases h; exact .inr (.inr ⟨_, rfl⟩)
    · cases h
  rw [if_neg hc] at h; clear hc
  by_cases hc : tc = 100
  · rw [if_pos hc] at h
    split at h
    · cases h; exact .inr (.inr ⟨_, rfl⟩)
    · cases h
  rw [if_neg hc] at h; clear hc
  cases h

/-- an array's items do not contain references -/
theorem items_iso {R : Addr → Addr → Prop} {f32 : UInt64 → UInt64} {tc : Nat} : ∀ {vs xs ys : List Val}, arrayNew f32 tc vs = .ok xs → VIsos R xs ys → ys = xs
  | [], xs, ys, h, hi => by
    unfold arrayNew at h
    split at h
    · injection h with h
      subst h
      cases ys with
      | nil => rfl
      | cons y ys => cases hi
    · cases h
  | v :: vs, xs, ys, h, hi => by
    unfold arrayNew at h
    cases hx : arrayItem f32 tc v with
    | error e => rw [hx] at h; cases h
    | ok x =>
      rw [hx] at h
      simp only at h
      cases hr : arrayNew f32 tc vs with
      | error e => rw [hr] at h; cases h
      | ok zs =>
        rw [hr] at h
        injection h with h
        subst h
        cases ys with
        | nil => cases hi
        | cons y ys =>
          obtain ⟨h1, h2⟩ := hi
          have hs := stored_item hx
          have : y = x := by
            rcases hs with ⟨k, rfl⟩ | ⟨k, rfl⟩ | ⟨k, rfl⟩ <;> cases y <;> simp only [VIso] at h1 <;> rw [h1]
          rw [this, items_iso hr h2]

/-- the fields correspond, so the object reads back -/
theorem reads_back {R : Addr → Addr → Prop} {h h' : Heap} {i i' : Inst} {o : Std.Obj} {order : List (Val × Val) → List (Val × Val)} {handled : Str → Bool}
    (hR : ∀ a b, R a b → ∃ o o', h[a]? = some o ∧ h'[b]? = some o' ∧ SameCell order handled h h' R o o')
    (isTz : Val → Bool) (f32 : UInt64 → UInt64) (hf : C52.Rounding f32) (hs : StandsFor h i o) (hv : Valid f32 o) (hi : FieldsIso R i.hfields i'.hfields)
    (ht : isTz .none = false) (hz : ∀ t z z', o = .temporal t → C51.tz t = some z → VIso R z z' → isTz z' = true) :
    ∃ o', Back R o o' ∧ Reads isTz f32 h' i' o' := by
  cases hs with
  | @temporal t l e =>
    rw [e] at hi
    unfold FieldsIso at hi
    match hh : i'.hfields, hi with
    | (k, v) :: r', hi =>
      obtain ⟨⟨h1, h2⟩, h3⟩ := hi
      cases v <;> simp only [VIso] at h2
      rename_i l' b'
      subst h2
      rw [C51.reduce_args] at h3
      have key : ∃ tz', OptIso R (C51.tz t) tz' ∧ r'.dropLast.map (·.2) = tz'.toList := by
        cases hz : C51.tz t with
        | none =>
          rw [hz] at h3
          refine ⟨none, trivial, ?_⟩
          match r', h3 with
          | [_], _ => rfl
        | some z =>
          rw [hz] at h3
          match r', h3 with
          | [(kz, z'), _], h3 => exact ⟨some z', h3.1.2, rfl⟩
      obtain ⟨tz', k1, k2⟩ := key
      have hk : (C51.withTz t tz').kind = t.kind := by cases t <;> rfl
      refine ⟨.temporal (C51.withTz t tz'), ⟨tz', rfl, k1⟩, ?_⟩
      show readDate isTz (C51.withTz t tz').kind i' = _
      rw [hk]
      unfold readDate
      rw [hh]
      simp only [k2]
      refine C51.new_reduce isTz t hv tz' (fun e => ?_) (fun v e => ?_)
      · rw [e] at k1
        cases tz' with
        | none => rfl
        | some _ => cases k1
      · subst e
        cases hz' : C51.tz t with
        | none => rw [hz'] at k1; cases k1
        | some z =>
          rw [hz'] at k1
          have := hz t z v rfl hz' k1
          refine ⟨this, fun e => ?_⟩
          rw [e, ht] at this
          cases this
  | @uuid x e =>
    rw [e] at hi
    unfold FieldsIso at hi
    match hh : i'.hfields, hi with
    | [(k, v)], hi =>
      obtain ⟨⟨h1, h2⟩, -⟩ := hi
      cases v <;> simp only [VIso] at h2
      have h1 : _ = k := h1
      subst h1 h2
      refine ⟨.uuid { int := x.int }, rfl, ?_⟩
      simp only [Reads, readUUID, hh]
      exact C52.ofHex_hex _ hv
  | @lock b e =>
    rw [e] at hi
    unfold FieldsIso at hi
    match hh : i'.hfields, hi with
    | [(k, v)], hi =>
      obtain ⟨⟨h1, h2⟩, -⟩ := hi
      cases v <;> simp only [VIso] at h2
      have h1 : _ = k := h1
      subst h1 h2
      refine ⟨.lock b, rfl, ?_⟩
      simp only [Reads, readLock, hh]
      rfl
  | @regex p fl e =>
    rw [e] at hi
    unfold FieldsIso at hi
    match hh : i'.hfields, hi with
    | [(k, v), (k', v')], hi =>
      obtain ⟨⟨h1, h2⟩, ⟨h3, h4⟩, -⟩ := hi
      cases v <;> simp only [VIso] at h2
      cases v' <;> simp only [VIso] at h4
      have h1 : _ = k := h1
      have h3 : _ = k' := h3
      subst h1 h2 h3 h4
      refine ⟨.regex p fl, ⟨rfl, rfl⟩, ?_⟩
      simp only [Reads, readRegex, hh]
      rfl
  | @array tc xs a e ha =>
    rw [e] at hi
    unfold FieldsIso at hi
    match hh : i'.hfields, hi with
    | [(k, v), (k', v')], hi =>
      obtain ⟨⟨h1, h2⟩, ⟨h3, h4⟩, -⟩ := hi
      cases v <;> simp only [VIso] at h2
      cases v' <;> simp only [VIso] at h4
      rename_i b
      have h1 : _ = k := h1
      have h3 : _ = k' := h3
      subst h1 h2 h3
      obtain ⟨c, c', e1, e2, e3⟩ := hR a b h4
      rw [ha] at e1
      cases e1
      cases c' <;> simp only [SameCell] at e3
      rename_i ys
      obtain ⟨vs, hvs⟩ := hv
      cases items_iso hvs e3
      refine ⟨.array tc xs, ⟨rfl, rfl⟩, ?_⟩
      have : readArray f32 h' i' = (arrayNew f32 tc xs).map (fun ys => (tc, ys)) := by
        unfold readArray
        rw [hh]
        show (match h'[b]? with
          | some (.list xs) => _
          | _ => _) = _
        rw [e2]
      simp only [Reads]
      rw [this, C52.arrayNew_stored hf hvs]
      rfl
  | @queue q e => exact ⟨.queue { items := [], maxsize := 0 }, ⟨rfl, rfl⟩, rfl, rfl⟩

/-- **C74**.  In a graph that round-trips, the object at the path `ps` is a date, time, UUID, lock, pattern, array or queue.  At the same path of the result is an
object of the same class, from whose fields `restore` makes the same date, time and so on (`Back`).  `isTz` tells the objects that `datetime` accepts as time
zones; what corresponds to the time zone must be one.  The rest of the result is the same graph (`SameCell`): a time zone shared by two dates is one object
in the result too. -/
theorem std_objects (w : World) (cfg : PCfg) (env : UEnv) (v x : Val) (text : Str) (u u' : UState)
    (hc : Covered w cfg env v) (he : Encodes w cfg v text) (hd : Decodes env text u x u')
    (ps : List Access) (a : Addr) (i : Inst) (o : Std.Obj)
    (hp : walk (writeOrder cfg.keys) (saved (hasHandler w) w.heap) w.heap v ps = some (.ref a))
    (ha : w.heap[a]? = some (.inst i)) (hh : w.handler i.cls = some o.kind) (hs : StandsFor w.heap i o)
    (f32 : UInt64 → UInt64) (hf : C52.Rounding f32) (hv : Valid f32 o) :
    ∃ R : Addr → Addr → Prop, (∀ a b b', R a b → R a b' → b = b') ∧ (∀ a a' b, R a b → R a' b → a = a') ∧
      (∀ a b, R a b → ∃ o o', w.heap[a]? = some o ∧ u'.heap[b]? = some o' ∧
        SameCell (writeOrder cfg.keys) (hasHandler w) w.heap u'.heap R o o') ∧
      VIso R v x ∧
      ∃ b i', walk id anyPart u'.heap x ps = some (.ref b) ∧ u'.heap[b]? = some (.inst i') ∧ R a b ∧ i'.cls = i.cls ∧
        ∀ isTz : Val → Bool, isTz .none = false → (∀ t z z', o = .temporal t → C51.tz t = some z → VIso R z z' → isTz z' = true) →
          ∃ o', Back R o o' ∧ Reads isTz f32 u'.heap i' o' := by
  obtain ⟨R, f, g, hiso, hR⟩ := hc.graph he hd
  refine ⟨R, f, g, hR, hiso, ?_⟩
  obtain ⟨z, h1, h2⟩ := walk_iso hR ps hiso hp
  cases z <;> simp only [VIso] at h2
  rename_i b
  obtain ⟨o1, o', e1, e2, e3⟩ := hR a b h2
  rw [ha] at e1
  cases e1
  cases o' <;> simp only [SameCell] at e3
  rename_i i'
  have hq : hasHandler w i.cls = true := by simp only [hasHandler, hh, Option.isSome]
  cases e3 with
  | handled _ q1 _ q2 => exact ⟨b, i', h1, e2, h2, q1, fun isTz ht hz => reads_back hR isTz f32 hf hs hv q2 ht hz⟩
  | reduced q => rw [hq] at q; cases q
  | fields q => rw [hq] at q; cases q
  | state q => rw [hq] at q; cases q
  | stateAttrs q => rw [hq] at q; cases q

/-! ### an example -/

section Example
open Sample

/-- `datetime.timezone` and `datetime.timedelta` define `__reduce__` -/
def infoZ : ClassInfo := { hasDict := false, reduces := true }

def prog : Program where
  infos := [(p!"datetime.datetime", {}), (p!"datetime.time", {}), (p!"datetime.timezone", infoZ), (p!"datetime.timedelta", infoZ),
    (p!"uuid.UUID", {}), (p!"array.array", {}), (p!"_thread.lock", {}), (p!"re.Pattern", {}), (p!"queue.Queue", {})]
  handlers := [(p!"datetime.datetime", .datetime), (p!"datetime.time", .datetime), (p!"uuid.UUID", .record), (p!"array.array", .record),
    (p!"_thread.lock", .record), (p!"re.Pattern", .record), (p!"queue.Queue", .opaque)]

/-- 2026-11-15 14:08:20.000007, `fold=1`, in the time zone `timezone(timedelta(hours=1))` -/
def moment : Temporal := .datetime 2026 11 15 14 8 20 7 true (some (.ref 2))
/-- 23:59:00 in the same time zone -/
def hour : Temporal := .time 23 59 0 0 false (some (.ref 2))

/-- `[moment, hour, uuid, array("d", [0.5, -0.0]), lock, re.compile("a+"), queue, zone]` -/
def heap : Heap := [
  .list [.ref 1, .ref 4, .ref 5, .ref 6, .ref 8, .ref 9, .ref 10, .ref 2],
  .inst { cls := p!"datetime.datetime", info := {}, hfields := [(p!"state", .bytes 1 [7, 234, 11, 15, 14, 8, 20, 0, 0, 7]), (p!"tzinfo", .ref 2), (p!"class", .type p!"datetime.datetime")] },
  .inst { cls := p!"datetime.timezone", info := infoZ, reduce := .tup [.type p!"datetime.timezone", .tuple 2 [.ref 3]] },
  .inst { cls := p!"datetime.timedelta", info := infoZ, reduce := .tup [.type p!"datetime.timedelta", .tuple 3 [.int 0, .int 3600, .int 0]] },
  .inst { cls := p!"datetime.time", info := {}, hfields := [(p!"state", .bytes 4 [23, 59, 0, 0, 0, 0]), (p!"tzinfo", .ref 2), (p!"class", .type p!"datetime.time")] },
  .inst { cls := p!"uuid.UUID", info := {}, hfields := [(p!"hex", .str p!"6ba7b8109dad11d180b400c04fd430c8")] },
  .inst { cls := p!"array.array", info := {}, hfields := [(p!"typecode", .str p!"d"), (p!"values", .ref 7)] },
  .list [.float 0x3fe0000000000000, .float 0x8000000000000000],
  .inst { cls := p!"_thread.lock", info := {}, hfields := [(p!"locked", .bool true)] },
  .inst { cls := p!"re.Pattern", info := {}, hfields := [(p!"pattern", .str p!"a+"), (p!"flags", .int 32)] },
  .inst { cls := p!"queue.Queue", info := {} }]

/-- the cells `S` refer only to each other, and so does the value -/
def closedSet (S : List Addr) (v : Val) : Bool :=
  (refs v).all S.contains && heap.zipIdx.all (fun p => !S.contains p.2 || p.1.parts.all (fun x => (refs x).all S.contains))

theorem noReach {S : List Addr} {v : Val} {b : Addr} (hs : closedSet S v = true) (hb : S.contains b = false) : ¬ Reach heap v b := by
  intro h
  simp only [closedSet, Bool.and_eq_true] at hs
  have := reach_closed (S := fun a => S.contains a = true) ?_ h (fun a ha => List.all_eq_true.1 hs.1 a ha)
  · rw [hb] at this
    cases this
  · intro a o ho ha x hx b hb
    have := List.all_eq_true.1 hs.2 (o, a) (List.mem_zipIdx_iff_getElem?.2 ho)
    simp only [ha, Bool.not_true, Bool.false_or] at this
    exact List.all_eq_true.1 (List.all_eq_true.1 this x hx) b hb

theorem heap_covered : Covered (prog.world heap) {} prog.env (.ref 0) where
  matching := prog.matching heap {} rfl rfl rfl
  plain := prog.plain _
  safe := safeOk_none rfl
  supported := by
    refine supported_of trivial (by decide) (by decide) (by decide) (fun a ha => ?_)
    have ha : a < 11 := ha
    match a, ha with
    | 0, _ => exact .list ⟨trivial, trivial, trivial, trivial, trivial, trivial, trivial, trivial, trivial⟩
    | 1, _ =>
      refine .handled ⟨rfl, rfl, .inr (.inr ⟨rfl, asciiStr_ok (by decide), _, _, [(p!"tzinfo", .ref 2)], rfl, by decide⟩), ?_, by decide, ?_⟩
      · simp only [List.mem_cons, List.not_mem_nil, or_false]
        rintro kv (rfl | rfl | rfl)
        · exact ⟨by decide, trivial⟩
        · exact ⟨by decide, trivial⟩
        · exact ⟨by decide, rfl⟩
      · simp only [List.mem_cons, List.not_mem_nil, or_false]
        rintro kv (rfl | rfl | rfl) h
        · cases h
        · exact noReach (S := [2, 3]) (by decide) (by decide) h
        · cases h
    | 2, _ =>
      refine .reduced ⟨rfl, rfl, .type p!"datetime.timezone", .tuple 2 [.ref 3], [], rfl, by decide, ⟨rfl, ⟨trivial, trivial⟩, trivial⟩,
        .type (by decide) rfl rfl, ?_, by decide, (fun x hx => by cases hx), [], ?_⟩
      · simp only [List.mem_cons, List.not_mem_nil, or_false]
        rintro x (rfl | rfl) h
        · cases h
        · exact noReach (S := [3]) (by decide) (by decide) h
      · exact ⟨_, _, _, _, _, _, _, _, _, rfl, .nothing rfl, .nothing rfl, .nothing rfl, rfl⟩
    | 3, _ =>
      refine .reduced ⟨rfl, rfl, .type p!"datetime.timedelta", .tuple 3 [.int 0, .int 3600, .int 0], [], rfl, by decide, ⟨rfl, ⟨trivial, trivial, trivial, trivial⟩, trivial⟩,
        .type (by decide) rfl rfl, ?_, by decide, (fun x hx => by cases hx), [], ?_⟩
      · simp only [List.mem_cons, List.not_mem_nil, or_false]
        rintro x (rfl | rfl) h
        · cases h
        · exact noReach (S := []) (by decide) (by decide) h
      · exact ⟨_, _, _, _, _, _, _, _, _, rfl, .nothing rfl, .nothing rfl, .nothing rfl, rfl⟩
    | 4, _ =>
      refine .handled ⟨rfl, rfl, .inr (.inr ⟨rfl, asciiStr_ok (by decide), _, _, [(p!"tzinfo", .ref 2)], rfl, by decide⟩), ?_, by decide, ?_⟩
      · simp only [List.mem_cons, List.not_mem_nil, or_false]
        rintro kv (rfl | rfl | rfl)
        · exact ⟨by decide, trivial⟩
        · exact ⟨by decide, trivial⟩
        · exact ⟨by decide, rfl⟩
      · simp only [List.mem_cons, List.not_mem_nil, or_false]
        rintro kv (rfl | rfl | rfl) h
        · cases h
        · exact noReach (S := [2, 3]) (by decide) (by decide) h
        · cases h
    | 5, _ =>
      refine .handled ⟨rfl, rfl, .inl rfl, ?_, by decide, ?_⟩
      · simp only [List.mem_cons, List.not_mem_nil, or_false]
        rintro kv rfl
        exact ⟨by decide, trivial⟩
      · simp only [List.mem_cons, List.not_mem_nil, or_false]
        rintro kv rfl h
        cases h
    | 6, _ =>
      refine .handled ⟨rfl, rfl, .inl rfl, ?_, by decide, ?_⟩
      · simp only [List.mem_cons, List.not_mem_nil, or_false]
        rintro kv (rfl | rfl)
        · exact ⟨by decide, trivial⟩
        · exact ⟨by decide, trivial⟩
      · simp only [List.mem_cons, List.not_mem_nil, or_false]
        rintro kv (rfl | rfl) h
        · cases h
        · exact noReach (S := [7]) (by decide) (by decide) h
    | 7, _ => exact .list ⟨trivial, trivial, trivial⟩
    | 8, _ =>
      refine .handled ⟨rfl, rfl, .inl rfl, ?_, by decide, ?_⟩
      · simp only [List.mem_cons, List.not_mem_nil, or_false]
        rintro kv rfl
        exact ⟨by decide, trivial⟩
      · simp only [List.mem_cons, List.not_mem_nil, or_false]
        rintro kv rfl h
        cases h
    | 9, _ =>
      refine .handled ⟨rfl, rfl, .inl rfl, ?_, by decide, ?_⟩
      · simp only [List.mem_cons, List.not_mem_nil, or_false]
        rintro kv (rfl | rfl)
        · exact ⟨by decide, trivial⟩
        · exact ⟨by decide, trivial⟩
      · simp only [List.mem_cons, List.not_mem_nil, or_false]
        rintro kv (rfl | rfl) h
        · cases h
        · cases h
    | 10, _ => exact .handled ⟨rfl, rfl, .inr (.inl ⟨rfl, rfl⟩), (fun kv h => by cases h), by decide, (fun kv h => by cases h)⟩
  text := textOk_of (by decide) (by decide)

/-- The datetime and the time come back with the same digits and the same new time zone object, which is the last element of the list. -/
example (text : Str) (x : Val) (u' : UState) (he : Encodes (prog.world heap) {} (.ref 0) text) (hd : Decodes prog.env text {} x u') :
    ∃ b1 i1 b2 i2 z, walk id anyPart u'.heap x [.elem 0] = some (.ref b1) ∧ u'.heap[b1]? = some (.inst i1) ∧
      walk id anyPart u'.heap x [.elem 1] = some (.ref b2) ∧ u'.heap[b2]? = some (.inst i2) ∧ walk id anyPart u'.heap x [.elem 7] = some z ∧
      ∀ isTz : Val → Bool, isTz .none = false → isTz z = true →
        readDate isTz .datetime i1 = .ok (.datetime 2026 11 15 14 8 20 7 false (some z)) ∧
        readDate isTz .time i2 = .ok (.time 23 59 0 0 false (some z)) := by
  obtain ⟨R, f, -, hR, hv, b1, i1, h1, h2, -, -, h3⟩ := std_objects _ _ _ _ _ _ _ _ heap_covered he hd [.elem 0] 1 _ (.temporal moment) rfl rfl rfl (.temporal 1 (by decide)) id (fun _ => rfl) (show _ ∧ _ by decide)
  obtain ⟨R', f', -, hR', hv', b2, i2, h4, h5, -, -, h6⟩ := std_objects _ _ _ _ _ _ _ _ heap_covered he hd [.elem 1] 4 _ (.temporal hour) rfl rfl rfl (.temporal 4 (by decide)) id (fun _ => rfl) (show _ ∧ _ by decide)
  obtain ⟨z, w1, w2⟩ := walk_iso hR [.elem 7] hv (y := .ref 2) rfl
  obtain ⟨z', w1', w2'⟩ := walk_iso hR' [.elem 7] hv' (y := .ref 2) rfl
  rw [w1] at w1'
  cases w1'
  refine ⟨b1, i1, b2, i2, z, h1, h2, h4, h5, w1, fun isTz hn hz => ⟨?_, ?_⟩⟩
  · obtain ⟨o', q1, q2⟩ := h3 isTz hn (by
      rintro t y y' e ht hy
      cases e
      cases ht
      cases z <;> simp only [VIso] at w2
      cases y' <;> simp only [VIso] at hy
      rw [f _ _ _ hy w2]
      exact hz)
    cases o' with
    | temporal t' =>
      obtain ⟨tz', rfl, k⟩ := q1
      cases tz' with
      | none => cases k
      | some y =>
        have k : VIso R (.ref 2) y := k
        have : y = z := by
          cases z <;> simp only [VIso] at w2
          cases y <;> simp only [VIso] at k
          rw [f _ _ _ k w2]
        subst this
        exact q2
    | _ => cases q1
  · obtain ⟨o', q1, q2⟩ := h6 isTz hn (by
      rintro t y y' e ht hy
      cases e
      cases ht
      cases z <;> simp only [VIso] at w2'
      cases y' <;> simp only [VIso] at hy
      rw [f' _ _ _ hy w2']
      exact hz)
    cases o' with
    | temporal t' =>
      obtain ⟨tz', rfl, k⟩ := q1
      cases tz' with
      | none => cases k
      | some y =>
        have k : VIso R' (.ref 2) y := k
        have : y = z := by
          cases z <;> simp only [VIso] at w2'
          cases y <;> simp only [VIso] at k
          rw [f' _ _ _ k w2']
        subst this
        exact q2
    | _ => cases q1

/-- The UUID comes back with its number, the array with its items, the lock locked, the pattern with its text and flags. -/
example (text : Str) (x : Val) (u' : UState) (he : Encodes (prog.world heap) {} (.ref 0) text) (hd : Decodes prog.env text {} x u') :
    (∃ b i, walk id anyPart u'.heap x [.elem 2] = some (.ref b) ∧ u'.heap[b]? = some (.inst i) ∧ readUUID i = .ok { int := 0x6ba7b8109dad11d180b400c04fd430c8 }) ∧
    (∃ b i, walk id anyPart u'.heap x [.elem 3] = some (.ref b) ∧ u'.heap[b]? = some (.inst i) ∧
      readArray id u'.heap i = .ok (100, [.float 0x3fe0000000000000, .float 0x8000000000000000])) ∧
    (∃ b i, walk id anyPart u'.heap x [.elem 4] = some (.ref b) ∧ u'.heap[b]? = some (.inst i) ∧ readLock i = true) ∧
    (∃ b i, walk id anyPart u'.heap x [.elem 5] = some (.ref b) ∧ u'.heap[b]? = some (.inst i) ∧ readRegex i = some (.str p!"a+", .int 32)) := by
  have hz : ∀ (o : Std.Obj) (R : Addr → Addr → Prop), (∀ t, o ≠ .temporal t) → ∀ t z z', o = .temporal t → C51.tz t = some z → VIso R z z' → (fun _ : Val => false) z' = true :=
    fun o R h t _ _ e => absurd e (h t)
  refine ⟨?_, ?_, ?_, ?_⟩
  · obtain ⟨R, -, -, -, -, b, i, h1, h2, -, -, h3⟩ := std_objects _ _ _ _ _ _ _ _ heap_covered he hd [.elem 2] 5 _ (.uuid { int := 0x6ba7b8109dad11d180b400c04fd430c8, isSafe := some true }) rfl rfl rfl (.uuid (by decide)) id (fun _ => rfl) (show _ < _ by decide)
    obtain ⟨o', q1, q2⟩ := h3 (fun _ => false) rfl (hz _ _ (fun t e => by cases e))
    cases o' <;> first | (cases q1; done) | exact ⟨b, i, h1, h2, by rw [← q1]; exact q2⟩
  · obtain ⟨R, -, -, -, -, b, i, h1, h2, -, -, h3⟩ := std_objects _ _ _ _ _ _ _ _ heap_covered he hd [.elem 3] 6 _ (.array 100 [.float 0x3fe0000000000000, .float 0x8000000000000000]) rfl rfl rfl (.array 7 rfl rfl) id (fun _ => rfl) ⟨[.float 0x3fe0000000000000, .float 0x8000000000000000], rfl⟩
    obtain ⟨o', q1, q2⟩ := h3 (fun _ => false) rfl (hz _ _ (fun t e => by cases e))
    cases o' <;> first | (cases q1; done) | exact ⟨b, i, h1, h2, by rw [← q1.1, ← q1.2]; exact q2⟩
  · obtain ⟨R, -, -, -, -, b, i, h1, h2, -, -, h3⟩ := std_objects _ _ _ _ _ _ _ _ heap_covered he hd [.elem 4] 8 _ (.lock true) rfl rfl rfl (.lock rfl) id (fun _ => rfl) trivial
    obtain ⟨o', q1, q2⟩ := h3 (fun _ => false) rfl (hz _ _ (fun t e => by cases e))
    cases o' <;> first | (cases q1; done) | exact ⟨b, i, h1, h2, by rw [← q1]; exact q2⟩
  · obtain ⟨R, -, -, -, -, b, i, h1, h2, -, -, h3⟩ := std_objects _ _ _ _ _ _ _ _ heap_covered he hd [.elem 5] 9 _ (.regex p!"a+" 32) rfl rfl rfl (.regex rfl) id (fun _ => rfl) trivial
    obtain ⟨o', q1, q2⟩ := h3 (fun _ => false) rfl (hz _ _ (fun t e => by cases e))
    cases o' <;> first | (cases q1; done) | exact ⟨b, i, h1, h2, by obtain ⟨rfl, rfl⟩ := q1; exact q2⟩

/-- the graph has a text, and it decodes -/
example : ∃ x h', prog.Trips heap {} (.ref 0) x h' := by
  have ht : (prog.trip heap {} 20 (.ref 0)).isSome = true := by decide +kernel
  cases h : prog.trip heap {} 20 (.ref 0) with
  | none => rw [h] at ht; cases ht
  | some r => exact ⟨_, _, Program.trips h⟩

end Example

end JP.C74
