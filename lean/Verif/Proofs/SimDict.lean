import Verif.Proofs.SimCore
import Verif.Proofs.Base64
/-!
# The round trip of dicts
-/
namespace JP.Sim
open JP PyM Unpickler

variable {w : World} {cfg : PCfg} {env : UEnv}
variable {Bad : Ctx}
variable {fl : Val → P Json} {rs rs2 : Json → U Val}

/-! ### keys without identity -/

mutual
/-- how a key is written -/
def keyJson (cfg : PCfg) : Val → Json
  | .bool b => .bool b
  | .int i => .int i
  | .float f => .float f
  | .str s => .str s
  | .bytes _ b => Pickler.flattenBytestring cfg b
  | .tuple _ xs => .obj [(Tags.TUPLE, .arr (keyJsons cfg xs))]
  | .type n => .obj [(Tags.TYPE, .str n)]
  | .func n => .obj [(Tags.FUNCTION, .str n)]
  | _ => .null
def keyJsons (cfg : PCfg) : List Val → List Json
  | [] => []
  | x :: xs => keyJson cfg x :: keyJsons cfg xs
end

mutual
theorem keyJson_writable : ∀ k, ValueKey env k → (keyJson cfg k).Writable
  | .none, _ | .bool _, _ | .int _, _ => trivial
  | .float f, h => fun hn => by rw [show floatIsNan f = false from h] at hn; cases hn
  | .str s, h => h
  | .bytes _ b, _ => by
    simp only [keyJson, Pickler.flattenBytestring]
    split
    · exact ⟨by simp, strOk_of_ascii (by decide), strOk_of_ascii (b85encode_ascii b), trivial⟩
    · exact ⟨by simp, strOk_of_ascii (by decide), strOk_of_ascii (b64encode_ascii b), trivial⟩
  | .tuple _ xs, h => by
    simp only [ValueKey] at h
    exact ⟨by simp, strOk_of_ascii (by decide), keyJsons_writable xs h, trivial⟩
  | .type n, h => ⟨by simp, strOk_of_ascii (by decide), h.1, trivial⟩
  | .func n, h => ⟨by simp, strOk_of_ascii (by decide), h.1, trivial⟩
  | .bytearray _ _, h | .set _ _, h | .module _, h | .lambda _, h | .ref _, h => by simp [ValueKey] at h
theorem keyJsons_writable : ∀ ks, ValueKeys env ks → Json.WritableL (keyJsons cfg ks)
  | [], _ => trivial
  | k :: ks, h => by
    simp only [ValueKeys] at h
    exact ⟨keyJson_writable k h.1, keyJsons_writable ks h.2⟩
end

/-- the encoder writes keys in that way -/
def KeyFl (cfg : PCfg) (env : UEnv) (fl : Val → P Json) : Prop :=
  (∀ k, ValueKey env k → ∀ s r s', fl k s = some (r, s') → r = .ok (keyJson cfg k)) ∧
  ∀ v s p, fl v s = some p → ∀ t s2, fl (.str t) s2 = some (.ok (.str t), s2)

theorem keyFl_mapM (h : KeyFl cfg env fl) : ∀ (ks : List Val), ValueKeys env ks → ∀ s r s', mapM fl ks s = some (r, s') →
    r = .ok (keyJsons cfg ks)
  | [], _, s, r, s', hr => by simp only [mapM_nil, pure_run] at hr; cases hr; rfl
  | k :: ks, hk, s, r, s', hr => by
    simp only [ValueKeys] at hk
    rw [mapM_cons, bind_run] at hr
    cases h1 : fl k s with
    | none => rw [h1] at hr; cases hr
    | some p =>
      obtain ⟨r1, s1⟩ := p
      have := h.1 k hk.1 s r1 s1 h1
      subst this
      rw [h1] at hr
      simp only [] at hr
      rw [bind_run] at hr
      cases h2 : mapM fl ks s1 with
      | none => rw [h2] at hr; cases hr
      | some p =>
        obtain ⟨r2, s2⟩ := p
        have := keyFl_mapM h ks hk.2 s1 r2 s2 h2
        subst this
        rw [h2] at hr
        simp only [pure_run] at hr
        cases hr
        rfl

theorem keyFl_flatten (hm : Matching w cfg env) : ∀ n, KeyFl cfg env (Pickler.flatten w cfg n)
  | 0 => ⟨by intro k _ s r s' h; simp [Pickler.flatten] at h, by intro v s p h; simp [Pickler.flatten] at h⟩
  | n + 1 => by
    refine ⟨?_, fun _ _ _ _ _ _ => rfl⟩
    intro k hk s r s' hrun
    have ih := keyFl_flatten hm n
    cases k with
    | none => simp [Pickler.flatten, Pickler.flattenStep, Pickler.flattenImpl] at hrun; rw [← hrun.1]; rfl
    | bool b => simp [Pickler.flatten, Pickler.flattenStep, Pickler.flattenImpl] at hrun; rw [← hrun.1]; rfl
    | int b => simp [Pickler.flatten, Pickler.flattenStep, Pickler.flattenImpl] at hrun; rw [← hrun.1]; rfl
    | float b => simp [Pickler.flatten, Pickler.flattenStep, Pickler.flattenImpl] at hrun; rw [← hrun.1]; rfl
    | str b => simp [Pickler.flatten, Pickler.flattenStep, Pickler.flattenImpl] at hrun; rw [← hrun.1]; rfl
    | bytes i b =>
      simp [Pickler.flatten, Pickler.flattenStep, Pickler.flattenImpl, Pickler.cached, hm.unpicklable, hm.makeRefs] at hrun
      rw [← hrun.1]; rfl
    | tuple i xs =>
      simp only [ValueKey] at hk
      obtain ⟨r1, s1, e1, e2⟩ := flatten_container hm (by rfl) hrun
      simp only [Pickler.flattenBy, hm.unpicklable, if_true] at e1
      rw [bind_run] at e1
      cases h2 : mapM (Pickler.flatten w cfg n) xs { s with depth := s.depth + 1, seen := s.seen ++ [.tuple i xs] } with
      | none => rw [h2] at e1; cases e1
      | some p =>
        obtain ⟨r2, s2⟩ := p
        have := keyFl_mapM ih xs hk _ r2 s2 h2
        subst this
        rw [h2] at e1
        simp only [pure_run] at e1
        cases e1
        exact (e2 _ rfl).1
    | type n =>
      obtain ⟨r1, s1, e1, e2⟩ := flatten_container hm (by rfl) hrun
      simp only [Pickler.flattenBy, pure_run] at e1
      cases e1
      exact (e2 _ rfl).1
    | func n =>
      obtain ⟨r1, s1, e1, e2⟩ := flatten_container hm (by rfl) hrun
      simp only [Pickler.flattenBy, pure_run, hm.unpicklable, if_true] at e1
      cases e1
      exact (e2 _ rfl).1
    | _ => simp [ValueKey] at hk

theorem flattenBytestring_inj {b b' : Bytes} (h : Pickler.flattenBytestring cfg b = Pickler.flattenBytestring cfg b') : b = b' := by
  unfold Pickler.flattenBytestring at h
  split at h
  · injection h with h; injection h with h _; injection h with _ h; injection h with h
    rw [← b85decode_encode b, h, b85decode_encode]
  · injection h with h; injection h with h _; injection h with _ h; injection h with h
    rw [← b64decode_encode b, h, b64decode_encode]

theorem keyJson_bytes (b : Bytes) : ∃ t s, Pickler.flattenBytestring cfg b = .obj [(t, .str s)] ∧ (t = Tags.B64 ∨ t = Tags.B85) := by
  unfold Pickler.flattenBytestring
  split
  · exact ⟨_, _, rfl, Or.inr rfl⟩
  · exact ⟨_, _, rfl, Or.inl rfl⟩

theorem tag_ne : Tags.B64 ≠ Tags.TUPLE ∧ Tags.B85 ≠ Tags.TUPLE ∧ Tags.B64 ≠ Tags.TYPE ∧ Tags.B85 ≠ Tags.TYPE ∧
    Tags.B64 ≠ Tags.FUNCTION ∧ Tags.B85 ≠ Tags.FUNCTION ∧ Tags.TYPE ≠ Tags.TUPLE ∧ Tags.FUNCTION ≠ Tags.TUPLE ∧
    Tags.TYPE ≠ Tags.FUNCTION := by decide

mutual
/-- different keys are written differently -/
theorem keyJson_inj : ∀ (k k' : Val), ValueKey env k → ValueKey env k' → keyJson cfg k = keyJson cfg k' → pyEq k k' = true := by
  intro k k' h h' he
  obtain ⟨t1, t2, t3, t4, t5, t6, t7, t8, t9⟩ := tag_ne
  match k with
  | .none =>
    cases k' <;> simp only [ValueKey] at h' <;> simp only [keyJson] at he <;> first | rfl | (cases he; done) | skip
    next i b => obtain ⟨t, s, e, _⟩ := keyJson_bytes (cfg := cfg) b; rw [e] at he; cases he
  | .bool b =>
    cases k' <;> simp only [ValueKey] at h' <;> simp only [keyJson] at he <;> first | (cases he <;> simp [pyEq]; done) | skip
    next i b => obtain ⟨t, s, e, _⟩ := keyJson_bytes (cfg := cfg) b; rw [e] at he; cases he
  | .int b =>
    cases k' <;> simp only [ValueKey] at h' <;> simp only [keyJson] at he <;> first | (cases he <;> simp [pyEq]; done) | skip
    next i b => obtain ⟨t, s, e, _⟩ := keyJson_bytes (cfg := cfg) b; rw [e] at he; cases he
  | .float b =>
    cases k' <;> simp only [ValueKey] at h h' <;> simp only [keyJson] at he
    case float =>
      cases he
      simp only [pyEq, h, Val.numKey]
      cases floatInt b with
      | none => exact beq_self_eq_true b
      | some i => exact beq_self_eq_true i
    all_goals first | (cases he; done) | skip
    next i b => obtain ⟨t, s, e, _⟩ := keyJson_bytes (cfg := cfg) b; rw [e] at he; cases he
  | .str b =>
    cases k' <;> simp only [ValueKey] at h' <;> simp only [keyJson] at he <;> first | (cases he <;> simp [pyEq]; done) | skip
    next i b => obtain ⟨t, s, e, _⟩ := keyJson_bytes (cfg := cfg) b; rw [e] at he; cases he
  | .bytes i b =>
    obtain ⟨t, s, e, ht⟩ := keyJson_bytes (cfg := cfg) b
    cases k' <;> simp only [ValueKey] at h' <;> simp only [keyJson] at he
    case bytes i' b' => simp [pyEq, flattenBytestring_inj he]
    all_goals rw [e] at he
    case tuple => injection he with he; injection he with he _; injection he with he _; rcases ht with ht | ht <;> simp_all
    case type => injection he with he; injection he with he _; injection he with he _; rcases ht with ht | ht <;> simp_all
    case func => injection he with he; injection he with he _; injection he with he _; rcases ht with ht | ht <;> simp_all
    all_goals cases he
  | .tuple i xs =>
    cases k' <;> simp only [ValueKey] at h h' <;> simp only [keyJson] at he
    case tuple i' xs' =>
      injection he with he; injection he with he _; injection he with _ he; injection he with he
      simp only [pyEq]
      exact keyJsons_inj xs xs' h h' he
    case bytes i' b' =>
      obtain ⟨t, s, e, ht⟩ := keyJson_bytes (cfg := cfg) b'
      rw [e] at he
      injection he with he; injection he with he _; injection he with he _; rcases ht with ht | ht <;> simp_all
    case type => injection he with he; injection he with he _; injection he with he _; simp_all
    case func => injection he with he; injection he with he _; injection he with he _; simp_all
    all_goals cases he
  | .type n =>
    cases k' <;> simp only [ValueKey] at h' <;> simp only [keyJson] at he
    case type => injection he with he; injection he with he _; injection he with _ he; injection he with he; simp [pyEq, he]
    case bytes i' b' =>
      obtain ⟨t, s, e, ht⟩ := keyJson_bytes (cfg := cfg) b'
      rw [e] at he
      injection he with he; injection he with he _; injection he with he _; rcases ht with ht | ht <;> simp_all
    case tuple => injection he with he; injection he with he _; injection he with he _; simp_all
    case func => injection he with he; injection he with he _; injection he with he _; simp_all
    all_goals cases he
  | .func n =>
    cases k' <;> simp only [ValueKey] at h' <;> simp only [keyJson] at he
    case func => injection he with he; injection he with he _; injection he with _ he; injection he with he; simp [pyEq, he]
    case bytes i' b' =>
      obtain ⟨t, s, e, ht⟩ := keyJson_bytes (cfg := cfg) b'
      rw [e] at he
      injection he with he; injection he with he _; injection he with he _; rcases ht with ht | ht <;> simp_all
    case tuple => injection he with he; injection he with he _; injection he with he _; simp_all
    case type => injection he with he; injection he with he _; injection he with he _; simp_all
    all_goals cases he
  | .set _ _ => simp [ValueKey] at h
  | .bytearray _ _ => simp [ValueKey] at h
  | .lambda _ => simp [ValueKey] at h
  | .module _ => simp [ValueKey] at h
  | .ref _ => simp [ValueKey] at h
theorem keyJsons_inj : ∀ (ks ks' : List Val), ValueKeys env ks → ValueKeys env ks' → keyJsons cfg ks = keyJsons cfg ks' →
    pyEqs ks ks' = true := by
  intro ks ks' h h' he
  match ks with
  | [] => cases ks' <;> simp_all [keyJsons, pyEqs]
  | k :: ks =>
    cases ks' with
    | nil => simp [keyJsons] at he
    | cons k' ks' =>
      simp only [keyJsons, List.cons.injEq, ValueKeys] at h h' he
      simp only [pyEqs, Bool.and_eq_true]
      exact ⟨keyJson_inj k k' h.1 h'.1 he.1, keyJsons_inj ks ks' h.2 h'.2 he.2⟩
end

mutual
theorem valueKey_ok {h : Heap} : ∀ (k : Val), ValueKey env k → ValOk h env k ∧ hashable h k = true ∧ ∀ a, ¬ Reach h k a := by
  intro k hk
  match k with
  | .tuple i xs =>
    simp only [ValueKey] at hk
    have := valueKeys_ok (h := h) xs hk
    simp only [ValOk, hashable]
    refine ⟨this.1, this.2.1, ?_⟩
    intro a ha
    cases ha with
    | tuple hx hr => exact this.2.2 _ hx a hr
  | .none | .bool _ | .int _ | .float _ | .str _ | .bytes _ _ | .type _ | .func _ =>
    refine ⟨by first | exact hk.2 | exact hk | trivial, rfl, ?_⟩
    intro a ha; cases ha
theorem valueKeys_ok {h : Heap} : ∀ (ks : List Val), ValueKeys env ks →
    ValsOk h env ks ∧ hashables h ks = true ∧ ∀ k ∈ ks, ∀ a, ¬ Reach h k a := by
  intro ks hk
  match ks with
  | [] => simp [ValsOk, hashables]
  | k :: ks =>
    simp only [ValueKeys] at hk
    have h1 := valueKey_ok (h := h) k hk.1
    have h2 := valueKeys_ok (h := h) ks hk.2
    simp only [ValsOk, hashables, Bool.and_eq_true]
    refine ⟨⟨h1.1, h2.1⟩, ⟨h1.2.1, h2.2.1⟩, ?_⟩
    intro k' hk'
    rcases List.mem_cons.1 hk' with e | e
    · subst e; exact h1.2.2
    · exact h2.2.2 k' e
end

/-! ### string keys and other keys -/

/-- a string key written as it is -/
def plainKey (keys : Bool) : Val → Bool
  | .str s => !(keys && Pickler.needsEscape s)
  | _ => false

/-- a string key to be escaped -/
def escKey : Val → Bool
  | .str s => Pickler.needsEscape s
  | _ => false

/-- the entries with string keys written as they are -/
def strsOf (keys : Bool) (kvs : List (Val × Val)) : List (Str × Val) :=
  kvs.filterMap (fun kv => match kv.1 with
    | .str s => if keys && Pickler.needsEscape s then none else some (s, kv.2)
    | _ => none)

/-- the entries with string keys to be escaped -/
def escaped (kvs : List (Val × Val)) : List (Val × Val) := kvs.filter (fun kv => escKey kv.1)

/-- the entries with other keys -/
def nonstrs (kvs : List (Val × Val)) : List (Val × Val) := kvs.filter (fun kv => !isStrV kv.1)

/-- the entries with escaped keys, in the order in which they are written -/
def keyedOf (kvs : List (Val × Val)) : List (Val × Val) := escaped kvs ++ nonstrs kvs

theorem asItems_strsOf (keys : Bool) : ∀ (kvs : List (Val × Val)),
    Pickler.asItems (strsOf keys kvs) = kvs.filter (fun kv => plainKey keys kv.1)
  | [] => rfl
  | (k, v) :: kvs => by
    have ih := asItems_strsOf keys kvs
    cases k with
    | str s =>
      have hp : plainKey keys (.str s) = !(keys && Pickler.needsEscape s) := rfl
      cases hb : (keys && Pickler.needsEscape s) with
      | false =>
        rw [hb] at hp
        rw [List.filter_cons_of_pos (by simpa using hp), ← ih]
        simp only [strsOf, Pickler.asItems, List.filterMap_cons, hb, Bool.false_eq_true, if_false, List.map_cons]
      | true =>
        rw [hb] at hp
        rw [List.filter_cons_of_neg (by simpa using hp), ← ih]
        simp only [strsOf, Pickler.asItems, List.filterMap_cons, hb, if_true]
    | _ => simp_all [strsOf, Pickler.asItems, plainKey]

theorem collides_str {s : Str} : Collides (.str s) ↔ Pickler.needsEscape s = true := by
  simp [Collides, Pickler.needsEscape]

theorem collides_esc {k : Val} : Collides k ↔ escKey k = true := by
  cases k with
  | str s => exact collides_str
  | _ => simp [Collides, escKey]

/-- the entries with string keys, if the escaped ones are last -/
theorem strs_split : ∀ {kvs : List (Val × Val)}, EscapedLast kvs →
    kvs.filter (fun kv => isStrV kv.1) = Pickler.asItems (strsOf true kvs) ++ escaped kvs
  | [], _ => rfl
  | (k, v) :: kvs, h => by
    unfold EscapedLast at h
    rw [List.map_cons, List.pairwise_cons] at h
    have ih := strs_split (kvs := kvs) h.2
    rw [asItems_strsOf] at ih ⊢
    unfold escaped at ih ⊢
    cases he : escKey k with
    | false =>
      cases k with
      | str s =>
        have he' : Pickler.needsEscape s = false := he
        simp_all [isStrV, plainKey, escKey]
      | _ => simp_all [isStrV, plainKey, escKey]
    | true =>
      have hs : isStrV k = true := by cases k <;> simp_all [escKey, isStrV]
      have hp : plainKey true k = false := by cases k <;> simp_all [escKey, plainKey]
      have hnil : kvs.filter (fun kv => plainKey true kv.1) = [] := by
        rw [List.filter_eq_nil_iff]
        intro kv hkv hpl
        have h1 := h.1 kv.1 (List.mem_map_of_mem hkv) (collides_esc.2 he)
          (by cases hk : kv.1 <;> simp_all [plainKey, isStrV])
        rw [collides_esc] at h1
        cases hk : kv.1 <;> simp_all [plainKey, escKey]
      rw [List.filter_cons_of_pos (by simpa using hs), List.filter_cons_of_neg (by simp [hp]),
        List.filter_cons_of_pos (by simpa using he), hnil, ih, hnil]
      rfl

theorem mem_strsOf {keys : Bool} {kvs : List (Val × Val)} {e : Str × Val} (h : e ∈ strsOf keys kvs) : (.str e.1, e.2) ∈ kvs := by
  have : (Val.str e.1, e.2) ∈ Pickler.asItems (strsOf keys kvs) := List.mem_map_of_mem (f := fun kv : Str × Val => (Val.str kv.1, kv.2)) h
  rw [asItems_strsOf] at this
  exact (List.mem_filter.1 this).1

theorem strsOf_plain {keys : Bool} {kvs : List (Val × Val)} {e : Str × Val} (h : e ∈ strsOf keys kvs) :
    plainKey keys (.str e.1) = true := by
  have : (Val.str e.1, e.2) ∈ Pickler.asItems (strsOf keys kvs) := List.mem_map_of_mem (f := fun kv : Str × Val => (Val.str kv.1, kv.2)) h
  rw [asItems_strsOf] at this
  exact (List.mem_filter.1 this).2

theorem keyed_mem {kvs : List (Val × Val)} {e : Val × Val} (h : e ∈ keyedOf kvs) : e ∈ kvs ∧ plainKey true e.1 = false := by
  rcases List.mem_append.1 h with h | h
  · obtain ⟨h1, h2⟩ := List.mem_filter.1 h
    refine ⟨h1, ?_⟩
    cases hk : e.1 <;> simp_all [plainKey, escKey]
  · obtain ⟨h1, h2⟩ := List.mem_filter.1 h
    refine ⟨h1, ?_⟩
    cases hk : e.1 <;> simp_all [plainKey, isStrV]

/-- the keys that are escaped are all different -/
theorem keyed_pairwise {kvs : List (Val × Val)} (h : (kvs.map (·.1)).Pairwise (fun k k' => pyEq k k' = false)) :
    ((keyedOf kvs).map (·.1)).Pairwise (fun k k' => pyEq k k' = false) := by
  unfold keyedOf
  rw [List.map_append, List.pairwise_append]
  refine ⟨List.Pairwise.sublist (List.Sublist.map _ List.filter_sublist) h,
    List.Pairwise.sublist (List.Sublist.map _ List.filter_sublist) h, ?_⟩
  intro k hk k' hk'
  obtain ⟨e, he, rfl⟩ := List.mem_map.1 hk
  obtain ⟨e', he', rfl⟩ := List.mem_map.1 hk'
  have h1 := (List.mem_filter.1 he).2
  have h2 := (List.mem_filter.1 he').2
  cases hk : e.1 <;> cases hk' : e'.1 <;> simp_all [escKey, isStrV, pyEq]

theorem pairwise_names {ents : List (Str × Val)}
    (h : ((Pickler.asItems ents).map (·.1)).Pairwise (fun k k' => pyEq k k' = false)) : (ents.map (·.1)).Nodup := by
  induction ents with
  | nil => simp
  | cons e ents ih =>
    simp only [Pickler.asItems, List.map_cons, List.pairwise_cons, List.nodup_cons] at h ⊢
    refine ⟨?_, ih h.2⟩
    intro hmem
    obtain ⟨e', he', heq⟩ := List.mem_map.1 hmem
    have := h.1 (.str e'.1) (List.mem_map.2 ⟨(.str e'.1, e'.2), List.mem_map.2 ⟨e', he', rfl⟩, rfl⟩)
    simp [pyEq, heq] at this

theorem strsOf_nodup {keys : Bool} {kvs : List (Val × Val)} (h : (kvs.map (·.1)).Pairwise (fun k k' => pyEq k k' = false)) :
    ((strsOf keys kvs).map (·.1)).Nodup := by
  apply pairwise_names
  rw [asItems_strsOf]
  exact List.Pairwise.sublist (List.Sublist.map _ List.filter_sublist) h

theorem all_strs (hk : env.keys = false) {kvs : List (Val × Val)} (h : ∀ kv ∈ kvs, KeyOk env kv.1) :
    Pickler.asItems (strsOf false kvs) = kvs := by
  rw [asItems_strsOf, List.filter_eq_self]
  intro kv hkv
  have := h kv hkv
  obtain ⟨k, v⟩ := kv
  cases k <;> simp_all [KeyOk, plainKey]

theorem vset_new {k v : Val} : ∀ {acc : List (Val × Val)}, (∀ kv ∈ acc, pyEq kv.1 k = false) → vset k v acc = acc ++ [(k, v)]
  | [], _ => rfl
  | (k', v') :: acc, h => by
    have h1 := h (k', v') List.mem_cons_self
    simp only [] at h1
    simp only [vset, h1, Bool.false_eq_true, if_false, List.cons_append]
    rw [vset_new (fun kv hkv => h kv (List.mem_cons_of_mem _ hkv))]

theorem vset_name {k : Str} {x : Val} {acc : List (Str × Val)} (h : k ∉ acc.map (·.1)) :
    vset (.str k) x (Pickler.asItems acc) = Pickler.asItems (acc ++ [(k, x)]) := by
  rw [vset_new]
  · simp [Pickler.asItems]
  · intro kv hkv
    obtain ⟨e, he, rfl⟩ := List.mem_map.1 hkv
    simp only [pyEq, beq_eq_false_iff_ne]
    exact fun e' => h (List.mem_map.2 ⟨e, he, e'⟩)

theorem Paired.labels {κ : Type} {R : Addr → Addr → Prop} : ∀ {xs ys : List (κ × Val)}, Paired R xs ys → ys.map (·.1) = xs.map (·.1)
  | [], [], _ => rfl
  | x :: xs, y :: ys, h => by
    simp only [All2] at h
    simp [h.1.1, Paired.labels h.2]
  | [], _ :: _, h => by simp [All2] at h
  | _ :: _, [], h => by simp [All2] at h

theorem Paired.items {R : Addr → Addr → Prop} : ∀ {xs ys : List (Str × Val)}, Paired R xs ys →
    ItemsIso R (Pickler.asItems xs) (Pickler.asItems ys)
  | [], [], _ => trivial
  | x :: xs, y :: ys, h => by
    simp only [All2] at h
    refine ⟨⟨?_, h.1.2⟩, Paired.items h.2⟩
    simp only [VIso]
    exact h.1.1
  | [], _ :: _, h => by simp [All2] at h
  | _ :: _, [], h => by simp [All2] at h

theorem fresh_name {R : Addr → Addr → Prop} {all pre post acc : List (Str × Val)} {k : Str} {v : Val}
    (hn : (all.map (·.1)).Nodup) (h : all = pre ++ (k, v) :: post) (hp : Paired R pre acc) : k ∉ acc.map (·.1) := by
  rw [Paired.labels hp]
  rw [h, List.map_append, List.nodup_append] at hn
  intro hmem
  exact hn.2.2 k hmem k (by simp) rfl

theorem dictSet_name {b : Addr} {k : Str} {x : Val} {acc : List (Str × Val)} {u : UState} (h : k ∉ acc.map (·.1))
    (hb : u.heap[b]? = some (.dict (Pickler.asItems acc))) :
    dictSet b (.str k) x u = some (.ok (), { u with heap := u.heap.set b (.dict (Pickler.asItems (acc ++ [(k, x)]))) }) := by
  simp only [dictSet, hashable, if_true, hb, vset_name h]

/-- the string-keyed part of a dict -/
theorem simStrs (h : Sim w cfg env fl rs) {b : Nat} {ents : List (Str × Val)} (hn : (ents.map (·.1)).Nodup)
    (note : Bool) (s : PState) (u : UState) (r) (s' : PState)
    (hd : 0 ≤ s.depth) (hf : ∀ e ∈ ents, Fit w env Bad e.2) (hr : Rel w.heap Bad s.objs u) (hw : Spot w.heap Bad s.objs u b)
    (hb : u.heap[b]? = some (.dict [])) (hrun : mapM fl (ents.map (·.2)) s = some (r, s')) :
    ∃ js us acc u', r = .ok js ∧ js.length = ents.length ∧
      mapM (fun kj : Str × Json => rs kj.2 >>= fun v => dictSet b (.str kj.1) v >>= fun _ =>
        if note then noteProxy b (.key (.str kj.1)) v else pure ()) ((ents.map (·.1)).zip js) u = some (.ok us, u') ∧
      Step w cfg [b] Bad s s' u u' ∧ Paired (Rof Bad s'.objs u'.objs) ents acc ∧
      u'.heap[b]? = some (.dict (Pickler.asItems acc)) ∧ OwnOk s.objs s'.objs := by
  refine simStore h b (fun acc => .dict (Pickler.asItems acc))
    (fun k v => dictSet b (.str k) v >>= fun _ => if note then noteProxy b (.key (.str k)) v else pure ())
    ents (fun _ _ o ho => by cases o <;> simp_all [SameKind]) (fun _ _ hx => by cases hx) ?_ ents [] [] s u r s' rfl hd hf hr (Or.inr hw) trivial hb hrun
  intro pre k v post hall acc x P u hr hp hiso hb
  have hk := fresh_name hn hall hp
  rw [bind_ok (dictSet_name hk hb)]
  cases note with
  | false => rfl
  | true =>
    simp only [if_true]
    refine noteProxy_none ?_
    exact hr.notProxy_set (o1 := .dict (Pickler.asItems (acc ++ [(k, x)]))) hb (fun o ho => by cases o <;> simp_all [SameKind]) hiso

/-! ### the keys=True phase for other keys -/

/-- how an escaped key looks like -/
def encKey (w : World) (cfg : PCfg) (k : Val) : Str := Tags.JSON_KEY ++ w.dumps (keyJson cfg k)

theorem encKey_isJsonKey (k : Val) : isJsonKey (encKey w cfg k) = true := by
  simp [isJsonKey, encKey, startsWith]

theorem dumps_inj (hm : Matching w cfg env) {j j' : Json} (hj : j.Writable) (hj' : j'.Writable) (h : w.dumps j = w.dumps j') : j = j' := by
  have := hm.loads j hj
  rw [h, hm.loads j' hj'] at this
  injection this with this
  exact this.symm

theorem encKey_inj (hm : Matching w cfg env) {k k' : Val} (h : ValueKey env k) (h' : ValueKey env k')
    (he : encKey w cfg k = encKey w cfg k') : pyEq k k' = true :=
  keyJson_inj k k' h h' (dumps_inj hm (keyJson_writable k h) (keyJson_writable k' h') (List.append_cancel_left he))

theorem isStrV_iso {R : Addr → Addr → Prop} {k x : Val} (h : VIso R k x) (hk : isStrV k = false) : isStrV x = false := by
  cases k <;> cases x <;> simp_all [VIso, isStrV]

theorem ItemsIso.mem {R : Addr → Addr → Prop} : ∀ {xs ys : List (Val × Val)}, ItemsIso R xs ys → ∀ y ∈ ys, ∃ x ∈ xs, VIso R x.1 y.1
  | [], [], _ => by simp
  | x :: xs, y :: ys, h => by
    simp only [ItemsIso, All2] at h
    intro y' hy
    rcases List.mem_cons.1 hy with e | e
    · subst e; exact ⟨x, List.mem_cons_self, h.1.1⟩
    · obtain ⟨x', hx', hi⟩ := ItemsIso.mem (R := R) h.2 y' e
      exact ⟨x', List.mem_cons_of_mem _ hx', hi⟩
  | [], _ :: _, h => by simp [ItemsIso, All2] at h
  | _ :: _, [], h => by simp [ItemsIso, All2] at h

theorem nonString_run (hk : cfg.keys = true) {h : Heap} {k v : Val} (hs : isStrV k = false) (hv : ValOk h env v) (d) :
    Pickler.flattenNonString w cfg fl k v d =
      (fl k >>= fun j => fl v >>= fun j' => (pure (dset (Tags.JSON_KEY ++ w.dumps j) j' d) : P _)) := by
  have hp : Pickler.isPicklable k v = true := by
    unfold Pickler.isPicklable
    cases k <;> simp [isStrV] at hs <;> cases v <;> first | rfl | simp [ValOk] at hv
  unfold Pickler.flattenNonString
  rw [if_pos hp]
  cases k <;> simp [isStrV] at hs <;> simp only [hk, if_true, Pickler.escapeKey, bind_assoc'] <;> rfl

/-- pickler.py:820-843: one entry with an escaped key; the value of a string key is flattened before the key -/
def encEntry (w : World) (cfg : PCfg) (fl : Val → P Json) (d : List (Str × Json)) (kv : Val × Val) : P (List (Str × Json)) :=
  if isStrV kv.1 then
    fl kv.2 >>= fun j' => fl kv.1 >>= fun j => (pure (dset (Tags.JSON_KEY ++ w.dumps j) j' d) : P _)
  else Pickler.flattenNonString w cfg fl kv.1 kv.2 d

theorem encEntry_run (hk : cfg.keys = true) (hkf : KeyFl cfg env fl) {h : Heap} {k v : Val} (hvk : ValueKey env k)
    (hv : ValOk h env v) (d) {β : Type} (g : List (Str × Json) → P β) (s : PState) :
    (encEntry w cfg fl d (k, v) >>= g) s = (fl k >>= fun _ => fl v >>= fun jv => g (dset (encKey w cfg k) jv d)) s := by
  cases hs : isStrV k with
  | false =>
    simp only [encEntry, hs, Bool.false_eq_true, if_false]
    rw [nonString_run hk hs hv, bind_assoc', bind_run, bind_run]
    cases hf : fl k s with
    | none => rfl
    | some p =>
      obtain ⟨r, s1⟩ := p
      have := hkf.1 k hvk s r s1 hf
      subst this
      simp only []
      rw [bind_assoc']
      rfl
  | true =>
    obtain ⟨t, rfl⟩ : ∃ t, k = .str t := by cases k <;> simp_all [isStrV]
    simp only [encEntry, hs, if_true]
    rw [bind_assoc', bind_run, bind_run]
    cases hf : fl v s with
    | none =>
      cases hf2 : fl (.str t) s with
      | none => rfl
      | some p =>
        have := hkf.2 _ _ _ hf2 t s
        rw [this] at hf2
        injection hf2 with hf2
        subst hf2
        simp only []
        rw [bind_run, hf]
    | some p =>
      obtain ⟨r, s1⟩ := p
      have h2 := hkf.2 _ _ _ hf t
      rw [h2 s]
      simp only []
      rw [bind_run, hf]
      cases r with
      | error e => rfl
      | ok jv =>
        simp only []
        rw [bind_assoc', bind_run, h2 s1]
        rfl

/-- where an entry with an escaped key goes: how `store` extends the object under construction -/
def KeyStore (w : World) (Bad : Ctx) (b : Nat) (cell : List (Val × Val) → Obj) (store : Val → Val → U Unit)
    (all : List (Val × Val)) : Prop :=
  ∀ pre k v post, all = pre ++ (k, v) :: post → ∀ acc kx x P u, Rel w.heap Bad P u →
      ItemsIso (Rof Bad P u.objs) pre acc → VIso (Rof Bad P u.objs) k kx → VIso (Rof Bad P u.objs) v x →
      u.heap[b]? = some (cell acc) →
      store kx x u = some (.ok (), { u with heap := u.heap.set b (cell (acc ++ [(kx, x)])) })

theorem simKeyed (hm : Matching w cfg env) (hkeys : cfg.keys = true) (hkf : KeyFl cfg env fl) (h : Sim w cfg env fl rs)
    (b : Nat) (cell : List (Val × Val) → Obj) (store : Val → Val → U Unit) (all : List (Val × Val))
    (hkind : ∀ acc acc' o, SameKind o (cell acc) → SameKind o (cell acc')) (hidp : ∀ acc n, cell acc ≠ .idproxy n)
    (hstore : KeyStore w Bad b cell store all) (hpw : (all.map (·.1)).Pairwise (fun k k' => pyEq k k' = false)) :
    ∀ (ents pre acc : List (Val × Val)) (data : List (Str × Json)) (s : PState) (u : UState) r s', all = pre ++ ents →
    0 ≤ s.depth → (∀ e ∈ ents, ValueKey env e.1 ∧ Fit w env Bad e.2) →
    (∀ e ∈ ents, encKey w cfg e.1 ∉ data.map (·.1)) → Rel w.heap Bad s.objs u →
    ((∀ acc, ∃ i, cell acc = .inst i) ∨ Spot w.heap Bad s.objs u b) →
    ItemsIso (Rof Bad s.objs u.objs) pre acc → u.heap[b]? = some (cell acc) →
    foldM (encEntry w cfg fl) data ents s = some (r, s') →
    ∃ js us acc' u', r = .ok (data ++ (ents.map (fun e => encKey w cfg e.1)).zip js) ∧ js.length = ents.length ∧
      mapM (fun kj : Str × Json => restorePickledKey env rs kj.1 >>= fun k => rs kj.2 >>= fun v => store k v)
        ((ents.map (fun e => encKey w cfg e.1)).zip js) u = some (.ok us, u') ∧
      Step w cfg [b] Bad s s' u u' ∧ ItemsIso (Rof Bad s'.objs u'.objs) all acc' ∧ u'.heap[b]? = some (cell acc') ∧ OwnOk s.objs s'.objs
  | [], pre, acc, data, s, u, r, s', hall, _, _, _, hr, _, hp, hb, hrun => by
    simp only [foldM_nil, pure_run] at hrun
    cases hrun
    rw [List.append_nil] at hall
    subst hall
    exact ⟨[], [], acc, u, by simp, rfl, rfl, Step.refl hr, hp, hb, OwnOk.refl⟩
  | (k, v) :: ents, pre, acc, data, s, u, r, s', hall, hd, hf, hfr, hr, hw, hp, hb, hrun => by
    obtain ⟨hvk, hfit⟩ := hf (k, v) List.mem_cons_self
    simp only [] at hvk hfit
    rw [foldM_cons, encEntry_run hkeys hkf hvk hfit.1.1, bind_run] at hrun
    obtain ⟨hkok, hkh, hkr⟩ := valueKey_ok (h := w.heap) k hvk
    cases hfk : fl k s with
    | none => rw [hfk] at hrun; cases hrun
    | some p =>
      obtain ⟨rk, sk⟩ := p
      have hrk := hkf.1 k hvk s rk sk hfk
      obtain ⟨jk, kx, uk, hr1, hrsk, hstepk, hisok⟩ := h Bad k s u hd ⟨hkok, fun a ha => absurd ha (hkr a)⟩
        ⟨fun a _ => hkr a, fun _ _ b hb => absurd hb (hkr b), fun d hd => absurd (Mentions.reach hd) (hkr d), hfit.2.opn⟩ hr rk sk hfk
      rw [hrk] at hr1
      injection hr1 with hr1
      subst hr1 hrk
      rw [hfk] at hrun
      simp only [] at hrun
      rw [bind_run] at hrun
      cases hfv : fl v sk with
      | none => rw [hfv] at hrun; cases hrun
      | some p =>
        obtain ⟨rv, sv⟩ := p
        obtain ⟨jv, x, uv, hr2, hrsv, hstepv, hisov⟩ := h Bad v sk uk (by rw [hstepk.depth]; exact hd) hfit.1 hfit.2
          hstepk.rel rv sv hfv
        subst hr2
        rw [hfv] at hrun
        simp only [] at hrun
        have hfresh := hfr (k, v) List.mem_cons_self
        simp only [encKey] at hfresh hrun
        rw [dset_of_not_mem _ _ _ hfresh] at hrun
        have hblt : b < u.heap.length := get_lt hb
        have hstep : Step w cfg [] Bad s sv u uv := hstepk.trans hstepv (by simp)
        have hb1 : uv.heap[b]? = some (cell acc) := by rw [hstep.ext.cells b hblt (by simp), hb]
        have hp1 : ItemsIso (Rof Bad sv.objs uv.objs) pre acc := ItemsIso.mono hstep.mono hp
        have hisok1 := VIso.mono hstepv.mono _ _ hisok
        have hst := hstore pre k v ents hall acc kx x sv.objs uv hstep.rel hp1 hisok1 hisov hb1
        have hw1 : Writable w.heap Bad sv.objs uv b := by
          rcases hw with hw | hw
          · obtain ⟨i, hi⟩ := hw acc
            rw [hi] at hb1
            exact Writable.inst hstep.rel hb1
          · exact (hw.step hr hstep).2
        have hstep1 : Step w cfg [b] Bad sv sv uv { uv with heap := uv.heap.set b (cell (acc ++ [(kx, x)])) } :=
          Step.set hstep.rel hb1 (hkind _ _) (by simp) hw1 (hidp _)
        have hstep' : Step w cfg [b] Bad s sv u { uv with heap := uv.heap.set b (cell (acc ++ [(kx, x)])) } :=
          (hstep.weaken (by simp)).trans hstep1 (by simpa using hblt)
        have hfr' : ∀ e ∈ ents, encKey w cfg e.1 ∉ (data ++ [(Tags.JSON_KEY ++ w.dumps (keyJson cfg k), jv)]).map (·.1) := by
          intro e he hmem
          simp only [List.map_append, List.mem_append, List.map_cons, List.map_nil, List.mem_singleton] at hmem
          rcases hmem with hmem | hmem
          · exact hfr e (List.mem_cons_of_mem _ he) hmem
          · have hpe := encKey_inj hm hvk (hf e (List.mem_cons_of_mem _ he)).1 hmem.symm
            rw [hall, List.map_append, List.pairwise_append] at hpw
            have := (List.pairwise_cons.1 hpw.2.1).1 e.1 (List.mem_map_of_mem he)
            simp only [] at this
            rw [hpe] at this
            cases this
        obtain ⟨js, us, acc', u2, hr3, hlen, hrs2, hstep2, hp2, hb2, ho2⟩ :=
          simKeyed hm hkeys hkf h b cell store all hkind hidp hstore hpw ents (pre ++ [(k, v)]) (acc ++ [(kx, x)]) _ sv
            { uv with heap := uv.heap.set b (cell (acc ++ [(kx, x)])) } r s'
            (by rw [hall]; simp) (by rw [hstep.depth]; exact hd)
            (fun e he => hf e (List.mem_cons_of_mem _ he)) hfr' hstep1.rel (hw.imp id (fun hw => hw.step hr hstep'))
            (All2.append hp1 ⟨⟨hisok1, hisov⟩, trivial⟩) (set_get (get_lt hb1)) hrun
        · refine ⟨jv :: js, () :: us, acc', u2, ?_, by simp [hlen], ?_, hstep'.trans hstep2 (by simpa using hblt), hp2, hb2, hstep.ownOk.trans hstep.objs ho2⟩
          · rw [hr3]
            simp [encKey]
          · simp only [List.map_cons, List.zip_cons_cons]
            rw [mapM_cons]
            have hkrun : restorePickledKey env rs (encKey w cfg k) u = some (.ok kx, uk) := by
              unfold restorePickledKey
              rw [if_pos (encKey_isJsonKey k)]
              have : (encKey w cfg k).drop Tags.JSON_KEY.length = w.dumps (keyJson cfg k) := by simp [encKey]
              rw [this, hm.loads _ (keyJson_writable k hvk)]
              exact hrsk
            have h1 : (restorePickledKey env rs (encKey w cfg k) >>= fun k => rs jv >>= fun v => store k v) u =
                some (.ok (), { uv with heap := uv.heap.set b (cell (acc ++ [(kx, x)])) }) := by
              rw [bind_ok hkrun, bind_ok hrsv, hst]
            rw [bind_ok h1, bind_ok hrs2]
            rfl

/-! ### the encoder on the entries of a dict, `keys=True` -/

theorem foldM_filter {α β : Type} (f : β → α → P β) (p : α → Bool) : ∀ (xs : List α) (b : β),
    (∀ x ∈ xs, p x = false → ∀ b, f b x = pure b) → foldM f b xs = foldM f b (xs.filter p)
  | [], _, _ => rfl
  | x :: xs, b, h => by
    have ih := fun b => foldM_filter f p xs b (fun y hy => h y (List.mem_cons_of_mem _ hy))
    cases hp : p x with
    | true =>
      rw [List.filter_cons_of_pos hp, foldM_cons, foldM_cons]
      congr 1
      funext b'
      exact ih b'
    | false =>
      rw [List.filter_cons_of_neg (by simp [hp]), foldM_cons, h x List.mem_cons_self hp]
      exact ih b

theorem fold_map' {β : Type} (f : β → Val × Val → P β) : ∀ (l : List (Str × Val)) (d : β),
    foldM f d (Pickler.asItems l) = foldM (fun d (e : Str × Val) => f d (.str e.1, e.2)) d l
  | [], _ => rfl
  | e :: l, d => by
    simp only [Pickler.asItems, List.map_cons, foldM_cons]
    congr 1
    funext d'
    exact fold_map' f l d'

theorem foldM_append' {α β : Type} (f : β → α → P β) : ∀ (xs ys : List α) (b : β),
    foldM f b (xs ++ ys) = (foldM f b xs >>= fun b' => foldM f b' ys)
  | [], _, _ => rfl
  | x :: xs, ys, b => by
    rw [List.cons_append, foldM_cons, foldM_cons, bind_assoc']
    congr 1
    funext b'
    exact foldM_append' f xs ys b'

theorem foldM_congr {α β : Type} {f g : β → α → P β} : ∀ {xs : List α} {b : β}, (∀ x ∈ xs, ∀ b, f b x = g b x) →
    foldM f b xs = foldM g b xs
  | [], _, _ => rfl
  | x :: xs, b, h => by
    rw [foldM_cons, foldM_cons, h x List.mem_cons_self]
    congr 1
    funext b'
    exact foldM_congr (fun y hy => h y (List.mem_cons_of_mem _ hy))

/-- `keys=True`: string keys first, then the others -/
theorem entries_keyed {h : Heap} (hk : cfg.keys = true) (kvs : List (Val × Val)) (data : List (Str × Json))
    (hl : EscapedLast kvs)
    (hok : ∀ e ∈ strsOf true kvs, NameOk cfg.keys e.1 ∧ ValOk h env e.2) (hn : ((strsOf true kvs).map (·.1)).Nodup)
    (hd : ∀ e ∈ strsOf true kvs, e.1 ∉ data.map (·.1)) :
    Pickler.flattenEntries w cfg fl kvs [] data =
      (mapM fl ((strsOf true kvs).map (·.2)) >>= fun js =>
        foldM (encEntry w cfg fl) (data ++ ((strsOf true kvs).map (·.1)).zip js) (keyedOf kvs)) := by
  unfold Pickler.flattenEntries
  simp only [itemsExcl_nil, hk, if_true]
  rw [foldM_filter _ (fun kv : Val × Val => isStrV kv.1), strs_split hl, foldM_append', fold_map',
    foldM_entries (fl := fl) _ (·.1) (·.2) (strsOf true kvs) data
      (fun e he d => string_str hk (hok e he).1 (hok e he).2) hn hd, bind_assoc', bind_assoc']
  · congr 1
    funext js
    change (foldM _ _ (escaped kvs) >>= fun d => foldM _ d kvs) = _
    unfold keyedOf
    rw [foldM_append']
    congr 1
    · refine foldM_congr ?_
      intro x hx b
      obtain ⟨k, v⟩ := x
      have hx := (List.mem_filter.1 hx).2
      cases k <;> simp [escKey] at hx
      simp only [encEntry, isStrV, if_true, Pickler.flattenString, hx, hk, Bool.and_self, Pickler.escapeKey, bind_assoc']
      rfl
    · funext d
      rw [foldM_filter _ (fun kv : Val × Val => !isStrV kv.1)]
      · refine foldM_congr ?_
        intro x hx b
        obtain ⟨k, v⟩ := x
        have hx := (List.mem_filter.1 hx).2
        simp only [Bool.not_eq_true'] at hx
        simp only [encEntry, hx, Bool.false_eq_true, if_false]
      · intro x _ hx b
        obtain ⟨k, v⟩ := x
        cases k <;> simp [isStrV] at hx
        simp only [Pickler.flattenNonString]
        split <;> rfl
  · intro x _ hx b
    obtain ⟨k, v⟩ := x
    simp only [] at hx
    have : Pickler.flattenString w cfg fl k v b = Pickler.flattenStringTail w cfg fl k v b := by
      cases k <;> first | rfl | simp [isStrV] at hx
    rw [this]
    unfold Pickler.flattenStringTail
    rw [hk]
    split
    · cases k <;> first | rfl | simp [isStrV] at hx
    · rfl

theorem mapM_congr {σ α β : Type} {f g : α → PyM σ β} : ∀ {xs : List α}, (∀ x ∈ xs, f x = g x) → mapM f xs = mapM g xs
  | [], _ => rfl
  | x :: xs, h => by
    rw [mapM_cons, mapM_cons, h x List.mem_cons_self, mapM_congr (fun y hy => h y (List.mem_cons_of_mem _ hy))]

theorem mem_zip_fst {α β : Type} {xs : List α} {ys : List β} {p : α × β} (h : p ∈ xs.zip ys) : p.1 ∈ xs :=
  (List.of_mem_zip (a := p.1) (b := p.2) h).1

/-- a document without tags is a plain dict -/
theorem restoreTags_dict {kvs : List (Str × Json)} (h : ∀ k ∈ kvs.map (·.1), k ∉ Tags.all) :
    restoreTags env rs kvs = restoreDict env rs kvs := by
  have hn : ∀ t ∈ Tags.all, dhas t kvs = false := fun t ht => by
    rw [dhas_eq_false_iff]
    exact fun hm => h t hm ht
  unfold restoreTags
  rw [hn Tags.TUPLE (by decide), hn Tags.SET (by decide), hn Tags.B64 (by decide), hn Tags.B85 (by decide),
    hn Tags.BYTEARRAY (by decide), hn Tags.ID (by decide), hn Tags.ITERATOR (by decide), hn Tags.OBJECT (by decide),
    hn Tags.TYPE (by decide), hn Tags.REDUCE (by decide), hn Tags.FUNCTION (by decide), hn Tags.MODULE (by decide),
    hn Tags.REPR (by decide)]
  rfl

theorem jsonKey_not_tag {k : Str} (h : isJsonKey k = true) : k ∉ Tags.all := by
  have : ∀ t ∈ Tags.all, isJsonKey t = false := by decide
  intro hm
  rw [this k hm] at h
  cases h

/-- a key written as it is differs from the escaped ones -/
theorem pyEq_plain_ne {R : Addr → Addr → Prop} {s : Str} {k x : Val} (h : plainKey true (.str s) = true)
    (hk : plainKey true k = false) (hi : VIso R k x) : pyEq (.str s) x = false := by
  cases k <;> cases x <;> simp_all [VIso, pyEq, plainKey]
  rintro rfl
  simp_all

theorem keyOk_keyed (hkeys : env.keys = true) {k : Val} (h : KeyOk env k) (hs : plainKey true k = false) : ValueKey env k := by
  cases k with
  | str s =>
    simp only [plainKey, Bool.true_and, Bool.not_eq_false'] at hs
    rcases h with h | h
    · exfalso
      simp only [Pickler.needsEscape, Bool.or_eq_true] at hs
      rcases hs with hs | hs
      · rw [h.2 hkeys] at hs; cases hs
      · rw [nameOk_reserved h] at hs; cases hs
    · exact h.2.2
  | _ => simp_all [KeyOk]

/-- the keys written as they are have good names -/
theorem keyOk_name {s : Str} (hm : Matching w cfg env) (h : KeyOk env (.str s)) (hs : plainKey cfg.keys (.str s) = true) :
    NameOk cfg.keys s := by
  rw [hm.keys] at hs ⊢
  rcases h with h | h
  · exact h
  · have := collides_str.1 h.2.1
    simp [plainKey, this, h.1] at hs

/-- how the entries of a dict are arranged in the document: see `stringsFirst` -/
theorem order_keyed (hk : cfg.keys = true) {kvs : List (Val × Val)} (hl : EscapedLast kvs) :
    orderOf cfg kvs = Pickler.asItems (strsOf true kvs) ++ keyedOf kvs := by
  simp only [orderOf, hk, if_true, stringsFirst, keyedOf]
  rw [strs_split hl, List.append_assoc]
  rfl

/-- the keys=True phase on plain dicts -/
theorem dict_keyStore {b : Nat} {base : List (Str × Val)} {all : List (Val × Val)}
    (hv : ∀ e ∈ all, ValueKey env e.1 ∧ plainKey true e.1 = false) (hbase : ∀ e ∈ base, plainKey true (.str e.1) = true)
    (hpw : (all.map (·.1)).Pairwise (fun k k' => pyEq k k' = false)) :
    KeyStore w Bad b (fun acc => .dict (Pickler.asItems base ++ acc))
      (fun k v => dictSet b k v >>= fun _ => noteProxy b (.key k) v) all := by
  intro pre k v post hall acc kx x P u hr hp hisok hiso hb
  obtain ⟨hvk, hns⟩ := hv (k, v) (by rw [hall]; simp)
  simp only [] at hvk hns
  have hh : hashable u.heap kx = true := hr.hashable_iso hisok (valueKey_ok (h := w.heap) k hvk).2.1
  have hset : dictSet b kx x u = some (.ok (), { u with heap := u.heap.set b (.dict (Pickler.asItems base ++ (acc ++ [(kx, x)]))) }) := by
    simp only [dictSet, hh, if_true, hb]
    rw [vset_new]
    · simp
    · intro kv hkv
      rcases List.mem_append.1 hkv with h | h
      · obtain ⟨e, he, rfl⟩ := List.mem_map.1 h
        exact pyEq_plain_ne (hbase e he) hns hisok
      · obtain ⟨y, hy, hi⟩ := ItemsIso.mem hp kv h
        rw [hr.pyEq_iso hi hisok]
        rw [hall, List.map_append, List.pairwise_append] at hpw
        exact hpw.2.2 y.1 (List.mem_map_of_mem hy) k (by simp)
  change (dictSet b kx x >>= fun _ => noteProxy b (.key kx) x) u = _
  rw [bind_ok hset]
  refine noteProxy_none ?_
  exact hr.notProxy_set (o1 := .dict (Pickler.asItems base ++ (acc ++ [(kx, x)]))) hb
    (fun o ho => by cases o <;> simp_all [SameKind]) hiso

/-- the entries of a dict that was just registered under the identity `id` -/
theorem dictBody (hm : Matching w cfg env) (hkf : KeyFl cfg env fl) (h : Sim w cfg env fl rs2) {kvs : List (Val × Val)}
    {id : Ident} {s : PState} {u : UState} (hcell : EntriesOk w.heap env kvs) (hfit : ∀ kv ∈ kvs, Fit w env Bad kv.2)
    (hd : 0 ≤ s.depth) {Bad0 : Ctx} (hr : Rel w.heap Bad0 s.objs u) (hr1 : Rel w.heap Bad (s.objs ++ [id]) (regU u (.dict [])))
    (hw : Spot w.heap Bad (s.objs ++ [id]) (regU u (.dict [])) u.heap.length)
    {r} {s' : PState} (hrun : Pickler.flattenEntries w cfg fl kvs [] [] { s with objs := s.objs ++ [id] } = some (r, s')) :
    ∃ dd kvs' u2, r = .ok dd ∧ restoreTags env rs2 dd u = some (.ok (.ref u.heap.length), u2) ∧
      Step w cfg [u.heap.length] Bad { s with objs := s.objs ++ [id] } s' (regU u (.dict [])) u2 ∧
      u2.heap[u.heap.length]? = some (.dict kvs') ∧
      ItemsIso (Rof Bad s'.objs u2.objs) (orderOf cfg kvs) kvs' ∧ OwnOk (s.objs ++ [id]) s'.objs := by
  have hb1 : (regU u (.dict [])).heap[u.heap.length]? = some (.dict []) := by simp [regU]
  have hnok : ∀ e ∈ strsOf cfg.keys kvs, NameOk cfg.keys e.1 ∧ ValOk w.heap env e.2 := by
    intro e he
    have := hcell.1 _ (mem_strsOf he)
    exact ⟨keyOk_name hm this.1 (strsOf_plain he), this.2⟩
  have hfits : ∀ e ∈ strsOf cfg.keys kvs, Fit w env Bad e.2 := fun e he => hfit _ (mem_strsOf he)
  have hnd := strsOf_nodup (keys := cfg.keys) hcell.2.1
  have hmk : mkrefUnlessV1 env u.heap.length { u with heap := u.heap ++ [.dict []] } = some (.ok (), regU u (.dict [])) := by
    unfold mkrefUnlessV1
    rw [hm.v1]
    simp only [Bool.false_eq_true, if_false]
    rw [bind_ok (reg_run hr _)]
    rfl
  cases hk : cfg.keys with
  | false =>
    rw [hk] at hnok hfits hnd
    have hkvs : Pickler.asItems (strsOf false kvs) = kvs := all_strs (by rw [← hm.keys, hk]) (fun kv hkv => (hcell.1 kv hkv).1)
    have henc := entries_str (w := w) (cfg := cfg) (fl := fl) (strsOf false kvs) [] (by rw [hk]; exact hnok) hnd (by simp)
    rw [hkvs] at henc
    rw [henc] at hrun
    rw [bind_run] at hrun
    cases hmm : mapM fl ((strsOf false kvs).map (·.2)) { s with objs := s.objs ++ [id] } with
    | none => rw [hmm] at hrun; cases hrun
    | some p =>
      obtain ⟨r1, s1⟩ := p
      obtain ⟨js, us, acc, u2, e1, hlen, e2, hstep, hp, hb2, ho⟩ := simStrs h hnd true { s with objs := s.objs ++ [id] }
        (regU u (.dict [])) r1 s1 hd hfits hr1 hw hb1 hmm
      subst e1
      rw [hmm] at hrun
      simp only [pure_run, List.nil_append] at hrun
      cases hrun
      refine ⟨_, _, u2, rfl, ?_, hstep, hb2, ?_, ho⟩
      rotate_left
      · simp only [orderOf, hk, Bool.false_eq_true, if_false]
        have := hp.items
        rwa [hkvs] at this
      change restoreTags env rs2 (((strsOf false kvs).map (·.1)).zip js) u = _
      rw [restoreTags_dict]
      · unfold restoreDict
        rw [bind_ok (alloc_run _), bind_ok hmk, ← hm.keys, hk]
        simp only [Bool.false_eq_true, if_false]
        have : mapM (dictEntry rs2 u.heap.length) (((strsOf false kvs).map (·.1)).zip js) (regU u (.dict [])) = some (.ok us, u2) := by
          rw [← e2]; rfl
        rw [bind_ok this]
        rfl
      · rw [zip_keys _ _ (by simpa using hlen)]
        intro k hk'
        obtain ⟨e', he', rfl⟩ := List.mem_map.1 hk'
        exact (hnok e' he').1.1
  | true =>
    rw [hk] at hnok hfits hnd
    have hkeys : env.keys = true := by rw [← hm.keys, hk]
    have hl := hcell.2.2 hkeys
    rw [entries_keyed hk kvs [] hl (by rw [hk]; exact hnok) hnd (by simp), bind_run] at hrun
    cases hmm : mapM fl ((strsOf true kvs).map (·.2)) { s with objs := s.objs ++ [id] } with
    | none => rw [hmm] at hrun; cases hrun
    | some p =>
      obtain ⟨r1, s1⟩ := p
      obtain ⟨js, us, base, u2, e1, hlen, e2, hstep, hp, hb2, ho⟩ := simStrs h hnd false { s with objs := s.objs ++ [id] }
        (regU u (.dict [])) r1 s1 hd hfits hr1 hw hb1 hmm
      subst e1
      rw [hmm] at hrun
      simp only [List.nil_append] at hrun
      have hvk : ∀ e ∈ keyedOf kvs, ValueKey env e.1 ∧ plainKey true e.1 = false := by
        intro e he
        obtain ⟨h1, h2⟩ := keyed_mem he
        exact ⟨keyOk_keyed hkeys (hcell.1 e h1).1 h2, h2⟩
      have hpw := keyed_pairwise hcell.2.1
      have hbase : ∀ e ∈ base, plainKey true (.str e.1) = true := by
        intro e he
        have : e.1 ∈ base.map (·.1) := List.mem_map_of_mem he
        rw [hp.labels] at this
        obtain ⟨e', he', hee⟩ := List.mem_map.1 this
        rw [← hee]
        exact strsOf_plain he'
      have hjk : ∀ k ∈ (strsOf true kvs).map (·.1), isJsonKey k = false := by
        intro k hk'
        obtain ⟨e', he', rfl⟩ := List.mem_map.1 hk'
        exact (hnok e' he').1.2 rfl
      cases hf2 : foldM (encEntry w cfg fl)
          (((strsOf true kvs).map (·.1)).zip js) (keyedOf kvs) s1 with
      | none => rw [hf2] at hrun; cases hrun
      | some p =>
        obtain ⟨r2, s2⟩ := p
        obtain ⟨js2, us2, acc, u3, e3, hlen2, e4, hstep2, hp2, hb3, ho2⟩ := simKeyed hm hk hkf h u.heap.length
          (fun acc => .dict (Pickler.asItems base ++ acc)) _ (keyedOf kvs)
          (fun _ _ o ho => by cases o <;> simp_all [SameKind]) (fun _ _ hx => by cases hx) (dict_keyStore hvk hbase hpw) hpw (keyedOf kvs) [] []
          (((strsOf true kvs).map (·.1)).zip js) s1 u2 r2 s2 rfl (by rw [hstep.depth]; exact hd)
          (fun e he => ⟨(hvk e he).1, hfit e (keyed_mem he).1⟩)
          (fun e he hmem => by
            rw [zip_keys _ _ (by simpa using hlen)] at hmem
            have := hjk _ hmem
            rw [encKey_isJsonKey] at this
            cases this) hstep.rel (Or.inr (hw.step hr1 hstep)) trivial (by simpa using hb2) hf2
        subst e3
        rw [hf2] at hrun
        cases hrun
        have hstep3 := hstep.trans hstep2 (by simp [regU])
        refine ⟨_, _, u3, rfl, ?_, hstep3, hb3, ?_, ho.trans hstep.objs ho2⟩
        rotate_left
        · rw [order_keyed hk hl]
          exact All2.append (Paired.items (hp.mono hstep2.mono)) hp2
        change restoreTags env rs2 (((strsOf true kvs).map (·.1)).zip js ++ ((keyedOf kvs).map (fun e => encKey w cfg e.1)).zip js2) u = _
        have hz1 : ∀ kj ∈ ((strsOf true kvs).map (·.1)).zip js, isJsonKey kj.1 = false := fun kj hkj =>
          hjk _ (mem_zip_fst hkj)
        have hz2 : ∀ kj ∈ ((keyedOf kvs).map (fun e => encKey w cfg e.1)).zip js2, isJsonKey kj.1 = true := fun kj hkj => by
          obtain ⟨e', _, he'⟩ := List.mem_map.1 (mem_zip_fst hkj)
          rw [← he']
          exact encKey_isJsonKey _
        rw [restoreTags_dict]
        · unfold restoreDict
          rw [bind_ok (alloc_run _), bind_ok hmk, ← hm.keys, hk]
          simp only [if_true]
          obtain ⟨us1, hs1⟩ := mapM_skip (dictEntry1 rs2 u.heap.length)
            (((keyedOf kvs).map (fun e => encKey w cfg e.1)).zip js2) u2
            (fun kj hkj => by unfold dictEntry1; rw [if_pos (hz2 kj hkj)])
          obtain ⟨us2', hs2⟩ := mapM_skip (dictEntry2 env rs2 u.heap.length)
            (((strsOf true kvs).map (·.1)).zip js) u2
            (fun kj hkj => by unfold dictEntry2; rw [if_neg (by simp [hz1 kj hkj])])
          have p1 : mapM (dictEntry1 rs2 u.heap.length) (((strsOf true kvs).map (·.1)).zip js) (regU u (.dict [])) = some (.ok us, u2) := by
            rw [← e2]
            refine congrFun (mapM_congr ?_) _
            intro kj hkj
            unfold dictEntry1
            rw [if_neg (by simp [hz1 kj hkj])]
            congr 1
            funext v
            simp only [Bool.false_eq_true, if_false]
            exact (bind_pure' _).symm
          have p2 : mapM (dictEntry2 env rs2 u.heap.length) (((keyedOf kvs).map (fun e => encKey w cfg e.1)).zip js2) u2 = some (.ok us2, u3) := by
            rw [← e4]
            refine congrFun (mapM_congr ?_) _
            intro kj hkj
            unfold dictEntry2
            rw [if_pos (hz2 kj hkj)]
          rw [bind_ok (mapM_append_run p1 hs1), bind_ok (mapM_append_run hs2 p2)]
          rfl
        · rw [List.map_append, zip_keys _ _ (by simpa using hlen), zip_keys _ _ (by simpa using hlen2)]
          intro k hk'
          rcases List.mem_append.1 hk' with h' | h'
          · obtain ⟨e', he', rfl⟩ := List.mem_map.1 h'
            exact (hnok e' he').1.1
          · obtain ⟨e', _, rfl⟩ := List.mem_map.1 h'
            exact jsonKey_not_tag (encKey_isJsonKey _)

theorem simDict (hm : Matching w cfg env) (hkf : KeyFl cfg env fl) (h : Sim w cfg env fl rs2) {a : Addr}
    {kvs : List (Val × Val)} {s : PState} {u : UState}
    (ha : w.heap[a]? = some (.dict kvs)) (hd : 0 ≤ s.depth) (hr : Rel w.heap Bad s.objs u) (hf : Fit w env Bad (.ref a)) :
    SimRun w cfg (restoreStep env rs2) Bad (.ref a) s (Pickler.flattenBy w cfg fl (.ref a) s) u := by
  have e : Pickler.flattenBy w cfg fl (.ref a) = (Pickler.mkref cfg (.addr a) >>= fun new =>
      if new then Pickler.flattenEntries w cfg fl kvs [] [] >>= fun d => pure (.obj d) else Pickler.getref (.addr a)) := by
    simp only [Pickler.flattenBy, ha]
  rw [e]
  by_cases hmem : Ident.addr a ∈ s.objs
  · rw [bind_ok (mkref_old hm hmem)]
    exact simOld hr hf hmem
  · rw [bind_ok (mkref_new hm hmem)]
    intro r s' hrun
    simp only [if_true] at hrun
    have hcell : EntriesOk w.heap env kvs := by
      obtain ⟨o, ho, hok⟩ := hf.cell
      rw [ha] at ho
      injection ho with ho
      subst ho
      cases hok
      assumption
    have hab : a ∉ Bad := fun hb => hf.2.no a hb (.self a)
    have hr1 : Rel w.heap (Bad.enter a) (s.objs ++ [.addr a]) (regU u (.dict [])) :=
      hr.reg hmem (fun x h => Or.inr h) (fun x h => h) (fun x h => List.mem_cons_of_mem _ h) (Or.inr (Or.inl List.mem_cons_self)) (Or.inr ⟨ha, trivial⟩)
    have hspot := Spot.opened hr1 (a := a) (b := u.heap.length) (k := s.objs.length) List.mem_cons_self (by simp) (by simp [regU, hr.len])
    have hfit : ∀ kv ∈ kvs, Fit w env (Bad.enter a) kv.2 := fun kv hkv =>
      hf.enter ha (by simp only [Obj.parts, List.mem_append]; exact Or.inr (List.mem_map_of_mem hkv)) (hcell.1 kv hkv).2 (fun _ e => by cases e)
    rw [bind_run] at hrun
    cases hmm : Pickler.flattenEntries w cfg fl kvs [] [] { s with objs := s.objs ++ [.addr a] } with
    | none => rw [hmm] at hrun; cases hrun
    | some p =>
      obtain ⟨r1, s1⟩ := p
      obtain ⟨dd, kvs', u2, e1, e2, hstep, hb, hiso, _⟩ := dictBody hm hkf h hcell hfit hd hr hr1 hspot hmm
      subst e1
      rw [hmm] at hrun
      simp only [pure_run] at hrun
      cases hrun
      refine ⟨_, .ref u.heap.length, u2, rfl, e2, hstep.close hr ha hb (by intro i d hi; cases hi) (by simp only [SameCell]; exact hiso), ?_⟩
      simp only [VIso]
      exact hstep.iso_new hr hab

end JP.Sim
