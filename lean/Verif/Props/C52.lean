import Verif.Handlers
/-!
# C52 — UUIDs, arrays, compiled regular expressions, locks, queues
-/
namespace JP.C52
open JP PyM Handlers

/-! ### UUIDs -/

/-- a hexadecimal digit -/
def IsHex (c : Nat) : Prop := (48 ≤ c ∧ c ≤ 57) ∨ (97 ≤ c ∧ c ≤ 102) ∨ (65 ≤ c ∧ c ≤ 70)

theorem hexDigit_isHex {n : Nat} (h : n < 16) : IsHex (hexDigit n) := by
  unfold hexDigit IsHex
  split <;> omega

theorem hexValue_digit {n : Nat} (h : n < 16) : hexValue (hexDigit n) = some n := by
  unfold hexDigit hexValue
  by_cases h1 : n < 10
  · simp only [h1, if_true]
    rw [if_pos (by omega)]
    congr 1
    omega
  · simp only [h1, if_false]
    rw [if_neg (by omega), if_pos (by omega)]
    congr 1
    omega

theorem hexText_isHex : ∀ k n, ∀ c ∈ hexText k n, IsHex c
  | 0, _, _, h => by cases h
  | k + 1, n, c, h => by
    unfold hexText at h
    rcases List.mem_append.1 h with h | h
    · exact hexText_isHex k _ c h
    · rw [List.mem_singleton.1 h]
      exact hexDigit_isHex (Nat.mod_lt _ (by omega))

theorem hexText_length : ∀ k n, (hexText k n).length = k
  | 0, _ => rfl
  | k + 1, n => by simp [hexText, hexText_length k]

theorem parseHex_hexText : ∀ k n, n < 16 ^ k → parseHex (hexText k n) = .ok n
  | 0, n, h => by
    have : n = 0 := by simpa using h
    rw [this]; rfl
  | k + 1, n, h => by
    have ih := parseHex_hexText k (n / 16) (by
      rw [Nat.pow_succ] at h
      exact Nat.div_lt_of_lt_mul (by omega))
    unfold hexText
    unfold parseHex at *
    rw [List.foldl_append, ih]
    simp only [List.foldl_cons, List.foldl_nil, hexValue_digit (Nat.mod_lt n (show 0 < 16 by omega))]
    congr 1
    omega

/-- text in which the first character of the pattern does not occur is left as it is -/
theorem removeAll_id {p : Nat} {ps : Str} : ∀ {s : Str}, (∀ c ∈ s, c ≠ p) → removeAll (p :: ps) s = s
  | [], _ => rfl
  | c :: s, h => by
    have ih := removeAll_id (p := p) (ps := ps) (s := s) (fun d hd => h d (.tail _ hd))
    have hc := h c (.head _)
    unfold removeAll at *
    unfold replaceGo
    have : startsWith (c :: s) (p :: ps) = false := by
      simp [startsWith, List.isPrefixOf, hc, Ne.symm hc]
    rw [this]
    simp only [Bool.false_eq_true, if_false]
    rw [ih]

theorem dropWhile_id {f : Nat → Bool} : ∀ {s : Str}, (∀ c ∈ s, f c = false) → s.dropWhile f = s
  | [], _ => rfl
  | c :: s, h => by simp [List.dropWhile, h c (.head _)]

theorem stripBraces_id {s : Str} (h : ∀ c ∈ s, IsHex c) : stripBraces s = s := by
  have hf : ∀ c ∈ s, (c == 123 || c == 125) = false := by
    intro c hc
    have := h c hc
    unfold IsHex at this
    simp
    omega
  unfold stripBraces
  simp only
  rw [dropWhile_id hf, dropWhile_id (by intro c hc; exact hf c (List.mem_reverse.1 hc)), List.reverse_reverse]

theorem ofHex_of {s : Str} {n : Nat} (hh : ∀ c ∈ s, IsHex c) (hl : s.length = 32) (hp : parseHex s = .ok n) : UUID.ofHex s = .ok { int := n } := by
  have hr : ∀ {p : Nat} {ps : Str}, ¬ IsHex p → removeAll (p :: ps) s = s := fun hp =>
    removeAll_id (fun c hc he => hp (he ▸ hh c hc))
  unfold UUID.ofHex
  rw [hr (p := 117) (ps := p!"rn:") (by unfold IsHex; omega), hr (p := 117) (ps := p!"uid:") (by unfold IsHex; omega), stripBraces_id hh,
    hr (p := 45) (ps := []) (by unfold IsHex; omega)]
  simp only [hl, hp, ne_eq, not_true_eq_false, if_false]
  rfl

/-- `A`-`F` for `a`-`f` -/
def upper (c : Nat) : Nat := if 97 ≤ c ∧ c ≤ 102 then c - 32 else c

theorem hexValue_upper {n : Nat} (h : n < 16) : hexValue (upper (hexDigit n)) = some n := by
  have : ∀ m : Fin 16, hexValue (upper (hexDigit m.val)) = some m.val := by decide
  exact this ⟨n, h⟩

theorem upper_isHex {c : Nat} (h : IsHex c) : IsHex (upper c) := by
  unfold IsHex upper at *
  split <;> omega

theorem parseHex_upper : ∀ k n, n < 16 ^ k → parseHex ((hexText k n).map upper) = .ok n
  | 0, n, h => by
    have : n = 0 := by simpa using h
    rw [this]; rfl
  | k + 1, n, h => by
    have ih := parseHex_upper k (n / 16) (by
      rw [Nat.pow_succ] at h
      exact Nat.div_lt_of_lt_mul (by omega))
    unfold hexText
    unfold parseHex at *
    rw [List.map_append, List.foldl_append, ih]
    simp only [List.map_cons, List.map_nil, List.foldl_cons, List.foldl_nil, hexValue_upper (Nat.mod_lt n (show 0 < 16 by omega))]
    congr 1
    omega

theorem pow_eq : (16 : Nat) ^ 32 = 2 ^ 128 := by decide +kernel

/-- the constructor of `UUID` reads what the property `hex` writes -/
theorem ofHex_hex (n : Nat) (h : n < 2 ^ 128) : UUID.ofHex (hexText 32 n) = .ok { int := n } := by
  rw [← pow_eq] at h
  exact ofHex_of (hexText_isHex 32 n) (hexText_length 32 n) (parseHex_hexText 32 n h)

/-- A UUID reads back as the UUID with the same number. -/
theorem uuid_roundtrip (u : UUID) (h : u.int < 2 ^ 128) (data : List (Str × Json)) :
    ∃ d, uuidFlatten u data = .obj d ∧ ∃ v, uuidRestore d = .ok v ∧ v.int = u.int := by
  refine ⟨_, rfl, { int := u.int }, ?_, rfl⟩
  unfold uuidRestore Unpickler.item
  rw [dget_dset_same]
  exact ofHex_hex _ h

/-- documents of other writers: digits in upper case are read as well -/
theorem uuid_upper (n : Nat) (h : n < 2 ^ 128) : uuidRestore [(p!"hex", .str ((hexText 32 n).map upper))] = .ok { int := n } := by
  rw [← pow_eq] at h
  have hi : Unpickler.item p!"hex" [(p!"hex", Json.str ((hexText 32 n).map upper))] = .ok (.str ((hexText 32 n).map upper)) := by simp [Unpickler.item, dget_cons]
  unfold uuidRestore
  rw [hi]
  refine ofHex_of (fun c hc => ?_) (by rw [List.length_map, hexText_length]) (parseHex_upper 32 n h)
  obtain ⟨d, hd, rfl⟩ := List.mem_map.1 hc
  exact upper_isHex (hexText_isHex 32 n d hd)

/-- Different UUIDs have different documents. -/
theorem uuid_distinct (u v : UUID) (hu : u.int < 2 ^ 128) (hv : v.int < 2 ^ 128) (h : uuidFlatten u [] = uuidFlatten v []) : u.int = v.int := by
  obtain ⟨d, h1, x, h2, h3⟩ := uuid_roundtrip u hu []
  obtain ⟨d', h4, y, h5, h6⟩ := uuid_roundtrip v hv []
  rw [← h, h1] at h4
  injection h4 with h4
  subst h4
  rw [h2] at h5
  injection h5 with h5
  rw [← h3, ← h6, h5]

/-- RFC 4122's name space for DNS -/
def sampleUUID : UUID := { int := 0x6ba7b8109dad11d180b400c04fd430c8, isSafe := some true }

example : sampleUUID.int < 2 ^ 128 := by decide +kernel
example : hexText 32 sampleUUID.int = p!"6ba7b8109dad11d180b400c04fd430c8" := by decide +kernel
/-- the constructor also takes the other spellings -/
example : (UUID.ofHex p!"urn:uuid:6ba7b810-9dad-11d1-80b4-00c04fd430c8").toOption = some { sampleUUID with isSafe := none } := by decide +kernel
example : (UUID.ofHex p!"{6ba7b810-9dad-11d1-80b4-00c04fd430c8}").toOption = some { sampleUUID with isSafe := none } := by decide +kernel
example : (UUID.ofHex p!"6ba7b810").toOption = none := by decide +kernel

/-- `is_safe` is lost (equality of UUIDs does not look at it). -/
theorem is_safe_lost : ∃ d, uuidFlatten sampleUUID [] = .obj d ∧ (uuidRestore d).toOption = some { sampleUUID with isSafe := none } ∧ sampleUUID.isSafe = some true :=
  ⟨_, rfl, by decide +kernel, rfl⟩

/-! ### locks, queues -/

/-- A lock reads back as a new lock that is held exactly if the first one was. -/
theorem lock_roundtrip (locked : Bool) (data : List (Str × Json)) : ∃ d, lockFlatten locked data = .obj d ∧ lockRestore d = locked := by
  refine ⟨_, rfl, ?_⟩
  unfold lockRestore
  rw [dget_dset_same]
  cases locked <;> rfl

/-- a document without the entry gives a free lock -/
example : lockRestore [(p!"py/object", .str p!"_thread.lock")] = false := by decide

/-- A queue reads back as an empty, unbounded queue: its items and its bound are not in the document. -/
theorem queue_emptied (q : Queue) (data : List (Str × Json)) : ∃ d, queueFlatten q data = .obj d ∧ (queueRestore d).items = [] ∧ (queueRestore d).maxsize = 0 := ⟨data, rfl, rfl, rfl⟩

example : queueFlatten { items := [.int 1], maxsize := 3 } [] = queueFlatten { items := [], maxsize := 0 } [] := rfl

/-! ### compiled regular expressions -/

theorem dumpable_json : ∀ (d : List (Str × Json)), dumpable (d.map (fun kv => (kv.1, Raw.json kv.2))) = .ok d
  | [] => rfl
  | (k, j) :: d => by
    simp only [List.map_cons, dumpable, dumpable_json d]
    rfl

theorem dset_json (k : Str) (j : Json) : ∀ (d : List (Str × Json)),
    dset k (Raw.json j) (d.map (fun kv => (kv.1, Raw.json kv.2))) = (dset k j d).map (fun kv => (kv.1, Raw.json kv.2))
  | [] => rfl
  | (k', j') :: d => by
    simp only [List.map_cons, dset]
    by_cases h : k' = k
    · simp [h]
    · simp only [h, if_false, List.map_cons, dset_json k j d]

/-- A compiled regular expression for text is compiled again from the same pattern and flags. -/
theorem regex_roundtrip (s : Str) (flags : Nat) (data : List (Str × Json)) :
    ∃ d, dumpable (regexFlatten (.text s) flags data) = .ok d ∧ regexRestore d = .ok (.str s, .int flags) := by
  refine ⟨dset p!"flags" (.int flags) (dset p!"pattern" (.str s) data), ?_, ?_⟩
  · unfold regexFlatten
    simp only [dset_json, dumpable_json]
  · unfold regexRestore Unpickler.item
    rw [dget_dset_ne (by decide), dget_dset_same, dget_dset_same]
    rfl

/-- A compiled regular expression for bytes cannot be encoded: the handler leaves the bytes in the document, and the JSON backend raises `TypeError`. -/
theorem regex_bytes (b : Bytes) (flags : Nat) : dumpable (regexFlatten (.bytes b) flags []) = .error .typeError := rfl

example : (dumpable (regexFlatten (.text p!"a+b") 34 [(p!"py/object", .str p!"re.Pattern")])).toOption.map List.length = some 3 := by decide

/-! ### `array.array` -/

/-- rounding to single precision twice is the same as once -/
def Rounding (f32 : UInt64 → UInt64) : Prop := ∀ b, f32 (f32 b) = f32 b

theorem intItem_stored {v x : Val} (lo hi : Int) (hlo : lo ≤ 0) (hhi : 1 < hi) (h : intItem lo hi v = .ok x) : intItem lo hi x = .ok x := by
  unfold intItem at h ⊢
  cases v <;> first | (simp at h; done) | skip
  · rename_i b
    injection h with h
    cases h
    cases b
    · simp only [Bool.false_eq_true, if_false]
      rw [if_pos ⟨hlo, by omega⟩]
    · simp only [if_true]
      rw [if_pos ⟨by omega, hhi⟩]
  · rename_i i
    simp only at h
    split at h
    · rename_i hb
      injection h with h
      cases h
      simp only
      rw [if_pos hb]
    · cases h

theorem arrayItem_stored {f32 : UInt64 → UInt64} (hf : Rounding f32) {tc : Nat} {v x : Val} (h : arrayItem f32 tc v = .ok x) : arrayItem f32 tc x = .ok x := by
  unfold arrayItem at h ⊢
  split at h
  · rename_i hc; rw [if_pos hc]; exact intItem_stored _ _ (by decide) (by decide) h
  rename_i hc; rw [if_neg hc]
  split at h
  · rename_i hc; rw [if_pos hc]; exact intItem_stored _ _ (by decide) (by decide) h
  rename_i hc; rw [if_neg hc]
  split at h
  · rename_i hc; rw [if_pos hc]; exact intItem_stored _ _ (by decide) (by decide) h
  rename_i hc; rw [if_neg hc]
  split at h
  · rename_i hc; rw [if_pos hc]; exact intItem_stored _ _ (by decide) (by decide) h
  rename_i hc; rw [if_neg hc]
  split at h
  · rename_i hc; rw [if_pos hc]; exact intItem_stored _ _ (by decide) (by decide) h
  rename_i hc; rw [if_neg hc]
  split at h
  · rename_i hc; rw [if_pos hc]; exact intItem_stored _ _ (by decide) (by decide) h
  rename_i hc; rw [if_neg hc]
  split at h
  · rename_i hc; rw [if_pos hc]; exact intItem_stored _ _ (by decide) (by decide) h
  rename_i hc; rw [if_neg hc]
  split at h
  · rename_i hc; rw [if_pos hc]; exact intItem_stored _ _ (by decide) (by decide) h
  rename_i hc; rw [if_neg hc]
  split at h
  · rename_i hc; rw [if_pos hc]
    split at h
    · injection h with h; cases h; rfl
    · cases h
  rename_i hc; rw [if_neg hc]
  split at h
  · rename_i hc; rw [if_pos hc]
    split at h
    · injection h with h; cases h; simp only; rw [hf]
    · cases h
  rename_i hc; rw [if_neg hc]
  split at h
  · rename_i hc; rw [if_pos hc]
    split at h
    · injection h with h; cases h; rfl
    · cases h
  · cases h

theorem arrayNew_stored {f32 : UInt64 → UInt64} (hf : Rounding f32) {tc : Nat} : ∀ {vs xs : List Val}, arrayNew f32 tc vs = .ok xs → arrayNew f32 tc xs = .ok xs
  | [], xs, h => by
    have h' := h
    unfold arrayNew at h
    split at h
    · injection h with h
      subst h
      exact h'
    · cases h
  | v :: vs, xs, h => by
    unfold arrayNew at h
    cases hi : arrayItem f32 tc v with
    | error e => rw [hi] at h; cases h
    | ok x =>
      rw [hi] at h
      simp only at h
      cases hr : arrayNew f32 tc vs with
      | error e => rw [hr] at h; cases h
      | ok ys =>
        rw [hr] at h
        injection h with h
        subst h
        have ih := arrayNew_stored hf hr
        show (match arrayItem f32 tc x with | .error e => _ | .ok x => _) = _
        rw [arrayItem_stored hf hi]
        simp only [ih]
        rfl

/-- An array reads back as an array with the same type code and the same items, given that the list of its items reads back as an equal list.
(`vs` is whatever the array was made from.) -/
theorem array_roundtrip (f32 : UInt64 → UInt64) (hf : Rounding f32) (fl : Val → P Json) (rs : Json → U Val) (tc : Nat) (vs xs : List Val) (harr : arrayNew f32 tc vs = .ok xs) (tolist : Val)
    (data : List (Str × Json)) (s s' : PState) (j : Json) (h : arrayFlatten fl tc tolist data s = some (.ok j, s')) (u u1 : UState) (a : Addr)
    (hl : ∀ s1 s2 jl, fl tolist s1 = some (.ok jl, s2) → rs jl u = some (.ok (.ref a), u1)) (ha : u1.heap[a]? = some (.list xs)) :
    ∃ d, j = .obj d ∧ arrayRestore f32 rs d u = some (.ok (tc, xs), u1) := by
  unfold arrayFlatten at h
  obtain ⟨jl, s1, h1, h2⟩ := bind_eq_ok.1 h
  cases h2
  refine ⟨_, rfl, ?_⟩
  unfold arrayRestore Unpickler.item
  rw [dget_dset_ne (by decide), dget_dset_same, dget_dset_same]
  refine (bind_ok (s' := u) rfl).trans ?_
  refine (bind_ok (s' := u) rfl).trans ?_
  refine (bind_ok (hl _ _ _ h1)).trans ?_
  refine (bind_ok (a := u1.heap) (s' := u1) rfl).trans ?_
  simp only [ha]
  rw [arrayNew_stored hf harr]
  rfl

/-- an array of signed bytes -/
example : (arrayNew id 98 [.int 3, .int (-128), .bool true]).toOption = some [.int 3, .int (-128), .int 1] := by rfl
/-- out of range -/
example : (arrayNew id 66 [.int 256]).toOption = none := by rfl

/-- the type codes for integers, with the size in bytes and whether there are negative numbers -/
inductive IntCode : Nat → Nat → Bool → Prop
  | b : IntCode 98 1 true
  | B : IntCode 66 1 false
  | h : IntCode 104 2 true
  | H : IntCode 72 2 false
  | i : IntCode 105 4 true
  | I : IntCode 73 4 false
  | l : IntCode 108 8 true
  | L : IntCode 76 8 false
  | q : IntCode 113 8 true
  | Q : IntCode 81 8 false

/-- An array of integers holds exactly the numbers that fit into its items. -/
theorem array_range {tc size : Nat} {signed : Bool} (h : IntCode tc size signed) (f32 : UInt64 → UInt64) (n : Int) :
    arrayNew f32 tc [.int n] = .ok [.int n] ↔ (if signed then -(2 ^ (8 * size - 1) : Int) ≤ n ∧ n < 2 ^ (8 * size - 1) else 0 ≤ n ∧ n < 2 ^ (8 * size)) := by
  cases h <;> simp [arrayNew, arrayItem, intItem] <;> split <;> rename_i hq <;> split at hq <;> simp_all [Except.map]

example : arrayNew id 72 [.int 65535] = .ok [.int 65535] ∧ arrayNew id 72 [.int 65536] ≠ .ok [.int 65536] :=
  ⟨(array_range .H id _).2 (by decide), fun h => absurd ((array_range .H id _).1 h) (by decide)⟩

end JP.C52
