import Verif.Api
import Verif.ApiSpec
import Verif.Proofs.Base64
import Verif.Proofs.SimTop
import Verif.Props.C10
import Verif.Proofs.Run
/-!
# C11 — binary data
-/
namespace JP.C11
open JP PyM Unpickler

/-- `base64.b64decode(base64.b64encode(b)) == b`, as jsonpickle calls them -/
theorem b64_round_trip (b : Bytes) : b64decode (b64encode b) = b := b64decode_encode b

theorem b85_round_trip (b : Bytes) : b85decode (b85encode b) = b := b85decode_encode b

/-! ### the text is the standard one -/

/-- the last `k` binary digits of `n`, most significant first -/
def bits : Nat → Nat → List Bool
  | 0, _ => []
  | k + 1, n => (n / 2 ^ k % 2 == 1) :: bits k n

/-- RFC 4648, table 1 -/
def alphabet64 : Str := p!"ABCDEFGHIJKLMNOPQRSTUVWXYZabcdefghijklmnopqrstuvwxyz0123456789+/"

/-- RFC 4648: the characters that are not padding stand for groups of six bits; together they are the bits of the bytes,
filled with zeros to a multiple of six; the text is filled with `=` to a multiple of four. -/
structure IsBase64 (b : Bytes) (text : Str) : Prop where
  split : ∃ (digits : List Nat) (pad : Nat), text = digits.map (fun d => alphabet64.getD d 0) ++ List.replicate pad 61 ∧ (∀ d ∈ digits, d < 64) ∧ pad < 3 ∧
    ∃ zeros, zeros < 6 ∧ digits.flatMap (bits 6) = b.flatMap (fun x => bits 8 x.toNat) ++ List.replicate zeros false
  quads : text.length % 4 = 0

theorem b64char_eq : ∀ n, n < 64 → b64char n = alphabet64.getD n 0 := by decide

theorem cons_eq {a b : Bool} {as bs : List Bool} (h : a = b) (h' : as = bs) : a :: as = b :: bs := by rw [h, h']

theorem bit_eq {x y : Nat} (h : x % 2 = y % 2) : (x % 2 == 1) = (y % 2 == 1) := by rw [h]

theorem bits3 (a b c : UInt8) : bits 6 (a.toNat / 4) ++ bits 6 (a.toNat % 4 * 16 + b.toNat / 16) ++ bits 6 (b.toNat % 16 * 4 + c.toNat / 64) ++ bits 6 (c.toNat % 64) =
    bits 8 a.toNat ++ bits 8 b.toNat ++ bits 8 c.toNat := by
  have ha := u8lt a
  have hb := u8lt b
  have hc := u8lt c
  simp only [bits, List.cons_append, List.nil_append]
  repeat (refine cons_eq (bit_eq (by omega)) ?_)
  rfl

theorem b64_standard (b : Bytes) : IsBase64 b (b64encode b) := by
  induction b using b64encode.induct with
  | case1 => exact ⟨⟨[], 0, rfl, (fun _ h => by cases h), by decide, 0, by decide, rfl⟩, rfl⟩
  | case2 a =>
    have ha := u8lt a
    refine ⟨⟨[a.toNat / 4, a.toNat % 4 * 16], 2, ?_, ?_, by decide, 4, by decide, ?_⟩, by simp [b64encode]⟩
    · simp only [b64encode, List.map_cons, List.map_nil]
      rw [b64char_eq _ (by omega), b64char_eq _ (by omega)]
      rfl
    · intro d hd
      simp only [List.mem_cons, List.not_mem_nil, or_false] at hd
      omega
    · simp only [bits, List.flatMap_cons, List.flatMap_nil, List.cons_append, List.nil_append]
      repeat (refine cons_eq (bit_eq (by omega)) ?_)
      refine cons_eq (by simp; omega) (cons_eq (by simp; omega) (cons_eq (by simp; omega) (cons_eq (by simp; omega) rfl)))
  | case3 a b =>
    have ha := u8lt a
    have hb := u8lt b
    refine ⟨⟨[a.toNat / 4, a.toNat % 4 * 16 + b.toNat / 16, b.toNat % 16 * 4], 1, ?_, ?_, by decide, 2, by decide, ?_⟩, by simp [b64encode]⟩
    · simp only [b64encode, List.map_cons, List.map_nil]
      rw [b64char_eq _ (by omega), b64char_eq _ (by omega), b64char_eq _ (by omega)]
      rfl
    · intro d hd
      simp only [List.mem_cons, List.not_mem_nil, or_false] at hd
      omega
    · simp only [bits, List.flatMap_cons, List.flatMap_nil, List.cons_append, List.nil_append]
      repeat (refine cons_eq (bit_eq (by omega)) ?_)
      refine cons_eq (by simp; omega) (cons_eq (by simp; omega) rfl)
  | case4 a b c rest ih =>
    have ha := u8lt a
    have hb := u8lt b
    have hc := u8lt c
    obtain ⟨⟨ds, pad, h1, h2, h3, zs, h4, h5⟩, h6⟩ := ih
    refine ⟨⟨[a.toNat / 4, a.toNat % 4 * 16 + b.toNat / 16, b.toNat % 16 * 4 + c.toNat / 64, c.toNat % 64] ++ ds, pad, ?_, ?_, h3, zs, h4, ?_⟩, ?_⟩
    · rw [b64encode, h1, b64char_eq _ (by omega), b64char_eq _ (by omega), b64char_eq _ (by omega), b64char_eq _ (by omega)]
      rfl
    · intro d hd
      rcases List.mem_append.1 hd with hd | hd
      · simp only [List.mem_cons, List.not_mem_nil, or_false] at hd
        omega
      · exact h2 d hd
    · rw [List.flatMap_append, h5]
      have := bits3 a b c
      simp only [List.flatMap_cons, List.flatMap_nil, List.append_nil, List.append_assoc] at this ⊢
      rw [← List.append_assoc (bits 6 (a.toNat / 4)), ← List.append_assoc, ← List.append_assoc]
      simp only [List.append_assoc]
      rw [← List.append_assoc (bits 8 a.toNat), ← List.append_assoc (bits 8 a.toNat ++ bits 8 b.toNat), List.append_assoc (bits 8 a.toNat), ← this]
      simp only [List.append_assoc]
    · rw [b64encode]
      simp only [List.length_cons]
      omega

/-! ### undecodable texts -/

def in64 (c : Nat) : Bool := alphabet64.contains c

/-- Without padding, a text is undecodable exactly if the number of its characters from the alphabet is not a multiple of
four (other characters are ignored). -/
theorem a2b_none_iff (s : Str) (hp : (61 : Nat) ∉ s) : ∀ (q left pads : Nat), q < 4 →
    (a2b q left pads s = none ↔ (q + (s.filter in64).length) % 4 ≠ 0) := by
  have hin : ∀ c v, b64val c = some v → in64 c = true := by
    intro c v hv
    have hlt : c < 128 := by
      unfold b64val at hv
      repeat' split at hv
      all_goals first | omega | cases hv
    revert v
    have : ∀ c, c < 128 → (b64val c).isSome → in64 c = true := by decide
    intro v hv
    exact this c hlt (by rw [hv]; rfl)
  have hout : ∀ c, b64val c = none → in64 c = false := by
    intro c hv
    rw [Bool.eq_false_iff]
    intro h
    have : ∀ c ∈ alphabet64, (b64val c).isSome := by decide
    have := this c (List.contains_iff_mem.1 h)
    rw [hv] at this
    cases this
  induction s with
  | nil =>
    intro q left pads hq
    simp only [a2b]
    split <;> simp <;> omega
  | cons c cs ih =>
    intro q left pads hq
    have hc : c ≠ 61 := fun e => hp (by rw [e]; exact List.mem_cons_self)
    have ih := ih (fun h => hp (List.mem_cons_of_mem _ h))
    rw [a2b, if_neg hc]
    cases hv : b64val c with
    | none =>
      rw [List.filter_cons_of_neg (by rw [hout c hv]; decide)]
      exact ih q left pads hq
    | some v =>
      rw [List.filter_cons_of_pos (hin c v hv), List.length_cons]
      match q, hq with
      | 0, _ => simp only []; rw [ih 1 _ _ (by omega)]; omega
      | 1, _ => simp only [Option.map_eq_none_iff]; rw [ih 2 _ _ (by omega)]; omega
      | 2, _ => simp only [Option.map_eq_none_iff]; rw [ih 3 _ _ (by omega)]; omega
      | 3, _ => simp only [Option.map_eq_none_iff]; rw [ih 0 _ _ (by omega)]; omega

theorem b64_undecodable (s : Str) (hp : (61 : Nat) ∉ s) (h : (s.filter in64).length % 4 ≠ 0) : b64decode s = [] := by
  unfold b64decode
  rw [(a2b_none_iff s hp 0 0 0 (by decide)).2 (by simpa using h)]
  rfl

/-- the 85 characters of the git/Mercurial alphabet -/
theorem b85group_bad {a b c d e : Nat} (h : a ∉ b85alphabet ∨ b ∉ b85alphabet ∨ c ∉ b85alphabet ∨ d ∉ b85alphabet ∨ e ∉ b85alphabet) : b85group a b c d e = none := by
  have hv : ∀ c, c ∉ b85alphabet → b85val c = none := by
    intro c hc
    have hlen : b85alphabet.length = 85 := by decide
    have : ¬ b85alphabet.idxOf c < 85 := by rw [← hlen, List.idxOf_lt_length_iff]; exact hc
    simp [b85val, this]
  unfold b85group
  rcases h with h | h | h | h | h <;> rw [hv _ h]
  · cases b85val a <;> rfl
  · cases b85val a <;> cases b85val b <;> rfl
  · cases b85val a <;> cases b85val b <;> cases b85val c <;> rfl
  · cases b85val a <;> cases b85val b <;> cases b85val c <;> cases b85val d <;> rfl

/-- A text with a character that is not in the base85 alphabet is undecodable. -/
theorem b85_undecodable (s : Str) (h : ∃ c ∈ s, c ∉ b85alphabet) : b85decode s = [] := by
  have key : b85dec s = none := by
    induction s using b85dec.induct with
    | case1 => obtain ⟨c, hc, _⟩ := h; cases hc
    | case2 a => rw [b85dec, b85group_bad (by simp at h; exact .inl h)]; rfl
    | case3 a b => rw [b85dec, b85group_bad (by simp at h; grind)]; rfl
    | case4 a b c => rw [b85dec, b85group_bad (by simp at h; grind)]; rfl
    | case5 a b c d => rw [b85dec, b85group_bad (by simp at h; grind)]; rfl
    | case6 a b c d e rest x y h2 h1 ih =>
      rcases Classical.em (a ∉ b85alphabet ∨ b ∉ b85alphabet ∨ c ∉ b85alphabet ∨ d ∉ b85alphabet ∨ e ∉ b85alphabet) with hb | hb
      · rw [b85group_bad hb] at h1
        cases h1
      · have := ih (by simp only [List.mem_cons] at h; grind)
        rw [this] at h2
        cases h2
    | case7 a b c d e rest h1 ih => rw [b85dec]; split <;> simp_all
  unfold b85decode
  rw [key]
  rfl

/-! ### through `encode` and `decode` -/

/-- the document for a byte string -/
def docOf (cfg : PCfg) (b : Bytes) : Json :=
  if cfg.useBase85 then .obj [(p!"py/b85", .str (b85encode b))] else .obj [(p!"py/b64", .str (b64encode b))]

theorem decodes_leaf {env : UEnv} {text : Str} {j : Json} (hl : env.loads text = some j) {u : UState} {f : Nat → Val}
    (h : ∀ rs u, restoreStep env rs j u = some (.ok (f (u.nextId + 1)), { u with nextId := u.nextId + 1 })) : ∃ n u', Decodes env text u (f n) u' ∧ u'.heap = u.heap := by
  refine ⟨u.nextId + 1, { u with objs := [], idx := [], proxies := [], nextId := u.nextId + 1 }, ⟨1, fun m hm => ?_⟩, rfl⟩
  obtain ⟨m, rfl⟩ : ∃ k, m = k + 1 := ⟨m - 1, by omega⟩
  unfold Api.decode
  rw [hl]
  refine (bind_ok (a := f (u.nextId + 1)) (s' := { u with objs := [], idx := [], proxies := [], nextId := u.nextId + 1 }) ?_).trans rfl
  unfold restoreTop
  rw [if_pos rfl]
  exact (bind_ok (modify_run _ _)).trans ((bind_ok (h _ _)).trans rfl)

/-- A value that is written without looking inside it, in any mode. -/
theorem encodes_leaf {w : World} {cfg : PCfg} {v : Val} {j : Json} (h : ∀ fl s, Pickler.flattenStep w cfg fl v s = Pickler.cached cfg v.ident (pure j) s) :
    Encodes w cfg v (w.dumps j) := by
  have key : ∃ s', Pickler.cached cfg v.ident (pure j) {} = some (.ok j, s') := by
    unfold Pickler.cached
    split
    · exact ⟨{}, rfl⟩
    · exact ⟨_, rfl⟩
  obtain ⟨s', hs⟩ := key
  refine ⟨1, s', fun m s hm => ?_⟩
  obtain ⟨m, rfl⟩ : ∃ k, m = k + 1 := ⟨m - 1, by omega⟩
  refine (bind_ok (a := j) (s' := s') ?_).trans rfl
  unfold Pickler.flattenTop
  rw [if_pos rfl]
  refine (bind_ok (modify_run _ _)).trans ?_
  exact (h _ _).trans hs

/-- A byte string and a bytearray come back with the same bytes, with either codec and all other options, provided that the
backend reads back what it wrote for this document. -/
theorem binary_round_trip (w : World) (cfg : PCfg) (env : UEnv) (b : Bytes) (n : Nat) (u : UState)
    (hl : env.loads (w.dumps (docOf cfg b)) = some (docOf cfg b))
    (hl' : env.loads (w.dumps (.obj [(p!"py/bytea", docOf cfg b)])) = some (.obj [(p!"py/bytea", docOf cfg b)])) :
    (∃ text m u', Encodes w cfg (.bytes n b) text ∧ Decodes env text u (.bytes m b) u' ∧ u'.heap = u.heap) ∧
    (∃ text m u', Encodes w cfg (.bytearray n b) text ∧ Decodes env text u (.bytearray m b) u' ∧ u'.heap = u.heap) := by
  constructor
  · obtain ⟨m, u', h1, h2⟩ := decodes_leaf hl (u := u) (f := fun m => .bytes m b) (fun rs u => Sim.restore_bytes cfg env rs b u)
    exact ⟨_, m, u', encodes_leaf (fun _ _ => rfl), h1, h2⟩
  · obtain ⟨m, u', h1, h2⟩ := decodes_leaf hl' (u := u) (f := fun m => .bytearray m b) (fun rs u => Sim.restore_bytearray cfg env rs b u)
    exact ⟨_, m, u', encodes_leaf (fun _ _ => rfl), h1, h2⟩

/-- what cannot be a payload: no string, a string with a lone surrogate, or undecodable text -/
def Undecodable64 (p : Json) : Prop :=
  ∀ s, p = .str s → (∃ c ∈ s, 0xD800 ≤ c ∧ c ≤ 0xDFFF) ∨ ((61 : Nat) ∉ s ∧ (s.filter in64).length % 4 ≠ 0)

def Undecodable85 (p : Json) : Prop := ∀ s, p = .str s → ∃ c ∈ s, c ∉ b85alphabet

theorem utf8ok_false {s : Str} (h : ∃ c ∈ s, 0xD800 ≤ c ∧ c ≤ 0xDFFF) : utf8ok s = false := by
  rw [Bool.eq_false_iff]
  intro h'
  obtain ⟨c, hc, h1, h2⟩ := h
  have := List.all_eq_true.1 h' c hc
  simp [h1, h2] at this

/-- An undecodable payload gives an empty byte string. -/
theorem undecodable_empty (env : UEnv) (text : Str) (p : Json) (u : UState) (h : env.loads text = some (.obj [(p!"py/b64", p)]) ∧ Undecodable64 p ∨
    env.loads text = some (.obj [(p!"py/b85", p)]) ∧ Undecodable85 p) : ∃ m u', Decodes env text u (.bytes m []) u' ∧ u'.heap = u.heap := by
  rcases h with ⟨hl, hu⟩ | ⟨hl, hu⟩
  · refine decodes_leaf hl (f := fun m => .bytes m []) (fun rs u => ?_)
    have e : restoreBase64 [(Tags.B64, p)] = .ok [] := by
      cases p with
      | str s =>
        change Except.ok (if utf8ok s then b64decode s else []) = _
        rcases hu s rfl with h | h
        · rw [utf8ok_false h]; rfl
        · rw [b64_undecodable s h.1 h.2, ite_self]
      | _ => rfl
    change (PyM.ofExcept (restoreBase64 [(Tags.B64, p)]) >>= fun b => fresh >>= fun n => (pure (.bytes n b) : U Val)) u = _
    rw [e]
    rfl
  · refine decodes_leaf hl (f := fun m => .bytes m []) (fun rs u => ?_)
    have e : restoreBase85 [(Tags.B85, p)] = .ok [] := by
      cases p with
      | str s =>
        change Except.ok (if utf8ok s then b85decode s else []) = _
        rw [b85_undecodable s (hu s rfl), ite_self]
      | _ => rfl
    change (PyM.ofExcept (restoreBase85 [(Tags.B85, p)]) >>= fun b => fresh >>= fun n => (pure (.bytes n b) : U Val)) u = _
    rw [e]
    rfl

/-! ### examples -/

example : b64encode [104, 105] = p!"aGk=" ∧ b85encode [104, 101, 108, 108, 111] = p!"Xk~0{Zv" := by decide +kernel

example : Undecodable64 (.str p!"abc") ∧ Undecodable64 (.int 3) ∧ Undecodable85 (.str p!"ab c") := by
  refine ⟨fun s h => ?_, fun s h => (by cases h), fun s h => ?_⟩ <;> cases h
  · exact .inr (by decide)
  · exact ⟨32, by decide⟩

example (b : Bytes) (hb : b = [0, 255, 128, 7]) : ∃ text m u', Encodes (Sample.program.world []) { useBase85 := true } (.bytes 1 b) text ∧
    Decodes (Sample.program.env) text {} (.bytes m b) u' ∧ u'.heap = [] := by
  subst hb
  exact (binary_round_trip (Sample.program.world []) { useBase85 := true } Sample.program.env _ 1 {} (by decide +kernel) (by decide +kernel)).1

end JP.C11
