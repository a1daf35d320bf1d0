import Verif.Proofs.PInst
import Verif.Proofs.Base64
import Verif.TextSpec
/-! # What the encoder produces can be told from its JSON text -/
namespace JP.Pickler
open JP PyM

theorem strOk_append_ascii {s t : Str} (hs : StrOk s) (ht : StrOk t) (h : ∀ c ∈ s.getLast?, c < 0xD800) :
    StrOk (s ++ t) := by
  refine ⟨fun c hc => (List.mem_append.1 hc).elim (hs.1 c) (ht.1 c), ?_⟩
  intro pre hi lo post e hh
  rcases List.append_eq_append_iff.1 e with ⟨m, h1, h2⟩ | ⟨m, h1, h2⟩
  · -- `pre = s ++ m`
    exact ht.2 m hi lo post h2 hh
  · match m, h1, h2 with
    | [], h1, h2 => exact ht.2 [] hi lo post h2.symm hh
    | [x], h1, h2 =>
      injection h2 with h2 h3
      subst h2
      have := h hi (by rw [h1]; simp)
      omega
    | x :: y :: m, h1, h2 =>
      injection h2 with h2 h3
      injection h3 with h3 h4
      subst h2; subst h3
      exact hs.2 pre hi lo m h1 hh

theorem strOk_module {n : Str} (h : StrOk n) : StrOk (n ++ 47 :: n) := by
  have h1 : StrOk (n ++ [47]) := by
    refine ⟨fun c hc => ?_, ?_⟩
    · rcases List.mem_append.1 hc with hc | hc
      · exact h.1 c hc
      · rw [List.mem_singleton.1 hc]; decide
    · intro pre hi lo post e hh
      rcases List.eq_nil_or_concat post with rfl | ⟨p, x, rfl⟩
      · have : lo = 47 := by
          have := congrArg List.getLast? e
          simp at this
          exact this.symm
        omega
      · have e' : n ++ [47] = (pre ++ hi :: lo :: p) ++ [x] := by rw [e]; simp
        have := List.append_inj_left' e' rfl
        exact h.2 pre hi lo p this hh
  rw [show n ++ 47 :: n = (n ++ [47]) ++ n by simp]
  exact strOk_append_ascii h1 h (by simp)

theorem Writable.arr {js : List Json} (h : ∀ j ∈ js, j.Writable) : (Json.arr js).Writable := by
  induction js with
  | nil => trivial
  | cons j js ih =>
    exact ⟨h j (List.mem_cons_self ..), ih (fun j hj => h j (List.mem_cons_of_mem _ hj))⟩

theorem Writable.kvs {kvs : List (Str × Json)} (h : ∀ kv ∈ kvs, StrOk kv.1 ∧ kv.2.Writable) : Json.WritableKv kvs := by
  induction kvs with
  | nil => trivial
  | cons kv kvs ih =>
    have := h kv (List.mem_cons_self ..)
    exact ⟨this.1, this.2, ih (fun kv hkv => h kv (List.mem_cons_of_mem _ hkv))⟩

theorem Writable.obj {kvs : List (Str × Json)} (hn : (kvs.map (·.1)).Nodup)
    (h : ∀ kv ∈ kvs, StrOk kv.1 ∧ kv.2.Writable) : (Json.obj kvs).Writable := ⟨hn, Writable.kvs h⟩

/-- one encoding, with strings that survive -/
def textScope {w : World} {root : Val} (ht : TextOk w.heap root) (hw : PlainText w) : Scope w :=
  { Scope.ofRoot w root with
    S := StrOk
    sVal := by
      rintro s (h | h | h)
      · exact ht.str s h
      · cases h
      · cases h; exact strOk_of_ascii (by decide)
    sType := by
      rintro s (h | h | h)
      · exact ht.type s h
      · cases h
      · cases h
    sFunc := by
      rintro s (h | h | h)
      · exact ht.func s h
      · cases h
      · cases h
    sModule := by
      rintro s (h | h | h)
      · exact strOk_module (ht.module s h)
      · cases h
      · cases h
    sClass := by
      rintro a i (h | h | h) hi
      · exact ht.cls a i h hi
      · cases h
      · cases h
    sClone := strOk_of_ascii (by decide)
    sRepr := fun _ h => hw.repr _ _ h
    sPystr := fun _ h => hw.pystr _ _ h }

theorem writable_bytes {k s : Str} (hk : ∀ c ∈ k, c < 128) (hs : ∀ c ∈ s, c < 128) : (Json.obj [(k, .str s)]).Writable :=
  ⟨by simp, strOk_of_ascii hk, strOk_of_ascii hs, trivial⟩

def writableInv {w : World} {cfg : PCfg} {root : Val} (ht : TextOk w.heap root) (hw : PlainText w) (hs : SafeOk cfg) :
    Inv w cfg where
  scope := textScope ht hw
  I _ s := ∀ p ∈ s.flattened, p.2.Writable
  Ie _ s := ∀ p ∈ s.flattened, p.2.Writable
  JC _ := Json.Writable
  JD _ := Json.Writable
  JB _ := Json.Writable
  K := StrOk
  RefOk := True
  wf _ := True
  wfChild _ _ := trivial
  tracksDepth := False
  exact := false
  IIe := id
  catches _ _ _ := id
  failSafe _ _ _ := id
  log _ hI _ _ := hI
  refOk _ _ := trivial
  ref {_ _ n} _ _ _ := by
    have : (Json.obj [(Tags.ID, .int n)]).Writable := ⟨by simp, strOk_of_ascii (by decide), trivial, trivial⟩
    exact ⟨this, this⟩
  push _ hI := hI
  pop _ hI := by
    split
    · intro p hp; cases hp
    · exact hI
  popE _ := id
  InSeen _ _ _ := True
  popSeen _ _ := trivial
  store _ _ hI hj _ := by
    intro p hp
    rcases List.mem_cons.mp hp with rfl | hp
    · exact hj
    · exact hI p hp
  stored _ hI hm := hI _ hm
  jBC hj _ := hj
  depthEq hf := hf.elim
  jSafe hf he := hs _ _ _ hf he
  jB64 := writable_bytes (by decide) (b64encode_ascii _)
  jB85 := writable_bytes (by decide) (b85encode_ascii _)
  jBa64 := ⟨by simp, strOk_of_ascii (by decide), writable_bytes (by decide) (b64encode_ascii _), trivial⟩
  jBa85 := ⟨by simp, strOk_of_ascii (by decide), writable_bytes (by decide) (b85encode_ascii _), trivial⟩
  jNull := trivial
  jBool := trivial
  jInt := trivial
  jFloat := by
    rintro d f (h | h | h)
    · exact ht.float f h
    · cases h
    · cases h
  jStr := id
  jCD := id
  jCB := id
  jArrD := Writable.arr
  jArrB := Writable.arr
  jObjD := Writable.obj
  jObjB := Writable.obj
  jDate _ hp hn hk hc hj := Writable.obj (Logic.nodup_dset hn) (fun kv hkv => (Logic.mem_dset hkv).elim
    (fun e => by subst e; exact ⟨strOk_of_ascii (s := p!"__reduce__") (by decide), Writable.arr (by simp only [List.mem_cons, List.not_mem_nil, or_false]; rintro x (rfl | rfl); exact hc; exact Writable.arr (by simp only [List.mem_cons]; rintro y (rfl | hy); exact strOk_of_ascii hp; exact hj y hy))⟩) (hk kv))
  kUser h _ := h
  kName k hk := strOk_of_ascii (by revert k; decide)
  kRepr {v s} _ hv h := by
    unfold reprKey at h
    split at h
    · cases h; exact strOk_of_ascii (by decide)
    · exact (hv _ rfl).elim
    · split at h
      · next e => cases h; exact hw.repr _ _ e
      · split at h
        · exact hw.pystr _ _ h
        · cases h
  kEsc _ := strOk_of_ascii (fun c hc => (List.mem_append.1 hc).elim
    (fun h => by have : ∀ c ∈ Tags.JSON_KEY, c < 128 := by decide
                 exact this c h) (hw.dumps _ c))
  kField {a i kv} h hi hk := by
    rcases h with h | h | h
    · exact ht.str _ (.step h (.inst hi (.hfieldName (k := kv.1) (v := kv.2) hk)))
    · cases h
    · cases h
  kTag _ k hk := strOk_of_ascii (by revert k; decide)
  kAlways k hk := strOk_of_ascii (by revert k; decide)

theorem flatten_writable {w : World} {cfg : PCfg} {v : Val} (ht : TextOk w.heap v) (hw : PlainText w) (hs : SafeOk cfg)
    {n : Nat} {s s1 : PState} {j : Json} (h0 : ∀ p ∈ s.flattened, p.2.Writable)
    (hr : flatten w cfg n v s = some (.ok j, s1)) : j.Writable :=
  ((writableInv ht hw hs).flatten_ok (d := ⟨0, []⟩) (.inl .self) trivial h0 hr).1

end JP.Pickler
