import Verif.Proofs.PNumeric
import Verif.SampleProgram
import Verif.ApiSpec
/-!
# C79 — `numeric_keys`

With `numeric_keys=True` the numbers among the keys of a dictionary are left to the JSON backend.  Standard JSON has no keys but texts, so the text
is the one that `encode` returns without the option, whenever `repr` and `json` agree on the numbers (integers, finite floats) and no two keys of
one dictionary have the same text.

Otherwise it is not: `True` is written as `true` instead of `True` (`bool_key`), NaN and the infinities likewise (`nan_key`), and `{1: …, "1": …}` becomes an
object with two entries of the same name (`twice`).
-/
namespace JP.C79
open JP PyM NumericKeys

/-- The option makes no difference: the same text or the same exception. -/
theorem same (F : JsonText.FloatText) (w : World) (cfg : PCfg) (n : Nat) (v : Val) (s : PState) (hw : HeapOk F w) (hf : SafeOk cfg) :
    (NumericKeys.encode F w cfg n v true s).map (·.1) = (Api.encode w cfg n v true s).map (·.1) := by
  unfold NumericKeys.encode
  cases hk : cfg.keys with
  | true => rfl
  | false =>
    rw [if_neg (by decide)]
    have h := sim_flatten (F := F) (w := w) (cfg := cfg) ⟨hw, hk, hf⟩ n v {} {} ⟨rfl, rfl, rfl, rfl⟩
    have e1 : Api.encode (world F w) cfg n v true s = (do
      let j ← Pickler.flatten (world F w) cfg n v
      pure (w.dumps (plain j))) {} := rfl
    have e2 : Api.encode w cfg n v true s = (do
      let j ← Pickler.flatten w cfg n v
      pure (w.dumps j)) {} := rfl
    rw [e1, e2, bind_run, bind_run]
    revert h
    generalize Pickler.flatten (world F w) cfg n v {} = x
    generalize Pickler.flatten w cfg n v {} = y
    intro h
    match x, y, h with
    | none, none, _ => rfl
    | some (.ok a, t), some (.ok b, t'), h =>
      have h1 : b = plain a := h.1
      subst h1
      rfl
    | some (.error e, t), some (.error e', t'), h =>
      have h1 : e = e' := h.1
      subst h1
      rfl

/-- `encode(v, numeric_keys=True, …)` returns `text` -/
def Encodes (F : JsonText.FloatText) (w : World) (cfg : PCfg) (v : Val) (text : Str) : Prop :=
  ∃ n, ∀ m s, n ≤ m → (NumericKeys.encode F w cfg m v true s).map (·.1) = some (.ok text)

/-- The texts are the same. -/
theorem same_text (F : JsonText.FloatText) (w : World) (cfg : PCfg) (v : Val) (text : Str) (hw : HeapOk F w) (hf : SafeOk cfg) (h : JP.Encodes w cfg v text) :
    Encodes F w cfg v text := by
  obtain ⟨n, s', h⟩ := h
  refine ⟨n, fun m s hm => ?_⟩
  rw [same F w cfg m v s hw hf, h m s hm]
  rfl

/-- With `keys=True` there are no conditions. -/
theorem keys_ignored (F : JsonText.FloatText) (w : World) (cfg : PCfg) (n : Nat) (v : Val) (r : Bool) (s : PState) (hk : cfg.keys = true) :
    NumericKeys.encode F w cfg n v r s = Api.encode w cfg n v r s := by
  unfold NumericKeys.encode
  rw [hk]
  rfl

/-- All integers are as required: `json` writes them as `repr` does. -/
theorem int_key {F : JsonText.FloatText} {w : World} {i : Int} (h : w.repr (.int i) = .ok (JsonText.intText i)) : KeyOk F w (.int i) := by
  refine ⟨h, ?_⟩
  have hn : ∀ f n : Nat, 0 < f → ∃ c r, JsonText.natText f n = c :: r ∧ 48 ≤ c ∧ c ≤ 57 := by
    intro f
    induction f with
    | zero => intro n h; exact absurd h (by decide)
    | succ f ih =>
      intro n _
      unfold JsonText.natText
      by_cases h10 : n < 10
      · rw [if_pos h10]
        exact ⟨_, _, rfl, by omega, by omega⟩
      · rw [if_neg h10]
        by_cases hf : 0 < f
        · obtain ⟨c, r, e, h1, h2⟩ := ih (n / 10) hf
          rw [e]
          exact ⟨c, _, rfl, h1, h2⟩
        · have : f = 0 := by omega
          subst this
          exact ⟨48 + n % 10, [], rfl, by omega, by omega⟩
  cases i with
  | ofNat n =>
    obtain ⟨c, r, e, h1, h2⟩ := hn (n + 1) n (by omega)
    exact ⟨c, r, e, .inr ⟨h1, h2⟩⟩
  | negSucc n => exact ⟨45, _, rfl, .inl rfl⟩

/-! ### examples -/

/-- `repr` of numbers as in Python; other objects print as `R` -/
def world (h : Heap) : World where
  heap := h
  repr v := match v with
    | .int i => .ok (JsonText.intText i)
    | .bool b => .ok (if b then p!"True" else p!"False")
    | .float f => if floatIsNan f then .ok p!"nan" else .ok p!"1.5"
    | _ => .ok p!"R"
  pystr _ := .ok p!"S"
  dumps := JsonText.dumps C41.sampleFloat
  handler _ := none

/-- NaN and one other number -/
def F : JsonText.FloatText where
  «show» f := if floatIsNan f then p!"NaN" else p!"1.5"
  read _ := none

/-- `d = {1: d, "x": {-20: None}, 1.5: "y", None: 0, (1, 2): 3}` -/
def h : Heap := [.dict [(.int 1, .ref 0), (.str p!"x", .ref 1), (.float 0x3FF8000000000000, .str p!"y"), (.none, .int 0), (.tuple 1 [.int 1, .int 2], .int 3)],
  .dict [(.int (-20), .none)]]

def encoded (w : World) (v : Val) : Option Str :=
  match NumericKeys.encode F w {} 20 v true {} with
  | some (.ok t, _) => some t
  | _ => none

def without (w : World) (v : Val) : Option Str :=
  match Api.encode w {} 20 v true {} with
  | some (.ok t, _) => some t
  | _ => none

example : HeapOk F (world h) where
  dict := by
    intro a kvs ha
    match a, ha with
    | 0, ha =>
      cases ha
      refine ⟨?_, ?_⟩
      · intro kv hkv
        simp only [List.mem_cons, List.not_mem_nil, or_false] at hkv
        rcases hkv with e | e | e | e | e <;> subst e
        · exact int_key rfl
        · intro t ht; cases ht; unfold Chars; decide
        · exact ⟨rfl, 49, p!".5", rfl, by decide⟩
        · intro t ht; cases ht; unfold Chars; decide
        · intro t ht; cases ht; unfold Chars; decide
      · simp only [List.pairwise_cons, List.mem_cons, List.not_mem_nil, or_false, forall_eq_or_imp, forall_eq, false_implies, implies_true, and_true, List.Pairwise.nil]
        refine ⟨⟨?_, ?_, ?_, ?_⟩, ⟨?_, ?_, ?_⟩, ⟨?_, ?_⟩, ?_⟩ <;> intro t h1 h2 <;> cases h1 <;> revert h2 <;> first | (intro _; exact ⟨rfl, rfl⟩) | decide +kernel
    | 1, ha =>
      cases ha
      refine ⟨?_, ?_⟩
      · intro kv hkv
        simp only [List.mem_cons, List.not_mem_nil, or_false] at hkv
        subst hkv
        exact int_key rfl
      · exact .cons (fun _ h => by cases h) .nil
  inst := by
    intro a i ha
    match a, ha with
    | 0, ha => cases ha
    | 1, ha => cases ha

example : encoded (world h) (.ref 0) = some p!"{\"1\": {\"py/id\": 0}, \"x\": {\"-20\": null}, \"1.5\": \"y\", \"null\": 0, \"R\": 3}" ∧
    encoded (world h) (.ref 0) = without (world h) (.ref 0) := by decide +kernel

/-- `{True: 1}` -/
theorem bool_key : encoded (world [.dict [(.bool true, .int 1)]]) (.ref 0) = some p!"{\"true\": 1}" ∧
    without (world [.dict [(.bool true, .int 1)]]) (.ref 0) = some p!"{\"True\": 1}" := by decide +kernel

/-- `{float("nan"): 1}` -/
theorem nan_key : encoded (world [.dict [(.float 0x7FF8000000000000, .int 1)]]) (.ref 0) = some p!"{\"NaN\": 1}" ∧
    without (world [.dict [(.float 0x7FF8000000000000, .int 1)]]) (.ref 0) = some p!"{\"nan\": 1}" := by decide +kernel

/-- `{1: "a", "1": "b"}` -/
theorem twice : encoded (world [.dict [(.int 1, .str p!"a"), (.str p!"1", .str p!"b")]]) (.ref 0) = some p!"{\"1\": \"a\", \"1\": \"b\"}" ∧
    without (world [.dict [(.int 1, .str p!"a"), (.str p!"1", .str p!"b")]]) (.ref 0) = some p!"{\"1\": \"b\"}" := by decide +kernel

end JP.C79
