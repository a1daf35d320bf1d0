import Verif.NumericKeys
/-!
# When `numeric_keys` makes no difference
-/
namespace JP.NumericKeys
open JP Pickler

/-- begins like a number: with a digit or a minus sign -/
def Numeral (t : Str) : Prop := ∃ c r, t = c :: r ∧ (c = 45 ∨ 48 ≤ c ∧ c ≤ 57)

/-- consists of characters -/
def Chars (t : Str) : Prop := ∀ c ∈ t, c < 0x110000

/-- what a key of a dictionary has to be like: the texts that `repr` and `json` give for a number are the same and look like a number -/
def KeyOk (F : JsonText.FloatText) (w : World) (k : Val) : Prop :=
  match keyText F k with
  | some t => w.repr k = .ok t ∧ Numeral t
  | none => ∀ t, reprKey w k = .ok t → Chars t

/-- if two keys have the same text, neither is a number -/
def Apart (F : JsonText.FloatText) (w : World) (k1 k2 : Val) : Prop :=
  ∀ t, reprKey w k1 = .ok t → reprKey w k2 = .ok t → keyText F k1 = none ∧ keyText F k2 = none

/-- the keys of a dictionary -/
def KeysOk (F : JsonText.FloatText) (w : World) (kvs : List (Val × Val)) : Prop :=
  (∀ kv ∈ kvs, KeyOk F w kv.1) ∧ kvs.Pairwise (fun e1 e2 => Apart F w e1.1 e2.1)

/-- the names of an object are made of characters, and the entries of an instance of a subclass of dict are like those of a dictionary -/
structure InstOk (F : JsonText.FloatText) (w : World) (i : Inst) : Prop where
  items : KeysOk F w i.items
  attrs : ∀ kv ∈ i.attrs, Chars kv.1
  slots : ∀ k ∈ i.info.slots, Chars k
  dirAttrs : ∀ kv ∈ i.dirAttrs, Chars kv.1
  hfields : ∀ kv ∈ i.hfields, Chars kv.1

structure HeapOk (F : JsonText.FloatText) (w : World) : Prop where
  dict : ∀ (a : Nat) kvs, w.heap[a]? = some (.dict kvs) → KeysOk F w kvs
  inst : ∀ (a : Nat) i, w.heap[a]? = some (.inst i) → InstOk F w i

/-- what `fail_safe` returns has no numbers as keys -/
def SafeOk (cfg : PCfg) : Prop := ∀ f e j, cfg.failSafe = some f → f e = .ok j → plain j = j

end JP.NumericKeys
