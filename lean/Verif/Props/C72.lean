import Verif.Proofs.DataIso
import Verif.SampleData
/-!
# C72 — encoding what `decode` returned gives the same text again

For data: lists, dicts, tuples, bytes, classes, functions, modules and instances of classes without pickling protocol (also of
subclasses of `list`), with any sharing and any cycles.  (The model keeps the elements of a set in the order in which they were
added, Python does not: for graphs with sets the theorem says nothing about CPython.)
-/
namespace JP.C72
open JP PIso

/-- `encode(decode(text)) == text` for a text that `encode` made, whatever existed when it was decoded.  `w'` is the world in which the
result is encoded: its heap is the one that `decode` left. -/
theorem same_text_again (w w' : World) (cfg : PCfg) (env : UEnv) (v x : Val) (text : Str) (u u' : UState)
    (hc : Covered w cfg env v) (hd : DataClasses w v) (hg : env.Globals)
    (he : Encodes w cfg v text) (hx : Decodes env text u x u')
    (hh : w'.heap = u'.heap) (hj : w'.dumps = w.dumps) (hr : w'.handler = w.handler) : Encodes w' cfg x text := by
  obtain ⟨R, h1, hv, hR⟩ := rebuilt hc hd hg he hx
  exact encodes_twin ⟨h1, hj, fun c => by rw [hr], hc.matching.unpicklable, hc.matching.makeRefs, hc.matching.maxDepth, fun a b h => by
    rw [hh]; exact hR a b h⟩ hv he

/-- What any number of rounds of `decode` and `encode` may lead to: a text is decoded in some state, and what comes out is encoded. -/
inductive Rounds (w : World) (cfg : PCfg) (env : UEnv) (text : Str) : Str → Prop
  | start : Rounds w cfg env text text
  | round {t t' : Str} {u u' : UState} {x : Val} : Rounds w cfg env text t → Decodes env t u x u' →
      Encodes { w with heap := u'.heap } cfg x t' → Rounds w cfg env text t'

/-- after any number of rounds there is still the same text -/
theorem rounds (w : World) (cfg : PCfg) (env : UEnv) (v : Val) (text t : Str) (hc : Covered w cfg env v) (hd : DataClasses w v) (hg : env.Globals)
    (he : Encodes w cfg v text) (hr : Rounds w cfg env text t) : t = text := by
  induction hr with
  | start => rfl
  | round _ hx ht ih =>
    subst ih
    exact ht.unique (same_text_again w _ cfg env v _ _ _ _ hc hd hg he hx rfl rfl rfl)

/-- the sample data: a list that contains itself, shared instances, slots, a list subclass, … -/
example (keys : Bool) (text : Str) (x : Val) (u u' : UState) (he : Encodes (Sample.program.world Sample.data) { keys := keys } (.ref 0) text)
    (hx : Decodes (Sample.program.env keys) text u x u') : Encodes (Sample.program.world u'.heap) { keys := keys } x text :=
  same_text_again _ _ _ _ _ _ _ _ _ (Sample.data_covered keys) Sample.data_classes (Sample.program_globals keys) he hx rfl rfl rfl

/-- there is such a text, and it can be decoded -/
example : ∃ text x u', Encodes (Sample.program.world Sample.data) {} (.ref 0) text ∧ Decodes Sample.program.env text {} x u' :=
  (Sample.data_covered false).total {}

/-- the first text, and the text of what `decode` made of it (which lies in other cells) -/
example : ((Sample.program.trip Sample.data {} 20 (.ref 0)).bind fun (x, h) => Sample.res (Api.encode (Sample.program.world h) {} 20 x true {})) =
      Sample.res (Api.encode (Sample.program.world Sample.data) {} 20 (.ref 0) true {}) ∧
    ((Sample.program.trip Sample.data {} 20 (.ref 0)).map fun (_, h) => h.length) ≠ some Sample.data.length := by decide +kernel

end JP.C72
