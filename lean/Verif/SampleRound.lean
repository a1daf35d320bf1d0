import Verif.SampleProgram
import Verif.SampleGraph
import Verif.Props.C41
/-!
# A sample environment and graph for the round-trip theorems
-/
namespace JP.Sample
open JP

theorem Program.matching (p : Program) (h : Heap) (cfg : PCfg) (h1 : cfg.unpicklable = true) (h2 : cfg.makeRefs = true)
    (h3 : cfg.maxDepth = none) : Matching (p.world h) cfg (p.env cfg.keys) where
  unpicklable := h1
  makeRefs := h2
  maxDepth := h3
  keys := rfl
  v1 := rfl
  handler _ := rfl
  loads j hj := JsonText.loads_dumps C41.sampleFloat_lawful j hj

theorem Program.plain (p : Program) (h : Heap) : PlainText (p.world h) where
  repr v s hs := by cases hs; exact strOk_of_ascii (by decide)
  pystr v s hs := by cases hs; exact strOk_of_ascii (by decide)
  dumps j := JsonText.dumps_ascii C41.sampleFloat_lawful j

theorem safeOk_none {cfg : PCfg} (h : cfg.failSafe = none) : SafeOk cfg := by
  intro f e j hf; rw [h] at hf; cases hf

/-- a scalar or a reference -/
def simpleVal : Val → Bool
  | .none | .bool _ | .int _ | .float _ | .str _ | .bytes _ _ | .bytearray _ _ | .ref _ => true
  | _ => false

theorem simpleVal_ok {h : Heap} {env : UEnv} : ∀ {v : Val}, simpleVal v = true → ValOk h env v
  | .none, _ | .bool _, _ | .int _, _ | .float _, _ | .str _, _ | .bytes _ _, _ | .bytearray _ _, _ | .ref _, _ => trivial

def nameOkB (s : Str) : Bool := !Tags.all.contains s && !startsWith s Tags.JSON_KEY

theorem nameOkB_ok {s : Str} {keys : Bool} (h : nameOkB s = true) : NameOk keys s := by
  simp only [nameOkB, Bool.and_eq_true, Bool.not_eq_true', List.contains_eq_mem] at h
  exact ⟨by simpa using h.1, fun _ => h.2⟩

theorem attrsOk_of {h : Heap} {env : UEnv} {attrs : List (Str × Val)}
    (hb : attrs.all (fun kv => nameOkB kv.1 && kv.1 != p!"default_factory" && !startsWith kv.1 p!"__" && simpleVal kv.2) = true)
    (hn : (attrs.map (·.1)).Nodup) : AttrsOk h env attrs := by
  refine ⟨fun kv hkv => ?_, hn⟩
  have := List.all_eq_true.1 hb kv hkv
  simp only [Bool.and_eq_true, bne_iff_ne, Bool.not_eq_true'] at this
  exact ⟨nameOkB_ok this.1.1.1, this.1.1.2, this.1.2, simpleVal_ok this.2⟩

theorem entriesOk_of {h : Heap} {env : UEnv} {kvs : List (Val × Val)}
    (hb : kvs.all (fun kv => (match kv.1 with | .str s => nameOkB s | _ => false) && simpleVal kv.2) = true)
    (hn : (kvs.map (·.1)).Pairwise (fun k k' => pyEq k k' = false)) : EntriesOk h env kvs := by
  refine ⟨fun kv hkv => ?_, hn, fun _ => escapedLast_of fun kv hkv => ?_⟩
  rotate_left
  · have := List.all_eq_true.1 hb kv hkv
    simp only [Bool.and_eq_true] at this
    cases hk : kv.1 with
    | str s =>
      simp only [hk] at this
      exact (nameOkB_ok this.1).noCollision
    | _ => exact fun ⟨t, e, _⟩ => by cases e
  have := List.all_eq_true.1 hb kv hkv
  simp only [Bool.and_eq_true] at this
  refine ⟨?_, simpleVal_ok this.2⟩
  cases hk : kv.1 <;> simp only [hk] at this <;> first | exact Or.inl (nameOkB_ok this.1) | (exact absurd this.1 (by decide))

/-- cell 11 is an empty list -/
theorem noReach11 {a : Addr} (ha : a ≠ 11) : ¬ Reach graph (.ref 11) a := by
  intro h
  cases h with
  | self => exact ha rfl
  | cell h1 h2 _ => cases h1; cases h2

theorem noReachArgs {l : Nat} {a : Addr} (ha : a ≠ 11) : ¬ Reach graph (.tuple l [.int 1, .ref 11]) a := by
  intro h
  cases h with
  | tuple h1 h2 =>
    simp only [List.mem_cons, List.not_mem_nil, or_false] at h1
    rcases h1 with rfl | rfl
    · cases h2
    · exact noReach11 ha h2

theorem graph_supported (keys : Bool) : Supported graph (program.env keys) (.ref 0) := by
  refine supported_of trivial (by decide) (by decide) (by decide) (fun a ha => ?_)
  have ha : a < 14 := ha
  match a, ha with
  | 0, _ =>
    refine .list ?_
    simp only [ValsOk, ValOk]
    refine ⟨trivial, trivial, trivial, trivial, ⟨trivial, trivial, trivial⟩, ⟨⟨trivial, trivial, trivial⟩, by decide, by decide⟩, trivial, trivial,
      trivial, by decide +revert, by decide +revert, by decide +revert, trivial, trivial, trivial, trivial, trivial, trivial, trivial, trivial⟩
  | 1, _ =>
    exact .inst ⟨⟨rfl, rfl, fun _ => rfl, fun _ => rfl, fun _ => rfl, rfl⟩, rfl, rfl, rfl, rfl,
      .noArgs rfl rfl rfl (by decide) (by decide) rfl,
      .attrs rfl rfl rfl (fun h => by cases h) (attrsOk_of (by decide) (by decide))⟩
  | 2, _ => exact .dict (entriesOk_of (by decide) (by decide))
  | 3, _ =>
    exact .inst ⟨⟨rfl, rfl, fun _ => rfl, fun _ => rfl, fun _ => rfl, rfl⟩, rfl, rfl, rfl, rfl,
      .noArgs rfl rfl rfl (by decide) (by decide) rfl,
      .slots rfl rfl rfl rfl (fun h => by cases h) (attrsOk_of (by decide) (by decide)) (by simp) (by decide) (by decide) rfl⟩
  | 4, _ =>
    exact .inst ⟨⟨rfl, rfl, fun _ => rfl, fun _ => rfl, fun _ => rfl, rfl⟩, rfl, rfl, rfl, rfl,
      .noArgs rfl rfl rfl (by decide) (by decide) rfl, .state (by decide) rfl rfl rfl rfl trivial rfl⟩
  | 5, _ => exact .dict (entriesOk_of (by decide) (by decide))
  | 6, _ =>
    exact .inst ⟨⟨rfl, rfl, fun _ => rfl, by decide, fun _ => rfl, rfl⟩, rfl, rfl, rfl, rfl,
      .noArgs rfl rfl rfl (by decide) (fun _ => rfl) rfl,
      .list rfl (fun h => by cases h) (attrsOk_of (by decide) (by decide)) (by decide) ⟨trivial, trivial, trivial⟩⟩
  | 7, _ =>
    refine .inst ⟨⟨rfl, rfl, by decide, fun _ => rfl, by decide, rfl⟩, rfl, rfl, rfl, rfl,
      .noArgs rfl rfl rfl (by decide) (by decide) rfl, .dict rfl (fun h => by cases h) (entriesOk_of (by decide) (by decide)) ?_ ?_ ?_ ?_ (by decide) (by decide)⟩
    · decide
    · simp
    · rintro f hf; cases hf; exact ⟨_, rfl, rfl⟩
    · simp only [List.mem_cons, List.not_mem_nil, or_false]
      rintro kv rfl
      exact ⟨nameOkB_ok (by decide), trivial⟩
  | 8, _ =>
    exact .inst ⟨⟨rfl, rfl, fun _ => rfl, by decide, fun _ => rfl, rfl⟩, rfl, rfl, rfl, rfl,
      .newargs (l := 5) (xs := [.int 1, .ref 11]) rfl rfl rfl rfl ⟨trivial, trivial, trivial⟩ (noReachArgs (by decide)) rfl,
      .tuple (l := 5) (xs := [.int 1, .ref 11]) rfl (fun h => by cases h) rfl rfl rfl rfl (fun _ => rfl) (fun h => by cases h)⟩
  | 9, _ =>
    refine .reduced ⟨rfl, rfl, .func p!"m.f", .tuple 6 [.int 1, .ref 11],
      [.tuple 7 [.int 1, .ref 11], .tuple 8 [.int 1, .ref 11], .tuple 9 [.tuple 10 [.int 1, .ref 11]]], rfl, by decide,
      ⟨rfl, ⟨trivial, trivial, trivial⟩, ⟨trivial, trivial, trivial⟩, ⟨trivial, trivial, trivial⟩, ⟨⟨trivial, trivial, trivial⟩, trivial⟩, trivial⟩,
      .func (by decide) rfl rfl rfl, ?_, by decide, ?_, _, _, _, _, _, _, _, _, _, _, rfl,
      .setstate rfl rfl, .append (by decide) rfl rfl, .items (ps := [(10, .int 1, .ref 11)]) (by decide) rfl, rfl⟩
    · intro x hx
      simp only [List.mem_cons, List.not_mem_nil, or_false] at hx
      rcases hx with rfl | rfl | rfl | rfl | rfl
      · intro h; cases h
      · exact noReachArgs (by decide)
      · exact noReachArgs (by decide)
      · exact noReachArgs (by decide)
      · intro h
        cases h with
        | tuple h1 h2 =>
          simp only [List.mem_cons, List.not_mem_nil, or_false] at h1
          subst h1
          exact noReachArgs (by decide) h2
    · intro x hx b i e
      subst e
      simp at hx
  | 10, _ =>
    refine .handled ⟨rfl, rfl, .inl rfl, ?_, by decide, ?_⟩
    · simp only [List.mem_cons, List.not_mem_nil, or_false]
      rintro kv rfl
      exact ⟨by decide, trivial⟩
    · simp only [List.mem_cons, List.not_mem_nil, or_false]
      rintro kv rfl
      exact noReach11 (by decide)
  | 11, _ => exact .list trivial
  | 12, _ =>
    exact .inst ⟨⟨rfl, rfl, fun _ => rfl, fun _ => rfl, fun _ => rfl, rfl⟩, rfl, rfl, rfl, rfl,
      .noArgs rfl rfl rfl (by decide) (by decide) rfl,
      .stateDict (d := 13) (kvs := [(p!"root", .ref 0), (p!"me", .ref 12), (p!"n", .int 1)]) rfl rfl rfl rfl rfl rfl (by simp)
        (attrsOk_of (by decide) (by decide)) (fun h => by cases h)⟩
  | 13, _ => exact .dict (entriesOk_of (by decide) (by decide))

theorem graph_text : TextOk graph (.ref 0) := textOk_of (by decide) (by decide)

end JP.Sample
