import Verif.SampleRound
import Verif.Covered
/-! # The sample graph meets the hypotheses of the round-trip theorems -/
namespace JP.Sample
open JP

theorem covered (keys : Bool) : Covered (program.world graph) { keys := keys } (program.env keys) (.ref 0) where
  matching := program.matching graph { keys := keys } rfl rfl rfl
  plain := program.plain _
  safe := safeOk_none rfl
  supported := graph_supported keys
  text := graph_text

theorem keyed_covered : Covered (program.world keyed) { keys := true } (program.env true) (.ref 0) where
  matching := program.matching keyed { keys := true } rfl rfl rfl
  plain := program.plain _
  safe := safeOk_none rfl
  supported := by
    refine supported_of trivial (by decide) (by decide) (by decide) (fun a ha => ?_)
    have ha : a < 2 := ha
    match a, ha with
    | 1, _ => exact .list trivial
    | 0, _ =>
      refine .dict ⟨?_, by decide, fun _ => escapedLast_of ?_⟩
      rotate_left
      · intro kv hkv
        simp only [List.mem_cons, List.not_mem_nil, or_false] at hkv
        rcases hkv with rfl | rfl | rfl | rfl | rfl | rfl | rfl | rfl | rfl <;>
          first | exact (nameOkB_ok (by decide)).noCollision | exact fun ⟨t, e, _⟩ => by cases e
      intro kv hkv
      simp only [List.mem_cons, List.not_mem_nil, or_false] at hkv
      rcases hkv with rfl | rfl | rfl | rfl | rfl | rfl | rfl | rfl | rfl
      · exact ⟨⟨rfl, trivial⟩, trivial⟩
      · exact ⟨⟨rfl, trivial⟩, trivial⟩
      · exact ⟨⟨rfl, trivial⟩, trivial⟩
      · exact ⟨⟨rfl, by simp only [ValueKey]; decide⟩, trivial⟩
      · exact ⟨Or.inl (nameOkB_ok (by decide)), trivial⟩
      · refine ⟨⟨rfl, ?_⟩, trivial⟩
        simp only [ValueKey, ValueKeys]
        exact ⟨trivial, ⟨trivial, strOk_of_ascii (by decide), trivial⟩, trivial⟩
      · exact ⟨⟨rfl, trivial⟩, trivial⟩
      · exact ⟨⟨rfl, strOk_of_ascii (by decide), rfl⟩, trivial⟩
      · exact ⟨⟨rfl, strOk_of_ascii (by decide), rfl⟩, trivial⟩
  text := textOk_of (by decide) (by decide)

theorem colliding_covered : Covered (program.world colliding) { keys := true } (program.env true) (.ref 0) where
  matching := program.matching colliding { keys := true } rfl rfl rfl
  plain := program.plain _
  safe := safeOk_none rfl
  supported := by
    refine supported_of trivial (by decide) (by decide) (by decide) (fun a ha => ?_)
    have ha : a < 3 := ha
    have h1 : Collides (.str p!"py/object") := ⟨_, rfl, Or.inr rfl⟩
    have h2 : Collides (.str p!"json://x") := ⟨_, rfl, Or.inl rfl⟩
    have h3 : Collides (.str p!"py/id") := ⟨_, rfl, Or.inr rfl⟩
    match a, ha with
    | 1, _ => exact .list trivial
    | 2, _ => exact .list trivial
    | 0, _ =>
      refine .dict ⟨?_, by decide, fun _ => ?_⟩
      · intro kv hkv
        simp only [List.mem_cons, List.not_mem_nil, or_false] at hkv
        rcases hkv with rfl | rfl | rfl | rfl | rfl
        · exact ⟨Or.inl (nameOkB_ok (by decide)), trivial⟩
        · exact ⟨⟨rfl, trivial⟩, trivial⟩
        · exact ⟨Or.inr ⟨rfl, h1, strOk_of_ascii (by decide)⟩, trivial⟩
        · exact ⟨Or.inr ⟨rfl, h2, strOk_of_ascii (by decide)⟩, trivial⟩
        · exact ⟨Or.inr ⟨rfl, h3, strOk_of_ascii (by decide)⟩, trivial⟩
      · have ha : ¬ Collides (.str p!"a") := (nameOkB_ok (by decide)).noCollision
        have h5 : ¬ Collides (.int 5) := fun ⟨t, e, _⟩ => by cases e
        simp only [EscapedLast, List.map_cons, List.map_nil, List.pairwise_cons, List.mem_cons, List.not_mem_nil, or_false]
        refine ⟨fun _ _ h => absurd h ha, fun _ _ h => absurd h h5, ?_, ?_, by simp, List.Pairwise.nil⟩
        · rintro k (rfl | rfl) _ _ <;> assumption
        · rintro k rfl _ _; assumption
  text := textOk_of (by decide) (by decide)

end JP.Sample
