import Verif.SampleCovered
import Verif.DataSpec
import Verif.Rename
/-! # A data graph of the sample program -/
namespace JP.Sample
open JP

/-- ```
l = [l, c, c, d, (1, s), {1, "a"}, 0.0, b"\x01\x02", bytearray(b"\x03"), C, f, m, L([l])]
``` -/
def data : Heap := [
  .list [.ref 0, .ref 1, .ref 1, .ref 2, .tuple 1 [.int 1, .ref 3], .set 2 [.int 1, .str p!"a"], .float 0, .bytes 3 [1, 2],
    .bytearray 4 [3], .type p!"m.C", .func p!"m.f", .module p!"m", .ref 4],
  .inst { cls := p!"m.C", info := infoC, attrs := [(p!"x", .ref 0), (p!"me", .ref 1)] },
  .dict [(.str p!"a", .ref 1), (.str p!"b", .ref 2), (.str p!"c", .none)],
  .inst { cls := p!"m.S", info := infoS, attrs := [(p!"p", .ref 0)] },
  .inst { cls := p!"m.L", info := infoL, elems := [.ref 0, .ref 4], attrs := [(p!"y", .ref 2)] }]

theorem data_covered (keys : Bool) : Covered (program.world data) { keys := keys } (program.env keys) (.ref 0) where
  matching := program.matching data { keys := keys } rfl rfl rfl
  plain := program.plain _
  safe := safeOk_none rfl
  supported := by
    refine supported_of trivial (by decide) (by decide) (by decide) (fun a ha => ?_)
    have ha : a < 5 := ha
    match a, ha with
    | 0, _ =>
      refine .list ?_
      simp only [ValsOk, ValOk]
      refine ⟨trivial, trivial, trivial, trivial, ⟨trivial, trivial, trivial⟩, ⟨⟨trivial, trivial, trivial⟩, by decide, by decide⟩, trivial, trivial,
        trivial, by decide +revert, by decide +revert, by decide +revert, trivial, trivial⟩
    | 1, _ =>
      exact .inst ⟨⟨rfl, rfl, fun _ => rfl, fun _ => rfl, fun _ => rfl, rfl⟩, rfl, rfl, rfl, rfl,
        .noArgs rfl rfl rfl (by decide) (by decide) rfl,
        .attrs rfl rfl rfl (fun h => by cases h) (attrsOk_of (by decide) (by decide))⟩
    | 2, _ => exact .dict (entriesOk_of (by decide) (by decide))
    | 3, _ =>
      exact .inst ⟨⟨rfl, rfl, fun _ => rfl, fun _ => rfl, fun _ => rfl, rfl⟩, rfl, rfl, rfl, rfl,
        .noArgs rfl rfl rfl (by decide) (by decide) rfl,
        .slots rfl rfl rfl rfl (fun h => by cases h) (attrsOk_of (by decide) (by decide)) (by simp) (by decide) (by decide) rfl⟩
    | 4, _ =>
      exact .inst ⟨⟨rfl, rfl, fun _ => rfl, by decide, fun _ => rfl, rfl⟩, rfl, rfl, rfl, rfl,
        .noArgs rfl rfl rfl (by decide) (fun _ => rfl) rfl,
        .list rfl (fun h => by cases h) (attrsOk_of (by decide) (by decide)) (by decide) ⟨trivial, trivial, trivial⟩⟩
  text := textOk_of (by decide) (by decide)

theorem data_classes : DataClasses (program.world data) (.ref 0) := by
  intro a i _ hi
  have hi : data[a]? = some (.inst i) := hi
  match a, hi with
  | 1, hi => cases hi; exact ⟨rfl, ⟨rfl, rfl, rfl, rfl, rfl, rfl, by decide⟩, by decide⟩
  | 3, hi => cases hi; exact ⟨rfl, ⟨rfl, rfl, rfl, rfl, rfl, rfl, by decide⟩, by decide⟩
  | 4, hi => cases hi; exact ⟨rfl, ⟨rfl, rfl, rfl, rfl, rfl, rfl, by decide⟩, by decide⟩

theorem program_globals (keys : Bool) : (program.env keys).Globals where
  cls n v h := by
    simp only [Program.env] at h
    split at h
    · cases h; trivial
    · split at h
      · cases h; trivial
      · cases h
  mod n v h := by
    simp only [Program.env] at h
    split at h
    · cases h; trivial
    · cases h
  repr n v h := by cases h

/-- the same graph laid out differently: other cells, other identities -/
def data' : Heap := [
  .dict [(.str p!"a", .ref 5), (.str p!"b", .ref 0), (.str p!"c", .none)],
  .list [],
  .list [.ref 2, .ref 5, .ref 5, .ref 0, .tuple 7 [.int 1, .ref 3], .set 8 [.int 1, .str p!"a"], .float 0, .bytes 9 [1, 2],
    .bytearray 1 [3], .type p!"m.C", .func p!"m.f", .module p!"m", .ref 4],
  .inst { cls := p!"m.S", info := infoS, attrs := [(p!"p", .ref 2)] },
  .inst { cls := p!"m.L", info := infoL, elems := [.ref 2, .ref 4], attrs := [(p!"y", .ref 0)] },
  .inst { cls := p!"m.C", info := infoC, attrs := [(p!"x", .ref 2), (p!"me", .ref 5)] }]

theorem data'_covered (keys : Bool) : Covered (program.world data') { keys := keys } (program.env keys) (.ref 2) where
  matching := program.matching data' { keys := keys } rfl rfl rfl
  plain := program.plain _
  safe := safeOk_none rfl
  supported := by
    refine supported_of trivial (by decide) (by decide) (by decide) (fun a ha => ?_)
    have ha : a < 6 := ha
    match a, ha with
    | 1, _ => exact .list trivial
    | 2, _ =>
      refine .list ?_
      simp only [ValsOk, ValOk]
      refine ⟨trivial, trivial, trivial, trivial, ⟨trivial, trivial, trivial⟩, ⟨⟨trivial, trivial, trivial⟩, by decide, by decide⟩, trivial, trivial,
        trivial, by decide +revert, by decide +revert, by decide +revert, trivial, trivial⟩
    | 5, _ =>
      exact .inst ⟨⟨rfl, rfl, fun _ => rfl, fun _ => rfl, fun _ => rfl, rfl⟩, rfl, rfl, rfl, rfl,
        .noArgs rfl rfl rfl (by decide) (by decide) rfl,
        .attrs rfl rfl rfl (fun h => by cases h) (attrsOk_of (by decide) (by decide))⟩
    | 0, _ => exact .dict (entriesOk_of (by decide) (by decide))
    | 3, _ =>
      exact .inst ⟨⟨rfl, rfl, fun _ => rfl, fun _ => rfl, fun _ => rfl, rfl⟩, rfl, rfl, rfl, rfl,
        .noArgs rfl rfl rfl (by decide) (by decide) rfl,
        .slots rfl rfl rfl rfl (fun h => by cases h) (attrsOk_of (by decide) (by decide)) (by simp) (by decide) (by decide) rfl⟩
    | 4, _ =>
      exact .inst ⟨⟨rfl, rfl, fun _ => rfl, by decide, fun _ => rfl, rfl⟩, rfl, rfl, rfl, rfl,
        .noArgs rfl rfl rfl (by decide) (fun _ => rfl) rfl,
        .list rfl (fun h => by cases h) (attrsOk_of (by decide) (by decide)) (by decide) ⟨trivial, trivial, trivial⟩⟩
  text := textOk_of (by decide) (by decide)

theorem data'_classes : DataClasses (program.world data') (.ref 2) := by
  intro a i _ hi
  have hi : data'[a]? = some (.inst i) := hi
  match a, hi with
  | 5, hi => cases hi; exact ⟨rfl, ⟨rfl, rfl, rfl, rfl, rfl, rfl, by decide⟩, by decide⟩
  | 3, hi => cases hi; exact ⟨rfl, ⟨rfl, rfl, rfl, rfl, rfl, rfl, by decide⟩, by decide⟩
  | 4, hi => cases hi; exact ⟨rfl, ⟨rfl, rfl, rfl, rfl, rfl, rfl, by decide⟩, by decide⟩

end JP.Sample
