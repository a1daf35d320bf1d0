import Verif.Proofs.PInst
import Verif.RefSpec
/-! # References written by the encoder are in range -/
namespace JP
open Pickler

theorem RefsBelow.arr {n : Nat} {js : List Json} (h : ∀ j ∈ js, RefsBelow n j) : RefsBelow n (.arr js) := by
  intro kvs x hi hx
  cases hi with
  | arr hj hi => exact h _ hj kvs x hi hx

theorem RefsBelow.obj {n : Nat} {kvs : List (Str × Json)} (h : ∀ kv ∈ kvs, kv.1 ≠ Tags.ID ∧ RefsBelow n kv.2) :
    RefsBelow n (.obj kvs) := by
  intro kvs' x hi hx
  cases hi with
  | self => exact absurd rfl (h _ hx).1
  | obj hj hi => exact (h _ hj).2 kvs' x hi hx

theorem RefsBelow.leaf {n : Nat} {j : Json} (h1 : ∀ js, j ≠ .arr js) (h2 : ∀ kvs, j ≠ .obj kvs) : RefsBelow n j := by
  intro kvs x hi hx
  cases hi with
  | self => exact absurd rfl (h2 _)
  | arr => exact absurd rfl (h1 _)
  | obj => exact absurd rfl (h2 _)

theorem RefsBelow.ref {n k : Nat} (h : k < n) : RefsBelow n (.obj [(Tags.ID, .int k)]) := by
  intro kvs x hi hx
  cases hi with
  | self =>
    simp only [List.mem_singleton, Prod.mk.injEq, true_and] at hx
    exact ⟨k, h, hx⟩
  | obj hj hi =>
    simp only [List.mem_singleton] at hj
    subst hj
    cases hi

theorem RefsBelow.mono {n m : Nat} {j : Json} (hnm : n ≤ m) (h : RefsBelow n j) : RefsBelow m j := by
  intro kvs x hi hx
  obtain ⟨k, h1, h2⟩ := h kvs x hi hx
  exact ⟨k, by omega, h2⟩

theorem RefsBelow.text {n : Nat} {k s : Str} (h : k ≠ Tags.ID) : RefsBelow n (.obj [(k, .str s)]) :=
  .obj (by simp only [List.mem_singleton]; rintro kv rfl; exact ⟨h, .leaf nofun nofun⟩)

namespace Pickler
open PyM

variable {w : World} {cfg : PCfg} {root : Val}

theorem length_le_of_subset {α : Type} [DecidableEq α] {xs ys : List α} (hn : xs.Nodup) (h : ∀ x ∈ xs, x ∈ ys) : xs.length ≤ ys.length := by
  induction xs generalizing ys with
  | nil => simp
  | cons x xs ih =>
    have hx : x ∈ ys := h x (List.mem_cons_self ..)
    rw [List.nodup_cons] at hn
    have := ih (ys := ys.erase x) hn.2 (fun y hy => (List.mem_erase_of_ne (a := y) (b := x) (fun e => hn.1 (by rw [← e]; exact hy))).2 (h y (List.mem_cons_of_mem _ hy)))
    rw [List.length_erase_of_mem hx] at this
    have := List.length_pos_of_mem hx
    simp only [List.length_cons]
    omega

theorem Own.numbered {v : Val} {i : Ident} (hv : Within w.heap root v) (ho : Own w v i) : Numbered w.heap root i := by
  rcases ho with rfl | ⟨a, o, rfl, ha, rfl | h | ⟨f, hf, rfl⟩⟩
  · exact .val hv
  · exact .state hv ha
  · subst h
    unfold dictIdent
    split
    · next hd => exact .dict hv ha hd
    · next d hd => exact .dictCell hv ha hd
  · exact .val (.step hv (.inst ha (.factory hf)))

theorem prefix_ne {s : Str} : Tags.JSON_KEY ++ s ≠ Tags.ID := by
  intro h
  have := congrArg (List.take 1) h
  simp [Tags.JSON_KEY, Tags.ID] at this

/-- The table of identities holds each of the numbered things at most once, and references are below their
number. -/
def refsInv (hr : cfg.unpicklable = true ∧ cfg.makeRefs = true) (hn : NoFakeIds w cfg root) {U : List Ident}
    (hU : ∀ i, Numbered w.heap root i → i ∈ U) : Inv w cfg where
  scope := .ofRoot w root
  I _ s := s.objs.Nodup ∧ ∀ i ∈ s.objs, i ∈ U
  Ie _ s := s.objs.Nodup ∧ ∀ i ∈ s.objs, i ∈ U
  JC _ := RefsBelow U.length
  JD _ := RefsBelow U.length
  JB _ := RefsBelow U.length
  K k := k ≠ Tags.ID
  RefOk := True
  wf d := ∀ v ∈ d.stack, Within w.heap root v
  wfChild {d v} hv hd := by
    obtain ⟨hv, h1, h2⟩ := hv
    intro x hx
    rcases List.mem_cons.1 hx with rfl | hx
    · rcases hv with hv | hv | hv
      · exact hv
      · exact absurd hv h1
      · exact absurd hv (h2 _)
    · exact hd x hx
  tracksDepth := False
  exact := false
  IIe := id
  catches _ _ _ := id
  failSafe _ _ _ := id
  log {d s i} hw hI ho hi := by
    obtain ⟨v, c, hs, ho⟩ := ho
    refine ⟨List.nodup_append.2 ⟨hI.1, by simp, ?_⟩, ?_⟩
    · intro a ha b hb
      rw [List.mem_singleton.1 hb]
      rintro rfl
      exact hi ha
    · intro x hx
      rcases List.mem_append.1 hx with hx | hx
      · exact hI.2 x hx
      · rw [List.mem_singleton.1 hx]
        exact hU _ (ho.numbered (hw v (by rw [hs]; simp)))
  refOk _ _ := trivial
  ref {_ s n} _ hI hlt := by
    have hle : s.objs.length ≤ U.length := length_le_of_subset hI.1 hI.2
    exact ⟨.ref (by omega), .ref (by omega)⟩
  push _ hI := hI
  pop _ hI := by
    split
    · exact ⟨List.nodup_nil, fun _ h => by cases h⟩
    · exact hI
  popE _ := id
  InSeen _ _ _ := True
  popSeen _ _ := trivial
  store h := (h hr).elim
  stored h := (h hr).elim
  jBC hj _ := hj
  depthEq hf := hf.elim
  jSafe hf he := (hn.safe _ _ _ hf he).mono (Nat.zero_le _)
  jB64 := .text (by decide)
  jB85 := .text (by decide)
  jBa64 := .obj (by simp only [List.mem_singleton]; rintro kv rfl; exact ⟨show Tags.BYTEARRAY ≠ Tags.ID by decide, .text (by decide)⟩)
  jBa85 := .obj (by simp only [List.mem_singleton]; rintro kv rfl; exact ⟨show Tags.BYTEARRAY ≠ Tags.ID by decide, .text (by decide)⟩)
  jNull := .leaf nofun nofun
  jBool := .leaf nofun nofun
  jInt := .leaf nofun nofun
  jFloat _ := .leaf nofun nofun
  jStr _ := .leaf nofun nofun
  jCD := id
  jCB := id
  jArrD := .arr
  jArrB := .arr
  jObjD _ := .obj
  jObjB _ := .obj
  jDate _ _ _ hk hc hj := .obj (fun kv hkv => (Logic.mem_dset hkv).elim
    (fun e => by subst e; exact ⟨show p!"__reduce__" ≠ Tags.ID by decide, .arr (by simp only [List.mem_cons, List.not_mem_nil, or_false]; rintro x (rfl | rfl); exact hc; exact .arr (by simp only [List.mem_cons]; rintro y (rfl | hy); exact .leaf nofun nofun; exact hj y hy))⟩) (hk kv))
  kUser _ h := by rintro rfl; revert h; decide
  kName k hk := by revert k; decide
  kRepr {v s} hv hs h := by
    unfold reprKey at h
    have hw : Within w.heap root v ∨ v = .none := by
      rcases hv with hv | hv | hv
      · exact .inl hv
      · exact .inr hv
      · exact absurd hv (hs _)
    split at h
    · cases h; decide
    · exact absurd rfl (hs _)
    · next hnone _ =>
      rcases hw with hw | hw
      · split at h
        · next e => cases h; rintro rfl; exact (hn.repr _ hw).1 e
        · split at h
          · rintro rfl; exact (hn.repr _ hw).2 h
          · cases h
      · exact absurd hw hnone
  kEsc _ := prefix_ne
  kField {a i kv} hv ha hk := by
    rcases hv with hv | hv | hv
    · exact hn.field a i kv hv ha hk
    · cases hv
    · cases hv
  kTag _ k hk := by revert k; decide
  kAlways k hk := by revert k; decide

theorem flatten_refs (hr : cfg.unpicklable = true ∧ cfg.makeRefs = true) (hn : NoFakeIds w cfg root) {U : List Ident}
    (hU : ∀ i, Numbered w.heap root i → i ∈ U) {n : Nat} {s1 : PState} {j : Json}
    (h : flatten w cfg n root {} = some (.ok j, s1)) : RefsBelow U.length j :=
  ((refsInv hr hn hU).flatten_ok (d := ⟨0, []⟩) Scope.ofRoot_root (fun _ h => by cases h)
    ⟨List.nodup_nil, fun _ h => by cases h⟩ h).1

end Pickler
end JP
