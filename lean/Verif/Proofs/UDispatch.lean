import Verif.Unpickler
import Verif.DocSpec
/-! # Which branch the decoder takes -/
namespace JP.Unpickler
open JP PyM

variable {env : UEnv} {rs : Json → U Val}

theorem tagOf_none {kvs : List (Str × Json)} (h : tagOf kvs = none) {t : Str} (ht : t ∈ wireTags) : dhas t kvs = false := by
  have := List.findSome?_eq_none_iff.1 h t ht
  unfold dhas
  cases hd : dget t kvs with
  | none => rfl
  | some j => rw [hd] at this; cases this

theorem restoreTags_plain {kvs : List (Str × Json)} (h : tagOf kvs = none) : restoreTags env rs kvs = restoreDict env rs kvs := by
  have h' := fun t ht => tagOf_none (t := t) h ht
  unfold restoreTags
  rw [if_neg, if_neg, if_neg, if_neg, if_neg, if_neg, if_neg, if_neg, if_neg, if_neg, if_neg, if_neg, if_neg]
  all_goals exact Bool.eq_false_iff.1 (h' _ (by decide))

theorem tagOf_some : ∀ {ts : List Str} {kvs : List (Str × Json)} {t : Str} {j : Json},
    ts.findSome? (fun t => (dget t kvs).map (fun j => (t, j))) = some (t, j) →
    ∃ pre post, ts = pre ++ t :: post ∧ dget t kvs = some j ∧ ∀ t' ∈ pre, dhas t' kvs = false
  | [], _, _, _, h => by cases h
  | t' :: ts, kvs, t, j, h => by
    rw [List.findSome?_cons] at h
    cases hd : dget t' kvs with
    | some j' =>
      rw [hd] at h
      cases h
      exact ⟨[], ts, rfl, hd, fun _ h => by cases h⟩
    | none =>
      rw [hd] at h
      obtain ⟨pre, post, h1, h2, h3⟩ := tagOf_some h
      refine ⟨t' :: pre, post, by rw [h1]; rfl, h2, fun u hu => ?_⟩
      cases hu with
      | head => simp [dhas, hd]
      | tail _ hu => exact h3 u hu

/-- the prefix of the tag list before a given tag -/
theorem tagOf_before {kvs : List (Str × Json)} {t : Str} {j : Json} (h : tagOf kvs = some (t, j)) :
    dget t kvs = some j ∧ t ∈ wireTags ∧ ∀ t' ∈ wireTags.takeWhile (· != t), dhas t' kvs = false := by
  obtain ⟨pre, post, h1, h2, h3⟩ := tagOf_some h
  refine ⟨h2, by rw [h1]; simp, fun t' ht' => ?_⟩
  have hpre : ∀ u ∈ pre, u ≠ t := by
    intro u hu he
    have := h3 u hu
    rw [he] at this
    simp [dhas, h2] at this
  rw [h1] at ht'
  have hm : t' ∈ pre := by
    clear h1 h2 h3 h
    induction pre with
    | nil => simp [List.takeWhile] at ht'
    | cons a as ih =>
      rw [List.cons_append, List.takeWhile_cons] at ht'
      split at ht'
      · cases ht' with
        | head => exact .head _
        | tail _ h => exact .tail _ (ih h (fun u hu => hpre u (.tail _ hu)))
      · cases ht'
  exact h3 t' hm

theorem restoreTags_object {kvs : List (Str × Json)} {j : Json} (h : tagOf kvs = some (p!"py/object", j)) :
    restoreTags env rs kvs = restoreObject env rs kvs := by
  obtain ⟨h1, _, h3⟩ := tagOf_before h
  have hd : dhas Tags.OBJECT kvs = true := by unfold dhas; rw [show Tags.OBJECT = p!"py/object" from rfl, h1]; rfl
  unfold restoreTags
  rw [if_neg, if_neg, if_neg, if_neg, if_neg, if_neg, if_neg, if_pos hd]
  all_goals exact Bool.eq_false_iff.1 (h3 _ (by decide))

theorem restoreTags_repr {kvs : List (Str × Json)} {j : Json} (h : tagOf kvs = some (p!"py/repr", j)) :
    restoreTags env rs kvs = if env.safe then restoreModule env j else restoreRepr env j := by
  obtain ⟨h1, _, h3⟩ := tagOf_before h
  have hd : dhas Tags.REPR kvs = true := by unfold dhas; rw [show Tags.REPR = p!"py/repr" from rfl, h1]; rfl
  unfold restoreTags
  rw [if_neg, if_neg, if_neg, if_neg, if_neg, if_neg, if_neg, if_neg, if_neg, if_neg, if_neg, if_neg, if_pos hd]
  all_goals first
    | exact Bool.eq_false_iff.1 (h3 _ (by decide))
    | skip
  have hi : item Tags.REPR kvs = .ok j := by unfold item; rw [show Tags.REPR = p!"py/repr" from rfl, h1]
  funext s
  rw [bind_run, hi]
  rfl

theorem mapM_ok_mem {α β : Type} {f : α → U β} : ∀ {xs : List α} {s s' : UState} {ys : List β},
    PyM.mapM f xs s = some (.ok ys, s') → ∀ x ∈ xs, ∃ t t' y, f x t = some (.ok y, t')
  | [], _, _, _, _, _, hx => by cases hx
  | x :: xs, s, s', ys, h, x', hx => by
    rw [mapM_cons] at h
    obtain ⟨y, s1, h1, h2⟩ := bind_eq_ok.1 h
    obtain ⟨ys', s2, h3, h4⟩ := bind_eq_ok.1 h2
    cases hx with
    | head => exact ⟨_, _, _, h1⟩
    | tail _ hx => exact mapM_ok_mem h3 x' hx

/-- a document that is surely reached is decoded, if the whole document is -/
theorem surely_restored {j y : Json} (h : Surely j y) : ∀ {n : Nat} {s s' : UState} {v : Val},
    restore env n j s = some (.ok v, s') → ∃ n' t t' v', restore env n' y t = some (.ok v', t') := by
  induction h with
  | here j => intro n s s' v hr; exact ⟨n, s, s', v, hr⟩
  | @elem xs x y hx _ ih =>
    intro n s s' v hr
    cases n with
    | zero => cases hr
    | succ n =>
      obtain ⟨a, s1, h1, _⟩ := bind_eq_ok.1 (show (restoreList (restore env n) (.ok xs) >>= fun a => (pure (Val.ref a) : U Val)) s = some (.ok v, s') from hr)
      unfold restoreList at h1
      obtain ⟨a, s1, _, h1⟩ := bind_eq_ok.1 h1
      obtain ⟨_, s1, _, h1⟩ := bind_eq_ok.1 h1
      obtain ⟨xs', s1, h0, h1⟩ := bind_eq_ok.1 h1
      cases h0
      obtain ⟨vs, s1, h0, h1⟩ := bind_eq_ok.1 h1
      obtain ⟨t, t', w, hw⟩ := mapM_ok_mem h0 x hx
      exact ih hw
  | @value kvs k x y ht hx _ ih =>
    intro n s s' v hr
    cases n with
    | zero => cases hr
    | succ n =>
      have hr : restoreDict env (restore env n) kvs s = some (.ok v, s') := by
        have : restoreTags env (restore env n) kvs s = some (.ok v, s') := hr
        rwa [restoreTags_plain ht] at this
      unfold restoreDict at hr
      obtain ⟨a, s1, _, h1⟩ := bind_eq_ok.1 hr
      obtain ⟨_, s1, _, h1⟩ := bind_eq_ok.1 h1
      split at h1
      · obtain ⟨_, s2, h2, h1⟩ := bind_eq_ok.1 h1
        obtain ⟨_, s3, h3, h1⟩ := bind_eq_ok.1 h1
        cases hk : isJsonKey k with
        | false =>
          obtain ⟨t, t', w, hw⟩ := mapM_ok_mem h2 _ hx
          unfold dictEntry1 at hw
          rw [hk] at hw
          obtain ⟨w, t1, hw, _⟩ := bind_eq_ok.1 hw
          exact ih hw
        | true =>
          obtain ⟨t, t', w, hw⟩ := mapM_ok_mem h3 _ hx
          unfold dictEntry2 at hw
          rw [if_pos hk] at hw
          obtain ⟨_, t1, _, hw⟩ := bind_eq_ok.1 hw
          obtain ⟨w, t1, hw, _⟩ := bind_eq_ok.1 hw
          exact ih hw
      · obtain ⟨_, s2, h2, h1⟩ := bind_eq_ok.1 h1
        obtain ⟨t, t', w, hw⟩ := mapM_ok_mem h2 _ hx
        unfold dictEntry at hw
        obtain ⟨w, t1, hw, _⟩ := bind_eq_ok.1 hw
        exact ih hw

end JP.Unpickler
