import Verif.PruneSpec
import Verif.Proofs.UDispatch
/-! # Entries that are not read make no difference -/
namespace JP.Unpickler.Pruning
open JP PyM Unpickler

variable {env : UEnv} {rs : Json → U Val}

/-- how a payload is pruned -/
def payload (env : UEnv) (k : Str) (v : Json) : Json :=
  if rawPayloads.contains k then v else if leafPayloads.contains k then leaf v
  else if itemPayloads.contains k then pruneItems env v else prune env v

theorem pruneL_map (xs : List Json) : pruneL env xs = xs.map (prune env) := by
  induction xs with
  | nil => rw [pruneL]; rfl
  | cons x xs ih => rw [pruneL, ih]; rfl

theorem pruneKvs_map (kvs : List (Str × Json)) : pruneKvs env kvs = kvs.map (fun kv => (kv.1, payload env kv.1 kv.2)) := by
  induction kvs with
  | nil => rw [pruneKvs]; rfl
  | cons x xs ih => obtain ⟨k, v⟩ := x; rw [pruneKvs, ih]; rfl

/-- what is left of the entries -/
def left (env : UEnv) (r : Str → Bool) (kvs : List (Str × Json)) : List (Str × Json) :=
  (kvs.map (fun kv => (kv.1, payload env kv.1 kv.2))).filter (fun kv => r kv.1)

theorem left_nil (r : Str → Bool) : left env r [] = [] := rfl

theorem left_cons (r : Str → Bool) (k : Str) (v : Json) (kvs : List (Str × Json)) :
    left env r ((k, v) :: kvs) = if r k then (k, payload env k v) :: left env r kvs else left env r kvs := by
  unfold left
  rw [List.map_cons, List.filter_cons]

theorem dget_left (r : Str → Bool) (t : Str) (kvs : List (Str × Json)) :
    dget t (left env r kvs) = if r t then (dget t kvs).map (payload env t) else none := by
  induction kvs with
  | nil => rw [left_nil]; cases r t <;> rfl
  | cons x kvs ih =>
    obtain ⟨k, v⟩ := x
    rw [left_cons]
    by_cases hk : k = t
    · subst hk
      cases hr : r k with
      | true => simp only [if_true, dget_cons]; rfl
      | false =>
        rw [hr] at ih
        simpa using ih
    · cases hr : r k with
      | true => simp only [if_true, dget_cons, if_neg hk, ih]
      | false => simp only [dget_cons, if_neg hk]; simpa using ih

theorem dhas_left (r : Str → Bool) (t : Str) (kvs : List (Str × Json)) : dhas t (left env r kvs) = (r t && dhas t kvs) := by
  unfold dhas
  rw [dget_left]
  cases r t <;> cases dget t kvs <;> rfl

theorem ddel_left (r : Str → Bool) (t : Str) (kvs : List (Str × Json)) : ddel t (left env r kvs) = left env r (ddel t kvs) := by
  induction kvs with
  | nil => rfl
  | cons x kvs ih =>
    obtain ⟨k, v⟩ := x
    rw [left_cons]
    unfold ddel at ih ⊢
    rw [List.filter_cons]
    cases hr : r k with
    | true =>
      rw [if_pos rfl, List.filter_cons]
      by_cases hk : k = t
      · simp only [hk, ne_eq, not_true, decide_false, Bool.false_eq_true, if_false]
        exact ih
      · simp only [hk, ne_eq, not_false_iff, decide_true, if_true]
        rw [left_cons, hr, if_pos rfl, ih]
    | false =>
      rw [if_neg (by decide)]
      split
      · rw [left_cons, hr, if_neg (by decide)]; exact ih
      · exact ih

/-- the recursive call gives the same for a document and the pruned one -/
def Same (env : UEnv) (rs : Json → U Val) : Prop := ∀ j, rs (prune env j) = rs j

theorem same_items (h : Same env rs) (j : Json) : rs (pruneItems env j) = rs j := by
  cases j with
  | arr xs => have := h (.arr xs); rw [prune] at this; rw [pruneItems]; exact this
  | _ => rw [pruneItems]; intro xs hx; cases hx

theorem same_payload (h : Same env rs) (k : Str) (hk : leafPayloads.contains k = false) (j : Json) : rs (payload env k j) = rs j := by
  unfold payload
  rw [hk]
  split
  · rfl
  · rw [if_neg (by decide)]
    split
    · exact same_items h j
    · exact h j

theorem mapM_map {α β γ : Type} (f : β → U γ) (g : α → β) (xs : List α) : PyM.mapM f (xs.map g) = PyM.mapM (fun x => f (g x)) xs := by
  induction xs with
  | nil => rfl
  | cons x xs ih => rw [List.map_cons, mapM_cons, mapM_cons, ih]

theorem foldM_map {α β γ : Type} (f : γ → β → U γ) (g : α → β) (xs : List α) :
    ∀ b, PyM.foldM f b (xs.map g) = PyM.foldM (fun b x => f b (g x)) b xs := by
  induction xs with
  | nil => intro b; rfl
  | cons x xs ih =>
    intro b
    rw [List.map_cons, foldM_cons, foldM_cons]
    congr 1; funext b'; exact ih b'

theorem mapM_congr {α β : Type} {f g : α → U β} : ∀ {xs : List α}, (∀ x ∈ xs, f x = g x) → PyM.mapM f xs = PyM.mapM g xs
  | [], _ => rfl
  | x :: xs, h => by
    rw [mapM_cons, mapM_cons, h x (List.mem_cons_self ..), mapM_congr (fun y hy => h y (List.mem_cons_of_mem _ hy))]

/-- the tags of such payloads lead the object they are in -/
theorem leaf_wire {k : Str} (h : leafPayloads.contains k = true) : k ∈ wireTags := by
  have : k ∈ leafPayloads := List.elem_iff.1 h
  simp only [leafPayloads, List.mem_cons, List.not_mem_nil, or_false] at this
  rcases this with e | e | e | e | e | e | e <;> subst e <;> decide

theorem same_list (h : Same env rs) (xs : List Json) : PyM.mapM rs (xs.map (prune env)) = PyM.mapM rs xs := by
  rw [mapM_map]
  congr 1; funext x; exact h x

theorem prune_str (s : Str) : prune env (.str s) = .str s := by
  rw [prune]
  · intro k hk; cases hk
  · intro k hk; cases hk

theorem iter_items (j : Json) : jsonIter (pruneItems env j) = (jsonIter j).map (fun xs => xs.map (prune env)) := by
  cases j with
  | arr xs => rw [pruneItems, pruneL_map]; rfl
  | obj kvs =>
    rw [pruneItems]
    · simp only [jsonIter, Except.map, List.map_map]
      congr 2
    · intro xs hx; cases hx
  | str s =>
    rw [pruneItems]
    · simp only [jsonIter, Except.map, List.map_map]
      congr 2
    · intro xs hx; cases hx
  | _ => rw [pruneItems]; rfl; intro xs hx; cases hx

theorem mapM_unit_left {α : Type} (g : Str × Json → U Unit) (k : U α) (r : Str → Bool)
    (h2 : ∀ kv, r kv.1 = false → g kv = pure ()) (kvs : List (Str × Json))
    (h1 : ∀ kv ∈ kvs, r kv.1 = true → g (kv.1, payload env kv.1 kv.2) = g kv) :
    (PyM.mapM g (left env r kvs) >>= fun _ => k) = (PyM.mapM g kvs >>= fun _ => k) := by
  funext s
  induction kvs generalizing s with
  | nil => rfl
  | cons x kvs ih =>
    obtain ⟨key, v⟩ := x
    have ih := ih (fun kv hkv => h1 kv (List.mem_cons_of_mem _ hkv))
    rw [left_cons]
    cases hr : r key with
    | true =>
      rw [if_pos rfl, mapM_cons, mapM_cons, h1 (key, v) (List.mem_cons_self ..) hr]
      simp only [bind_run]
      cases hg : g (key, v) s with
      | none => rfl
      | some o =>
        obtain ⟨o, s1⟩ := o
        cases o with
        | error e => rfl
        | ok u =>
          have := ih s1
          simp only [bind_run] at this ⊢
          cases hA : PyM.mapM g (left env r kvs) s1 with
          | none =>
            rw [hA] at this
            cases hB : PyM.mapM g kvs s1 with
            | none => rfl
            | some q => obtain ⟨q, s2⟩ := q; rw [hB] at this; cases q <;> simpa using this
          | some p =>
            obtain ⟨p, s2⟩ := p
            rw [hA] at this
            cases hB : PyM.mapM g kvs s1 with
            | none => rw [hB] at this; cases p <;> simpa using this
            | some q => obtain ⟨q, s3⟩ := q; rw [hB] at this; cases p <;> cases q <;> simpa using this
    | false =>
      rw [if_neg (by decide), mapM_cons, h2 (key, v) hr, ih s]
      simp only [bind_run, pure_run]
      cases hB : PyM.mapM g kvs s with
      | none => rfl
      | some q => obtain ⟨q, s2⟩ := q; cases q <;> rfl

theorem left_all (kvs : List (Str × Json)) : left env (fun _ => true) kvs = kvs.map (fun kv => (kv.1, payload env kv.1 kv.2)) := by
  unfold left
  rw [List.filter_eq_self]; intros; rfl

theorem same_dict (h : Same env rs) (kvs : List (Str × Json)) (ht : ∀ kv ∈ kvs, leafPayloads.contains kv.1 = false) :
    restoreDict env rs (left env (fun _ => true) kvs) = restoreDict env rs kvs := by
  unfold restoreDict
  have e1 : ∀ a, PyM.mapM (dictEntry rs a) (left env (fun _ => true) kvs) = PyM.mapM (dictEntry rs a) kvs := by
    intro a; rw [left_all, mapM_map]; refine mapM_congr (fun kv hkv => ?_); unfold dictEntry; simp only [same_payload h _ (ht kv hkv)]
  have e2 : ∀ a, PyM.mapM (dictEntry1 rs a) (left env (fun _ => true) kvs) = PyM.mapM (dictEntry1 rs a) kvs := by
    intro a; rw [left_all, mapM_map]; refine mapM_congr (fun kv hkv => ?_); unfold dictEntry1; simp only [same_payload h _ (ht kv hkv)]
  have e3 : ∀ a, PyM.mapM (dictEntry2 env rs a) (left env (fun _ => true) kvs) = PyM.mapM (dictEntry2 env rs a) kvs := by
    intro a; rw [left_all, mapM_map]; refine mapM_congr (fun kv hkv => ?_); unfold dictEntry2; simp only [same_payload h _ (ht kv hkv)]
  simp only [e1, e2, e3]

/-! ### the parts of an instance -/

theorem prune_truthy_obj {kvs : List (Str × Json)} : ∃ kvs', prune env (.obj kvs) = .obj kvs' ∧ (kvs'.isEmpty = kvs.isEmpty) := by
  rw [prune]
  refine ⟨_, rfl, ?_⟩
  split
  · rfl
  · next hk =>
    rw [pruneKvs_map]
    show (left env (reads env kvs) kvs).isEmpty = kvs.isEmpty
    cases ht : tagOf kvs with
    | none =>
      have : reads env kvs = fun _ => true := by funext k; unfold reads; rw [ht]
      rw [this, left_all]; cases kvs <;> rfl
    | some tj =>
      obtain ⟨t, j⟩ := tj
      obtain ⟨h1, _, _⟩ := tagOf_before ht
      have hr : reads env kvs t = true := by
        unfold reads
        rw [ht]
        dsimp only
        split
        · next he =>
          cases j with
          | str n => dsimp only; unfold readsObject; rw [if_pos (Or.inl he)]
          | _ => rfl
        · exact decide_eq_true rfl
      have := dget_left (env := env) (reads env kvs) t kvs
      rw [hr, h1, if_pos rfl] at this
      have h' := dget_mem this
      have h'' := dget_mem h1
      cases hl : left env (reads env kvs) kvs with
      | nil => rw [hl] at h'; cases h'
      | cons _ _ => cases kvs with
        | nil => cases h''
        | cons _ _ => rfl

theorem same_arg (h : Same env rs) (j : Json) : restoreArg rs (prune env j) = restoreArg rs j := by
  have hj := h j
  cases j with
  | obj kvs =>
    obtain ⟨kvs', e, he⟩ := prune_truthy_obj (env := env) (kvs := kvs)
    rw [e] at hj ⊢
    unfold restoreArg jsonTruthy
    simp only [he, hj]
  | arr xs =>
    rw [prune, pruneL_map] at hj ⊢
    unfold restoreArg jsonTruthy
    simp only [hj]
    cases xs <;> rfl
  | _ => rw [prune] <;> (intro x hx; cases hx)

theorem same_kwArg (h : Same env rs) (j : Json) : restoreArg rs (kwArg (prune env j)) = restoreArg rs (kwArg j) := by
  have hj := same_arg h j
  cases j with
  | obj kvs =>
    obtain ⟨kvs', e, he⟩ := prune_truthy_obj (env := env) (kvs := kvs)
    rw [e] at hj ⊢
    exact hj
  | arr xs =>
    cases xs with
    | nil => rfl
    | cons y ys => exact hj
  | _ => rfl

theorem same_arg_items (h : Same env rs) (j : Json) : restoreArg rs (pruneItems env j) = restoreArg rs j := by
  cases j with
  | arr xs => have := same_arg h (.arr xs); rw [prune] at this; rw [pruneItems]; exact this
  | _ => rw [pruneItems]; intro xs hx; cases hx

theorem len_items (j : Json) : jsonLen (pruneItems env j) = jsonLen j := by
  cases j with
  | arr xs => rw [pruneItems, pruneL_map]; simp only [jsonLen, List.length_map]
  | _ => rw [pruneItems]; intro xs hx; cases hx

theorem payload_newargs (j : Json) : payload env Tags.NEWARGS j = prune env j := by
  unfold payload; rw [if_neg (by decide), if_neg (by decide), if_neg (by decide)]
theorem payload_initargs (j : Json) : payload env Tags.INITARGS j = prune env j := by
  unfold payload; rw [if_neg (by decide), if_neg (by decide), if_neg (by decide)]
theorem payload_state (j : Json) : payload env Tags.STATE j = prune env j := by
  unfold payload; rw [if_neg (by decide), if_neg (by decide), if_neg (by decide)]
theorem payload_seq (j : Json) : payload env Tags.SEQ j = pruneItems env j := by
  unfold payload; rw [if_neg (by decide), if_neg (by decide), if_pos (by decide)]
theorem payload_newargsex (j : Json) : payload env Tags.NEWARGSEX j = pruneItems env j := by
  unfold payload; rw [if_neg (by decide), if_neg (by decide), if_pos (by decide)]
theorem payload_object (j : Json) : payload env Tags.OBJECT j = j := by
  unfold payload; rw [if_pos (by decide)]

/-- what the filter keeps of the entries of an instance -/
structure Keeps (r : Str → Bool) (kvs : List (Str × Json)) : Prop where
  object : r Tags.OBJECT = true
  fac1 : r Tags.DEFAULT_FACTORY = true
  fac2 : r p!"default_factory" = true
  newargsex : r Tags.NEWARGSEX = true
  seq : r Tags.SEQ = true ∨ dhas Tags.NEWARGSEX kvs = true ∨ dhas Tags.NEWARGS kvs = true ∨ dhas Tags.INITARGS kvs = true
  newargs : r Tags.NEWARGS = true ∨ dhas Tags.NEWARGSEX kvs = true
  initargs : r Tags.INITARGS = true ∨ dhas Tags.NEWARGSEX kvs = true ∨ dhas Tags.NEWARGS kvs = true
  leafs : ∀ kv ∈ kvs, Tags.isReserved kv.1 = false → leafPayloads.contains kv.1 = false

theorem same_getargs {r : Str → Bool} {kvs : List (Str × Json)} (h : Same env rs) (hk : Keeps r kvs)
    (hx : dget Tags.NEWARGSEX kvs = none) {α : Type} (F : U Val → U α) :
    (getargs env (left env r kvs) >>= fun a => F (restoreArg rs a)) = (getargs env kvs >>= fun a => F (restoreArg rs a)) := by
  have hx' : dhas Tags.NEWARGSEX kvs = false := by unfold dhas; rw [hx]; rfl
  have hr1 : r Tags.NEWARGS = true := hk.newargs.resolve_right (by rw [hx']; decide)
  have hsame : ∀ (j j' : Json), restoreArg rs j = restoreArg rs j' →
      ((pure j : U Json) >>= fun a => F (restoreArg rs a)) = ((pure j' : U Json) >>= fun a => F (restoreArg rs a)) := by
    intro j j' e
    show F (restoreArg rs j) = F (restoreArg rs j')
    rw [e]
  unfold getargs
  rw [dget_left, dget_left, dget_left, dget_left, hk.object, hr1]
  simp only [if_true]
  cases h1 : dget Tags.NEWARGS kvs with
  | some j =>
    simp only [Option.map_some, payload_newargs]
    exact hsame _ _ (same_arg h j)
  | none =>
    have hn : dhas Tags.NEWARGS kvs = false := by unfold dhas; rw [h1]; rfl
    have hr2 : r Tags.INITARGS = true := by
      cases hk.initargs with
      | inl h => exact h
      | inr h => rw [hx', hn] at h; cases h <;> contradiction
    rw [hr2]
    simp only [Option.map_none, if_true]
    cases h2 : dget Tags.INITARGS kvs with
    | some j =>
      simp only [Option.map_some, payload_initargs]
      exact hsame _ _ (same_arg h j)
    | none =>
      have hn2 : dhas Tags.INITARGS kvs = false := by unfold dhas; rw [h2]; rfl
      have hr3 : r Tags.SEQ = true := by
        rcases hk.seq with h | h | h | h
        · exact h
        · rw [hx'] at h; cases h
        · rw [hn] at h; cases h
        · rw [hn2] at h; cases h
      rw [hr3]
      simp only [Option.map_none, if_true]
      cases h3 : dget Tags.SEQ kvs with
      | none => rfl
      | some sq =>
        cases h4 : dget Tags.OBJECT kvs with
        | none => rfl
        | some o =>
          simp only [Option.map_some, payload_seq, payload_object, len_items]
          funext s
          simp only [bind_run]
          cases loadclassJ env o s with
          | none => rfl
          | some p =>
            obtain ⟨p, s1⟩ := p
            cases p with
            | error e => rfl
            | ok c =>
              cases c with
              | none => rfl
              | some c =>
                cases c with
                | type n =>
                  dsimp only
                  cases (env.classInfo n).numFields with
                  | none => rfl
                  | some k =>
                    dsimp only
                    cases jsonLen sq with
                    | none => rfl
                    | some m =>
                      dsimp only
                      cases hkm : k == m with
                      | true =>
                        simp only [if_true, pure_run]
                        rw [same_arg_items h]
                      | false => rfl
                | _ => rfl

theorem same_ctorArgs {r : Str → Bool} {kvs : List (Str × Json)} (h : Same env rs) (hk : Keeps r kvs)
    {α : Type} (F : U Val → U Val → U α) :
    (ctorArgs env (left env r kvs) >>= fun p => F (restoreArg rs p.1) (restoreArg rs p.2)) =
      (ctorArgs env kvs >>= fun p => F (restoreArg rs p.1) (restoreArg rs p.2)) := by
  unfold ctorArgs
  rw [dget_left, hk.newargsex, if_pos rfl]
  cases hx : dget Tags.NEWARGSEX kvs with
  | none =>
    have := same_getargs h hk hx (fun a => F a (restoreArg rs (.obj [])))
    simp only [Option.map_none]
    funext s
    have hs := congrFun this s
    simp only [bind_run, pure_run] at hs ⊢
    cases hA : getargs env (left env r kvs) s with
    | none =>
      rw [hA] at hs
      cases hB : getargs env kvs s with
      | none => rfl
      | some q => obtain ⟨q, s2⟩ := q; rw [hB] at hs; cases q <;> simpa using hs
    | some p =>
      obtain ⟨p, s2⟩ := p
      rw [hA] at hs
      cases hB : getargs env kvs s with
      | none => rw [hB] at hs; cases p <;> simpa using hs
      | some q => obtain ⟨q, s3⟩ := q; rw [hB] at hs; cases p <;> cases q <;> simpa using hs
  | some j =>
    simp only [Option.map_some, payload_newargsex, iter_items]
    cases hj : jsonIter j with
    | error e => rfl
    | ok xs =>
      match xs with
      | [] => rfl
      | [_] => rfl
      | _ :: _ :: _ :: _ => rfl
      | [a, k] =>
        show F (restoreArg rs (prune env a)) (restoreArg rs (kwArg (prune env k))) = F (restoreArg rs a) (restoreArg rs (kwArg k))
        rw [same_arg h, same_kwArg h]

theorem same_seqTag {r : Str → Bool} {kvs : List (Str × Json)} (h : Same env rs) (hk : r Tags.SEQ = true) (a : Addr) :
    restoreSeqTag rs a (left env r kvs) = restoreSeqTag rs a kvs := by
  unfold restoreSeqTag
  rw [dget_left, hk, if_pos rfl]
  cases dget Tags.SEQ kvs with
  | none => rfl
  | some j =>
    simp only [Option.map_some, payload_seq]
    unfold restoreSeq
    simp only [iter_items]
    funext s
    simp only [bind_run, get_run]
    cases (infoOf s.heap a).base with
    | list =>
      cases jsonIter j with
      | error e => rfl
      | ok xs =>
        simp only [Except.map, bind_run, ofExcept_run, mapM_map, h _]
    | set =>
      cases jsonIter j with
      | error e => rfl
      | ok xs =>
        simp only [Except.map, bind_run, ofExcept_run, mapM_map, h _]
    | _ => rfl

theorem same_variables {r : Str → Bool} {kvs : List (Str × Json)} (h : Same env rs) (hq : r Tags.SEQ = true)
    (hs : r Tags.STATE = true) (hn : ∀ k, r k = false → Tags.isReserved k = true)
    (hl : ∀ kv ∈ kvs, Tags.isReserved kv.1 = false → leafPayloads.contains kv.1 = false) (a : Addr) :
    restoreVariables env rs a (left env r kvs) = restoreVariables env rs a kvs := by
  unfold restoreVariables
  have e1 : restoreFromJson env rs a (left env r kvs) = restoreFromJson env rs a kvs := by
    unfold restoreFromJson
    refine mapM_unit_left _ _ r (fun kv hkv => ?_) kvs (fun kv hkv _ => ?_)
    · rw [if_pos (hn _ hkv)]
    · cases hq : Tags.isReserved kv.1 with
      | true => simp only [hq, if_true]
      | false => simp only [hq, Bool.false_eq_true, if_false, same_payload h _ (hl kv hkv hq)]
  rw [e1, same_seqTag h hq, dget_left, hs, if_pos rfl]
  cases dget Tags.STATE kvs with
  | none => rfl
  | some j =>
    simp only [Option.map_some, payload_state]
    have : restoreState rs a (prune env j) = restoreState rs a j := by unfold restoreState; rw [h]
    rw [this]

theorem construct_blank {h : Heap} {n : Str} {info : ClassInfo} {fac args kw : Val} (hb : info.blankOk = true) :
    ∃ i, construct h n info fac args kw = some i ∧ i.info = info := by
  unfold construct
  rw [hb]
  dsimp only
  cases starArgs h args with
  | none => exact ⟨_, rfl, rfl⟩
  | some xs =>
    dsimp only
    repeat' split
    all_goals first
      | exact ⟨_, rfl, rfl⟩
      | contradiction

theorem ddel_dhas {k l : Str} (h : l ≠ k) (kvs : List (Str × Json)) : dhas l (ddel k kvs) = dhas l kvs := by
  unfold dhas; rw [dget_ddel_ne h]

theorem Keeps.ddel {r : Str → Bool} {kvs : List (Str × Json)} {k : Str} (hk : Keeps r kvs) (h1 : Tags.NEWARGSEX ≠ k) (h2 : Tags.NEWARGS ≠ k)
    (h3 : Tags.INITARGS ≠ k) : Keeps r (ddel k kvs) :=
  ⟨hk.object, hk.fac1, hk.fac2, hk.newargsex, by rw [ddel_dhas h1, ddel_dhas h2, ddel_dhas h3]; exact hk.seq, by rw [ddel_dhas h1]; exact hk.newargs,
    by rw [ddel_dhas h1, ddel_dhas h2]; exact hk.initargs, fun kv hkv => hk.leafs kv (List.mem_filter.1 hkv).1⟩

theorem prune_null_iff {j : Json} (h : prune env j = .null) : j = .null := by
  cases j with
  | null => rfl
  | obj kvs => rw [prune] at h; cases h
  | arr kvs => rw [prune] at h; cases h
  | _ => rw [prune] at h; exact h; all_goals (intro x hx; cases hx)

/-- the factory is restored alike, and what remains is what is left of what remains -/
theorem same_factory {r : Str → Bool} {kvs : List (Str × Json)} (h : Same env rs) (hk : Keeps r kvs) {α : Type}
    (F : Val → List (Str × Json) → U α)
    (hF : ∀ v kvs', Keeps r kvs' → F v (left env r kvs') = F v kvs') :
    (loadFactory rs (left env r kvs) >>= fun p => F p.1 p.2) = (loadFactory rs kvs >>= fun p => F p.1 p.2) := by
  have key : ∀ k, r k = true → payload env k = prune env → Tags.NEWARGSEX ≠ k → Tags.NEWARGS ≠ k → Tags.INITARGS ≠ k →
      (((match dget k (left env r kvs) with
        | none | some .null => (pure (.none, JP.ddel k (left env r kvs)) : U (Val × List (Str × Json)))
        | some j => do
          let v ← rs j
          pure (v, JP.ddel k (left env r kvs))) : U (Val × List (Str × Json))) >>= fun p => F p.1 p.2) =
      (((match dget k kvs with
        | none | some .null => (pure (.none, JP.ddel k kvs) : U (Val × List (Str × Json)))
        | some j => do
          let v ← rs j
          pure (v, JP.ddel k kvs)) : U (Val × List (Str × Json))) >>= fun p => F p.1 p.2) := by
    intro k hr hp n1 n2 n3
    rw [dget_left, hr, if_pos rfl, ddel_left, hp]
    have hd := fun v => hF v (JP.ddel k kvs) (hk.ddel n1 n2 n3)
    have bindF : ∀ x : U Val, ((x >>= fun v => (pure (v, left env r (JP.ddel k kvs)) : U (Val × List (Str × Json)))) >>= fun p => F p.1 p.2) =
        ((x >>= fun v => (pure (v, JP.ddel k kvs) : U (Val × List (Str × Json)))) >>= fun p => F p.1 p.2) := by
      intro x
      funext s
      simp only [bind_run, pure_run]
      cases x s with
      | none => rfl
      | some p => obtain ⟨p, s1⟩ := p; cases p; rfl; simp only [hd]
    cases dget k kvs with
    | none => exact hd _
    | some j =>
      have hh := h j
      simp only [Option.map_some]
      cases j with
      | null =>
        have : prune env .null = .null := by rw [prune] <;> (intro x hx; cases hx)
        rw [this]
        exact hd _
      | obj kvs0 =>
        obtain ⟨kvs', e, _⟩ := prune_truthy_obj (env := env) (kvs := kvs0)
        rw [e] at hh ⊢
        simp only [hh]
        exact bindF _
      | arr xs =>
        rw [prune] at hh ⊢
        simp only [hh]
        exact bindF _
      | _ =>
        rw [prune]
        · exact bindF _
        all_goals (intro x hx; cases hx)
  unfold loadFactory factoryKey
  rw [dhas_left, dhas_left, hk.fac1, hk.fac2]
  simp only [Bool.true_and]
  cases dhas Tags.DEFAULT_FACTORY kvs with
  | true =>
    simp only [if_true]
    exact key _ hk.fac1 (by funext j; unfold payload; rw [if_neg (by decide), if_neg (by decide), if_neg (by decide)]) (by decide) (by decide) (by decide)
  | false =>
    cases dhas p!"default_factory" kvs with
    | true =>
      simp only [if_true]
      exact key _ hk.fac2 (by funext j; unfold payload; rw [if_neg (by decide), if_neg (by decide), if_neg (by decide)]) (by decide) (by decide) (by decide)
    | false => exact hF _ _ hk

theorem same_instance {r : Str → Bool} {kvs : List (Str × Json)} {n : Str} (h : Same env rs) (hk : Keeps r kvs)
    (hb : (env.classInfo n).blankOk = true)
    (ht : (env.classInfo n).base ≠ .tuple → r Tags.SEQ = true ∧ r Tags.STATE = true ∧ ∀ k, r k = false → Tags.isReserved k = true) :
    restoreInstance env rs n (left env r kvs) = restoreInstance env rs n kvs := by
  unfold restoreInstance
  congr 1; funext p
  congr 1; funext _
  refine same_factory h hk (fun fac kvs => ctorArgs env kvs >>= fun p' => restoreArg rs p'.1 >>= fun args => restoreArg rs p'.2 >>= fun kw =>
    PyM.get >>= fun s => emit (.call n) >>= fun _ =>
      match construct s.heap n (env.classInfo n) fac args kw with
      | none => do
        processMissing env n
        let r ← raw (.obj kvs)
        mkref r
      | some inst => do
        let a ← alloc (.inst inst)
        setCell p (.proxy (some (.ref a)))
        swapref p (.ref a)
        if inst.info.base == .tuple then pure (.ref a)
        else do
          let v ← restoreVariables env rs a kvs
          fixFactory v
          pure v) (fun fac kvs' hk' => ?_)
  have e2 := same_ctorArgs h hk' (fun x y => x >>= fun args => y >>= fun kw =>
    PyM.get >>= fun s => emit (.call n) >>= fun _ =>
      match construct s.heap n (env.classInfo n) fac args kw with
      | none => do
        processMissing env n
        let r ← raw (.obj (left env r kvs'))
        mkref r
      | some inst => do
        let a ← alloc (.inst inst)
        setCell p (.proxy (some (.ref a)))
        swapref p (.ref a)
        if inst.info.base == .tuple then pure (.ref a)
        else do
          let v ← restoreVariables env rs a (left env r kvs')
          fixFactory v
          pure v)
  refine e2.trans ?_
  congr 1; funext p'
  congr 1; funext args
  congr 1; funext kw
  congr 1; funext s
  congr 1; funext _
  obtain ⟨i, hi, hinfo⟩ := construct_blank (h := s.heap) (n := n) (fac := fac) (args := args) (kw := kw) hb
  rw [hi]
  dsimp only
  rw [hinfo]
  congr 1; funext a
  congr 1; funext _
  congr 1; funext _
  cases hbt : (env.classInfo n).base == Base.tuple with
  | true => rfl
  | false =>
    obtain ⟨t0, t1, t2⟩ := ht (fun e => by rw [e] at hbt; cases hbt)
    rw [same_variables h t0 t1 t2 hk'.leafs]

/-! ### the dispatch -/

theorem mentions_dhas (k : Str) (kvs : List (Str × Json)) : mentions k kvs = dhas k kvs := by
  unfold mentions
  induction kvs with
  | nil => rfl
  | cons x xs ih =>
    obtain ⟨k', v⟩ := x
    rw [List.any_cons, ih]
    unfold dhas
    rw [dget_cons]
    by_cases h : k' = k
    · simp [h]
    · simp [h]

theorem readsObject_keeps (n : Str) (kvs : List (Str × Json))
    (hl : ∀ kv ∈ kvs, Tags.isReserved kv.1 = false → leafPayloads.contains kv.1 = false) : Keeps (readsObject env n kvs) kvs where
  leafs := hl
  object := rfl
  fac1 := rfl
  fac2 := rfl
  newargsex := rfl
  seq := by
    unfold readsObject
    rw [if_neg (by decide), if_neg (by decide), if_neg (by decide)]
    split
    · rw [mentions_dhas, mentions_dhas, mentions_dhas]
      cases h : dhas p!"py/newargsex" kvs with
      | true => exact .inr (.inl h)
      | false => cases h : dhas p!"py/newargs" kvs with
        | true => exact .inr (.inr (.inl h))
        | false => cases h : dhas p!"py/initargs" kvs with
          | true => exact .inr (.inr (.inr h))
          | false => exact .inl rfl
    · exact .inl rfl
  newargs := by
    unfold readsObject
    rw [if_neg (by decide), if_pos (by decide), mentions_dhas]
    cases h : dhas p!"py/newargsex" kvs with
    | true => exact .inr h
    | false => exact .inl rfl
  initargs := by
    unfold readsObject
    rw [if_neg (by decide), if_neg (by decide), if_pos (by decide), mentions_dhas, mentions_dhas]
    cases h : dhas p!"py/newargsex" kvs with
    | true => exact .inr (.inl h)
    | false => cases h : dhas p!"py/newargs" kvs with
      | true => exact .inr (.inr h)
      | false => exact .inl rfl

theorem readsObject_rest {n : Str} (kvs : List (Str × Json)) (h : (env.classInfo n).base ≠ .tuple) :
    readsObject env n kvs Tags.SEQ = true ∧ readsObject env n kvs Tags.STATE = true ∧ ∀ k, readsObject env n kvs k = false → Tags.isReserved k = true := by
  refine ⟨?_, ?_, ?_⟩
  · unfold readsObject
    rw [if_neg (by decide), if_neg (by decide), if_neg (by decide), if_neg h, if_pos (by decide)]
  · unfold readsObject
    rw [if_neg (by decide), if_neg (by decide), if_neg (by decide), if_neg h, if_neg (by decide), if_pos (by decide)]
  · intro k hk
    unfold readsObject at hk
    split at hk
    · cases hk
    · split at hk
      · next e => rw [e]; decide
      · split at hk
        · next e => rw [e]; decide
        · split at hk
          · cases hk
          split at hk
          · cases hk
          · cases hr : Tags.isReserved k with
            | true => rfl
            | false => rw [hr] at hk; cases hk

theorem same_object {kvs : List (Str × Json)} {n : Str} (h : Same env rs)
    (hl : ∀ kv ∈ kvs, Tags.isReserved kv.1 = false → leafPayloads.contains kv.1 = false) (ho : dget Tags.OBJECT kvs = some (.str n))
    (h1 : env.handler n = none) (h2 : env.loadclass n ≠ none) (hb : (env.classInfo n).blankOk = true) :
    restoreObject env rs (left env (readsObject env n kvs) kvs) = restoreObject env rs kvs := by
  unfold restoreObject item
  rw [dget_left, (readsObject_keeps n kvs hl).object, if_pos rfl, ho]
  simp only [Option.map_some, payload_object, h1]
  have hi := same_instance (n := n) h (readsObject_keeps n kvs hl) hb (readsObject_rest kvs)
  funext s
  simp only [bind_run, ofExcept_run, loadclassJ, emit, modify_run, pure_run]
  cases hl : env.loadclass n with
  | none => exact absurd hl h2
  | some c => rw [h1]; dsimp only; rw [hi]

theorem reads_lead {kvs : List (Str × Json)} {t : Str} {j : Json} (h : tagOf kvs = some (t, j)) (ho : t ≠ p!"py/object") :
    reads env kvs = fun k => decide (k = t) := by
  funext k
  unfold reads
  rw [h]
  dsimp only
  rw [if_neg ho]

/-- pruning the elements does nothing to what iterating over the payload and restoring gives -/
theorem same_iter {α : Type} (h : Same env rs) (j : Json) (F : U (List Val) → U α) :
    (PyM.ofExcept (jsonIter (pruneItems env j)) >>= fun xs => F (PyM.mapM rs xs)) =
      (PyM.ofExcept (jsonIter j) >>= fun xs => F (PyM.mapM rs xs)) := by
  rw [iter_items]
  cases jsonIter j with
  | error e => rfl
  | ok xs =>
    show F (PyM.mapM rs (xs.map (prune env))) = F (PyM.mapM rs xs)
    rw [same_list h]

theorem same_restoreList (h : Same env rs) (j : Json) : restoreList rs (jsonIter (pruneItems env j)) = restoreList rs (jsonIter j) := by
  unfold restoreList
  congr 1; funext a
  congr 1; funext _
  exact same_iter h j (fun m => m >>= fun vs => setCell a (.list vs) >>= fun _ => noteList a 0 vs >>= fun _ => pure a)

theorem item_left {r : Str → Bool} {t : Str} {kvs : List (Str × Json)} {j : Json} (hr : r t = true) (hd : dget t kvs = some j) :
    item t (left env r kvs) = .ok (payload env t j) := by
  unfold item
  rw [dget_left, hr, if_pos rfl, hd]
  rfl

theorem item_ok {t : Str} {kvs : List (Str × Json)} {j : Json} (hd : dget t kvs = some j) : item t kvs = .ok j := by
  unfold item
  rw [hd]

theorem same_tuple {r : Str → Bool} {kvs : List (Str × Json)} {j : Json} (h : Same env rs) (hr : r Tags.TUPLE = true)
    (hd : dget Tags.TUPLE kvs = some j) : restoreTuple rs (left env r kvs) = restoreTuple rs kvs := by
  unfold restoreTuple
  rw [item_left hr hd, item_ok hd]
  have : payload env Tags.TUPLE j = pruneItems env j := by unfold payload; rw [if_neg (by decide), if_neg (by decide), if_pos (by decide)]
  rw [this]
  congr 1
  congr 1
  exact same_iter h j (fun m => m)

theorem same_set {r : Str → Bool} {kvs : List (Str × Json)} {j : Json} (h : Same env rs) (hr : r Tags.SET = true)
    (hd : dget Tags.SET kvs = some j) : restoreSet rs (left env r kvs) = restoreSet rs kvs := by
  unfold restoreSet
  rw [item_left hr hd, item_ok hd]
  have : payload env Tags.SET j = pruneItems env j := by unfold payload; rw [if_neg (by decide), if_neg (by decide), if_pos (by decide)]
  rw [this]
  congr 1
  congr 1
  show (PyM.ofExcept (jsonIter (pruneItems env j)) >>= _) = (PyM.ofExcept (jsonIter j) >>= _)
  rw [iter_items]
  cases jsonIter j with
  | error e => rfl
  | ok xs =>
    refine (foldM_map _ (prune env) xs []).trans ?_
    show _ = PyM.foldM _ [] xs
    simp only [h _]

theorem same_iterator {r : Str → Bool} {kvs : List (Str × Json)} {j : Json} (h : Same env rs) (hr : r Tags.ITERATOR = true)
    (hd : dget Tags.ITERATOR kvs = some j) : restoreIterator rs (left env r kvs) = restoreIterator rs kvs := by
  unfold restoreIterator
  rw [item_left hr hd, item_ok hd]
  have : payload env Tags.ITERATOR j = pruneItems env j := by unfold payload; rw [if_neg (by decide), if_neg (by decide), if_pos (by decide)]
  rw [this]
  congr 1
  congr 1
  exact same_restoreList h j

theorem same_reduce {r : Str → Bool} {kvs : List (Str × Json)} {j : Json} (h : Same env rs) (hr : r Tags.REDUCE = true)
    (hd : dget Tags.REDUCE kvs = some j) : restoreReduce env rs (left env r kvs) = restoreReduce env rs kvs := by
  unfold restoreReduce
  rw [item_left hr hd, item_ok hd]
  have : payload env Tags.REDUCE j = pruneItems env j := by unfold payload; rw [if_neg (by decide), if_neg (by decide), if_pos (by decide)]
  rw [this]
  congr 1; funext p
  congr 1; funext _
  congr 1
  congr 1
  exact same_iter h j (fun m => m >>= fun vs => pure (some vs))

theorem payload_leaf {t : Str} (h : leafPayloads.contains t = true) (j : Json) : payload env t j = leaf j := by
  unfold payload
  split
  · next h' =>
    have h1 : t ∈ rawPayloads := List.elem_iff.1 h'
    simp only [rawPayloads, List.mem_cons, List.not_mem_nil, or_false] at h1
    rcases h1 with e | e <;> subst e <;> exact absurd h (by decide)
  · rfl

theorem leaf_dget {r : Str → Bool} {t : Str} {kvs : List (Str × Json)} (h : leafPayloads.contains t = true) (hr : r t = true) :
    dget t (left env r kvs) = (dget t kvs).map leaf := by
  rw [dget_left, hr, if_pos rfl]
  cases dget t kvs with
  | none => rfl
  | some j => simp only [Option.map_some, payload_leaf h]

theorem leaf_item {r : Str → Bool} {t : Str} {kvs : List (Str × Json)} {j : Json} (h : leafPayloads.contains t = true) (hr : r t = true)
    (hd : dget t kvs = some j) : item t (left env r kvs) = .ok (leaf j) := by
  unfold item
  rw [leaf_dget h hr, hd]
  rfl

theorem payload_raw {t : Str} (h : t ∈ rawPayloads) (j : Json) : payload env t j = j := by
  unfold payload
  rw [if_pos (List.elem_eq_true_of_mem h)]

theorem same_dget {r : Str → Bool} {t : Str} {kvs : List (Str × Json)} (h : t ∈ rawPayloads) (hr : r t = true) :
    dget t (left env r kvs) = dget t kvs := by
  rw [dget_left, hr, if_pos rfl]
  cases dget t kvs with
  | none => rfl
  | some j => simp only [Option.map_some, payload_raw h]

theorem same_item {r : Str → Bool} {t : Str} {kvs : List (Str × Json)} (h : t ∈ rawPayloads) (hr : r t = true) :
    item t (left env r kvs) = item t kvs := by
  unfold item
  rw [same_dget h hr]

theorem same_type {r : Str → Bool} {kvs : List (Str × Json)} {j : Json} (hr : r Tags.TYPE = true)
    (hd : dget Tags.TYPE kvs = some j) (hl : ∀ n, j = .str n → env.loadclass n ≠ none) :
    restoreType env (left env r kvs) = restoreType env kvs := by
  unfold restoreType
  rw [leaf_item (by decide) hr hd, item_ok hd]
  funext s
  cases j with
  | str n =>
    simp only [leaf]
    simp only [bind_run, ofExcept_run, loadclassJ, emit, modify_run, pure_run]
    cases hc : env.loadclass n with
    | none => exact absurd hc (hl n rfl)
    | some c => rfl
  | _ => rfl

/-- objects with a tag other than py/object and py/type -/
theorem same_lead {kvs : List (Str × Json)} {t : Str} {j : Json} (h : Same env rs) (ht : tagOf kvs = some (t, j))
    (ho : t ≠ p!"py/object") (hy : t = p!"py/type" → (∀ n, j = .str n → env.loadclass n ≠ none)) :
    restoreTags env rs (left env (reads env kvs) kvs) = restoreTags env rs kvs := by
  obtain ⟨hd, hm, hb⟩ := tagOf_before ht
  rw [reads_lead ht ho]
  have hh : dhas t kvs = true := by unfold dhas; rw [hd]; rfl
  unfold restoreTags
  simp only [dhas_left]
  simp only [wireTags, List.mem_cons, List.not_mem_nil, or_false] at hm
  rcases hm with e | e | e | e | e | e | e | e | e | e | e | e | e
  · subst e
    rw [if_pos (show (decide _ && dhas Tags.TUPLE kvs) = true from by rw [Bool.and_eq_true]; exact ⟨by decide, hh⟩), if_pos (show dhas Tags.TUPLE kvs = true from hh)]
    exact same_tuple h (by decide) hd
  · subst e
    simp only [hb Tags.TUPLE (by decide), Bool.and_false, Bool.false_eq_true, if_false]
    rw [if_pos (show (decide _ && dhas Tags.SET kvs) = true from by rw [Bool.and_eq_true]; exact ⟨by decide, hh⟩), if_pos (show dhas Tags.SET kvs = true from hh)]
    exact same_set h (by decide) hd
  · subst e
    simp only [hb Tags.TUPLE (by decide), hb Tags.SET (by decide), Bool.and_false, Bool.false_eq_true, if_false]
    rw [if_pos (show (decide _ && dhas Tags.B64 kvs) = true from by rw [Bool.and_eq_true]; exact ⟨by decide, hh⟩), if_pos (show dhas Tags.B64 kvs = true from hh)]
    unfold restoreBase64; rw [leaf_dget (by decide) (by decide), show dget Tags.B64 kvs = some j from hd]; cases j <;> rfl
  · subst e
    simp only [hb Tags.TUPLE (by decide), hb Tags.SET (by decide), hb Tags.B64 (by decide), Bool.and_false, Bool.false_eq_true, if_false]
    rw [if_pos (show (decide _ && dhas Tags.B85 kvs) = true from by rw [Bool.and_eq_true]; exact ⟨by decide, hh⟩), if_pos (show dhas Tags.B85 kvs = true from hh)]
    unfold restoreBase85; rw [leaf_dget (by decide) (by decide), show dget Tags.B85 kvs = some j from hd]; cases j <;> rfl
  · subst e
    simp only [hb Tags.TUPLE (by decide), hb Tags.SET (by decide), hb Tags.B64 (by decide), hb Tags.B85 (by decide), Bool.and_false, Bool.false_eq_true, if_false]
    rw [if_pos (show (decide _ && dhas Tags.BYTEARRAY kvs) = true from by rw [Bool.and_eq_true]; exact ⟨by decide, hh⟩), if_pos (show dhas Tags.BYTEARRAY kvs = true from hh)]
    unfold restoreBytearray; rw [same_dget (by decide) (by decide)]
  · subst e
    simp only [hb Tags.TUPLE (by decide), hb Tags.SET (by decide), hb Tags.B64 (by decide), hb Tags.B85 (by decide), hb Tags.BYTEARRAY (by decide), Bool.and_false, Bool.false_eq_true, if_false]
    rw [if_pos (show (decide _ && dhas Tags.ID kvs) = true from by rw [Bool.and_eq_true]; exact ⟨by decide, hh⟩), if_pos (show dhas Tags.ID kvs = true from hh)]
    unfold restoreId; rw [leaf_item (t := Tags.ID) (by decide) (by decide) hd, item_ok (t := Tags.ID) hd]; cases j <;> rfl
  · subst e
    simp only [hb Tags.TUPLE (by decide), hb Tags.SET (by decide), hb Tags.B64 (by decide), hb Tags.B85 (by decide), hb Tags.BYTEARRAY (by decide), hb Tags.ID (by decide), Bool.and_false, Bool.false_eq_true, if_false]
    rw [if_pos (show (decide _ && dhas Tags.ITERATOR kvs) = true from by rw [Bool.and_eq_true]; exact ⟨by decide, hh⟩), if_pos (show dhas Tags.ITERATOR kvs = true from hh)]
    exact same_iterator h (by decide) hd
  · exact absurd e ho
  · subst e
    simp only [hb Tags.TUPLE (by decide), hb Tags.SET (by decide), hb Tags.B64 (by decide), hb Tags.B85 (by decide), hb Tags.BYTEARRAY (by decide), hb Tags.ID (by decide), hb Tags.ITERATOR (by decide), hb Tags.OBJECT (by decide), Bool.and_false, Bool.false_eq_true, if_false]
    rw [if_pos (show (decide _ && dhas Tags.TYPE kvs) = true from by rw [Bool.and_eq_true]; exact ⟨by decide, hh⟩), if_pos (show dhas Tags.TYPE kvs = true from hh)]
    exact same_type (by decide) hd (hy rfl)
  · subst e
    simp only [hb Tags.TUPLE (by decide), hb Tags.SET (by decide), hb Tags.B64 (by decide), hb Tags.B85 (by decide), hb Tags.BYTEARRAY (by decide), hb Tags.ID (by decide), hb Tags.ITERATOR (by decide), hb Tags.OBJECT (by decide), hb Tags.TYPE (by decide), Bool.and_false, Bool.false_eq_true, if_false]
    rw [if_pos (show (decide _ && dhas Tags.REDUCE kvs) = true from by rw [Bool.and_eq_true]; exact ⟨by decide, hh⟩), if_pos (show dhas Tags.REDUCE kvs = true from hh)]
    exact same_reduce h (by decide) hd
  · subst e
    simp only [hb Tags.TUPLE (by decide), hb Tags.SET (by decide), hb Tags.B64 (by decide), hb Tags.B85 (by decide), hb Tags.BYTEARRAY (by decide), hb Tags.ID (by decide), hb Tags.ITERATOR (by decide), hb Tags.OBJECT (by decide), hb Tags.TYPE (by decide), hb Tags.REDUCE (by decide), Bool.and_false, Bool.false_eq_true, if_false]
    rw [if_pos (show (decide _ && dhas Tags.FUNCTION kvs) = true from by rw [Bool.and_eq_true]; exact ⟨by decide, hh⟩), if_pos (show dhas Tags.FUNCTION kvs = true from hh)]
    unfold restoreFunction; rw [leaf_item (t := Tags.FUNCTION) (by decide) (by decide) hd, item_ok (t := Tags.FUNCTION) hd]; cases j <;> rfl
  · subst e
    simp only [hb Tags.TUPLE (by decide), hb Tags.SET (by decide), hb Tags.B64 (by decide), hb Tags.B85 (by decide), hb Tags.BYTEARRAY (by decide), hb Tags.ID (by decide), hb Tags.ITERATOR (by decide), hb Tags.OBJECT (by decide), hb Tags.TYPE (by decide), hb Tags.REDUCE (by decide), hb Tags.FUNCTION (by decide), Bool.and_false, Bool.false_eq_true, if_false]
    rw [if_pos (show (decide _ && dhas Tags.MODULE kvs) = true from by rw [Bool.and_eq_true]; exact ⟨by decide, hh⟩), if_pos (show dhas Tags.MODULE kvs = true from hh)]
    rw [leaf_item (t := Tags.MODULE) (by decide) (by decide) hd, item_ok (t := Tags.MODULE) hd]; cases j <;> rfl
  · subst e
    simp only [hb Tags.TUPLE (by decide), hb Tags.SET (by decide), hb Tags.B64 (by decide), hb Tags.B85 (by decide), hb Tags.BYTEARRAY (by decide), hb Tags.ID (by decide), hb Tags.ITERATOR (by decide), hb Tags.OBJECT (by decide), hb Tags.TYPE (by decide), hb Tags.REDUCE (by decide), hb Tags.FUNCTION (by decide), hb Tags.MODULE (by decide), Bool.and_false, Bool.false_eq_true, if_false]
    rw [if_pos (show (decide _ && dhas Tags.REPR kvs) = true from by rw [Bool.and_eq_true]; exact ⟨by decide, hh⟩), if_pos (show dhas Tags.REPR kvs = true from hh)]
    rw [leaf_item (t := Tags.REPR) (by decide) (by decide) hd, item_ok (t := Tags.REPR) hd]; cases j <;> rfl

theorem same_tags {kvs : List (Str × Json)} (h : Same env rs) (hk : keptWhole env kvs = false) :
    restoreTags env rs (left env (reads env kvs) kvs) = restoreTags env rs kvs := by
  cases ht : tagOf kvs with
  | none =>
    have hr : reads env kvs = fun _ => true := by funext k; unfold reads; rw [ht]
    rw [hr, restoreTags_plain ht, ← same_dict h kvs (fun kv hkv => by
      cases hc : leafPayloads.contains kv.1 with
      | false => rfl
      | true =>
        have := tagOf_none ht (leaf_wire hc)
        rw [dhas_eq_false_iff] at this
        exact absurd (List.mem_map_of_mem hkv) this)]
    refine restoreTags_plain ?_
    unfold tagOf
    rw [List.findSome?_eq_none_iff]
    intro t hm
    have := tagOf_none ht hm
    rw [dget_left, if_pos rfl]
    unfold dhas at this
    cases hd : dget t kvs with
    | none => rfl
    | some j => rw [hd] at this; cases this
  | some tj =>
    obtain ⟨t, j⟩ := tj
    by_cases ho : t = p!"py/object"
    · subst ho
      obtain ⟨hd, _, hb⟩ := tagOf_before ht
      unfold keptWhole at hk
      rw [ht] at hk
      cases j with
      | str n =>
        simp only [if_true, Bool.or_eq_false_iff] at hk
        obtain ⟨⟨k1, k2⟩, k3⟩ := hk
        have k1 : env.handler n = none := by cases he : env.handler n with
          | none => rfl
          | some x => rw [he] at k1; cases k1
        have k2 : env.loadclass n ≠ none := by intro he; rw [he] at k2; cases k2
        have k3 : (env.classInfo n).blankOk = true := by simpa using k3
        have hr : reads env kvs = readsObject env n kvs := by funext k; unfold reads; rw [ht]; rfl
        have hl : ∀ kv ∈ kvs, Tags.isReserved kv.1 = false → leafPayloads.contains kv.1 = false := by
          intro kv hkv hq
          cases hc : leafPayloads.contains kv.1 with
          | false => rfl
          | true =>
            have h1 : kv.1 ∈ leafPayloads := List.elem_iff.1 hc
            have n1 := hb Tags.B64 (by decide)
            have n2 := hb Tags.B85 (by decide)
            rw [dhas_eq_false_iff] at n1 n2
            simp only [leafPayloads, List.mem_cons, List.not_mem_nil, or_false] at h1
            rcases h1 with e | e | e | e | e | e | e
            · exact absurd (show Tags.B64 ∈ kvs.map (·.1) by rw [show Tags.B64 = kv.1 from e.symm]; exact List.mem_map_of_mem hkv) n1
            · exact absurd (show Tags.B85 ∈ kvs.map (·.1) by rw [show Tags.B85 = kv.1 from e.symm]; exact List.mem_map_of_mem hkv) n2
            all_goals (rw [e] at hq; exact absurd hq (by decide))
        rw [hr, restoreTags_object ht, ← same_object h hl hd k1 k2 k3]
        have hh : dhas Tags.OBJECT kvs = true := by unfold dhas; rw [show Tags.OBJECT = p!"py/object" from rfl, hd]; rfl
        unfold restoreTags
        simp only [dhas_left, hb Tags.TUPLE (by decide), hb Tags.SET (by decide), hb Tags.B64 (by decide), hb Tags.B85 (by decide),
          hb Tags.BYTEARRAY (by decide), hb Tags.ID (by decide), hb Tags.ITERATOR (by decide), Bool.and_false, Bool.false_eq_true, if_false]
        rw [if_pos]
        rw [hh, (readsObject_keeps n kvs hl).object]; rfl
      | _ => simp at hk
    · refine same_lead h ht ho (fun hy n hn => ?_)
      subst hy hn
      intro he
      unfold keptWhole at hk
      rw [ht] at hk
      dsimp only at hk
      rw [if_neg (by decide), if_pos rfl, he] at hk
      cases hk

theorem restore_prune (n : Nat) : Same env (restore env n) := by
  induction n with
  | zero => intro j; rfl
  | succ n ih =>
    intro j
    cases j with
    | obj kvs =>
      rw [prune]
      cases hk : keptWhole env kvs with
      | true => rfl
      | false =>
        rw [if_neg (by decide), pruneKvs_map]
        exact same_tags ih hk
    | arr xs =>
      rw [prune, pruneL_map]
      show (restoreList (restore env n) (.ok (xs.map (prune env))) >>= fun a => (pure (Val.ref a) : U Val)) =
        (restoreList (restore env n) (.ok xs) >>= fun a => (pure (Val.ref a) : U Val))
      have := same_restoreList (env := env) ih (.arr xs)
      rw [pruneItems, pruneL_map] at this
      rw [show restoreList (restore env n) (.ok (xs.map (prune env))) = restoreList (restore env n) (.ok xs) from this]
    | _ => rw [prune] <;> (intro x hx; cases hx)

end JP.Unpickler.Pruning
