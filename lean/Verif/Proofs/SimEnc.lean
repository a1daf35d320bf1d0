import Verif.Proofs.SimRun
/-!
# Normal forms of the encoder on supported objects
-/
namespace JP.Sim
open JP PyM Pickler

variable {w : World} {cfg : PCfg} {env : UEnv} {fl : Val → P Json}

theorem zip_keys {κ : Type} : ∀ (ks : List κ) (js : List Json), js.length = ks.length → (ks.zip js).map (·.1) = ks
  | [], [], _ => rfl
  | k :: ks, j :: js, h => by simp [zip_keys ks js (by simpa using h)]
  | [], _ :: _, h => by simp at h
  | _ :: _, [], h => by simp at h

/-- a loop that writes one new entry per iteration -/
theorem foldM_entries {ε : Type} (f : List (Str × Json) → ε → P (List (Str × Json))) (key : ε → Str) (val : ε → Val) :
    ∀ (es : List ε) (data : List (Str × Json)),
    (∀ e ∈ es, ∀ d, f d e = (fl (val e) >>= fun j => (pure (dset (key e) j d) : P _))) →
    (es.map key).Nodup → (∀ e ∈ es, key e ∉ data.map (·.1)) →
    foldM f data es = (mapM fl (es.map val) >>= fun js => (pure (data ++ (es.map key).zip js) : P _))
  | [], data, _, _, _ => by
    simp only [foldM_nil, List.map_nil, mapM_nil, List.zip_nil_left, List.append_nil]
    rfl
  | e :: es, data, hf, hn, hd => by
    rw [foldM_cons, hf e List.mem_cons_self]
    simp only [List.map_cons, mapM_cons, bind_assoc']
    congr 1
    funext j
    have hne := hd e List.mem_cons_self
    simp only [List.map_cons, List.nodup_cons] at hn
    change foldM f (dset (key e) j data) es = (mapM fl (es.map val) >>= fun ys => (pure (data ++ (key e :: es.map key).zip (j :: ys)) : P _))
    rw [foldM_entries f key val es _ (fun e' he' => hf e' (List.mem_cons_of_mem _ he')) hn.2 ?_]
    · rw [dset_of_not_mem _ _ _ hne]
      simp
    · intro e' he' hmem
      rw [dset_of_not_mem _ _ _ hne] at hmem
      simp only [List.map_append, List.mem_append, List.map_cons, List.map_nil, List.mem_singleton] at hmem
      rcases hmem with hmem | hmem
      · exact hd e' (List.mem_cons_of_mem _ he') hmem
      · exact hn.1 (hmem ▸ List.mem_map_of_mem he')

theorem nameOk_reserved {keys : Bool} {s : Str} (h : NameOk keys s) : Tags.isReserved s = false := by
  have := h.1
  simp only [Tags.all, List.mem_append, not_or] at this
  simp only [Tags.isReserved, List.contains_eq_mem, decide_eq_false_iff_not]
  exact this.1

theorem picklable_str {h : Heap} {keys : Bool} {s : Str} {v : Val} (hs : NameOk keys s) (hv : ValOk h env v) :
    isPicklable (.str s) v = true := by
  simp only [isPicklable, nameOk_reserved hs]
  cases v <;> first | rfl | simp [ValOk] at hv

theorem itemsExcl_nil (kvs : List (Val × Val)) : itemsExcl [] kvs = kvs := by
  unfold itemsExcl
  rw [List.filter_eq_self]
  intro a _
  split <;> rfl

theorem kvp_str {h : Heap} {s : Str} {v : Val} {d} (hs : NameOk cfg.keys s) (hv : ValOk h env v) :
    flattenKeyValuePair w fl (.str s) v d = (fl v >>= fun j => (pure (dset s j d) : P _)) := by
  unfold flattenKeyValuePair
  rw [if_pos (picklable_str hs hv)]
  rfl

theorem string_str {h : Heap} {s : Str} {v : Val} {d} (hk : cfg.keys = true) (hs : NameOk cfg.keys s) (hv : ValOk h env v) :
    flattenString w cfg fl (.str s) v d = (fl v >>= fun j => (pure (dset s j d) : P _)) := by
  have hn : needsEscape s = false := by simp [needsEscape, hs.2 hk, nameOk_reserved hs]
  simp only [flattenString, hn, Bool.false_and, Bool.false_eq_true, if_false, flattenStringTail,
    picklable_str hs hv, if_true, hk]

theorem foldM_skip {α β : Type} (f : β → α → P β) : ∀ (xs : List α) (b : β), (∀ x ∈ xs, ∀ b, f b x = pure b) →
    foldM f b xs = pure b
  | [], _, _ => rfl
  | x :: xs, b, h => by
    rw [foldM_cons, h x List.mem_cons_self]
    exact foldM_skip f xs b (fun y hy => h y (List.mem_cons_of_mem _ hy))

/-- entries with string keys only -/
theorem entries_str {h : Heap} (ents : List (Str × Val)) (data : List (Str × Json))
    (hok : ∀ e ∈ ents, NameOk cfg.keys e.1 ∧ ValOk h env e.2) (hn : (ents.map (·.1)).Nodup)
    (hd : ∀ e ∈ ents, e.1 ∉ data.map (·.1)) :
    flattenEntries w cfg fl (asItems ents) [] data =
      (mapM fl (ents.map (·.2)) >>= fun js => (pure (data ++ (ents.map (·.1)).zip js) : P _)) := by
  have fold_map : ∀ (f : List (Str × Json) → Val × Val → P (List (Str × Json))) (d : List (Str × Json)) (l : List (Str × Val)),
      foldM f d (asItems l) = foldM (fun d (e : Str × Val) => f d (.str e.1, e.2)) d l := by
    intro f d l
    induction l generalizing d with
    | nil => rfl
    | cons e l ih =>
      simp only [asItems, List.map_cons, foldM_cons]
      congr 1
      funext d'
      exact ih d'
  unfold flattenEntries
  simp only [itemsExcl_nil]
  split
  · next hk =>
    rw [fold_map, foldM_entries (fl := fl) _ (·.1) (·.2) ents data
      (fun e he d => string_str hk (hok e he).1 (hok e he).2) hn hd, bind_assoc']
    congr 1
    funext js
    change foldM _ _ _ = _
    rw [fold_map]
    refine foldM_skip _ ents _ (fun e he b => ?_)
    simp only [flattenNonString]
    split <;> rfl
  · rw [fold_map, foldM_entries (fl := fl) _ (·.1) (·.2) ents data
      (fun e he d => kvp_str (hok e he).1 (hok e he).2) hn hd]

/-- ref mode: what `_flatten` does with a container -/
def container : Val → Bool
  | .none | .bool _ | .int _ | .float _ | .str _ | .bytes _ _ | .bytearray _ _ => false
  | _ => true

theorem flatten_container (hm : Matching w cfg env) {n : Nat} {v : Val} {s s' : PState} {r}
    (hv : container v = true) (hrun : flatten w cfg (n + 1) v s = some (r, s')) :
    ∃ r1 s1, flattenBy w cfg (flatten w cfg n) v { s with depth := s.depth + 1, seen := s.seen ++ [v] } = some (r1, s1) ∧
      ∀ j, r1 = .ok j → r = .ok j ∧ s' = (if s1.depth - 1 = -1 then {} else { s1 with depth := s1.depth - 1 }) := by
  have e1 : flatten w cfg (n + 1) v = flattenImpl w cfg (flatten w cfg n) v := by
    cases v <;> simp [container] at hv <;>
      simp only [flatten, flattenStep, cached, hm.unpicklable, hm.makeRefs, Bool.and_self, if_true]
  have e2 : flattenImpl w cfg (flatten w cfg n) v = (push >>= fun _ => flattenObj w cfg (flatten w cfg n) v >>= fun j => pop j) := by
    cases v <;> simp [container] at hv <;> rfl
  rw [e1, e2] at hrun
  rw [bind_ok (show push s = some (.ok (), { s with depth := s.depth + 1 }) from rfl)] at hrun
  have hobj : ∃ hh, flattenObj w cfg (flatten w cfg n) v { s with depth := s.depth + 1 } =
      PyM.tryCatch (flattenBy w cfg (flatten w cfg n) v) (fun e => e.isException && cfg.failSafe.isSome)
        hh { s with depth := s.depth + 1, seen := s.seen ++ [v] } := by
    refine ⟨(fun e => match cfg.failSafe with
          | some f => ofExcept (f e)
          | none => throw e), ?_⟩
    unfold flattenObj flattenObjWith
    rw [bind_ok (modify_run _ _)]
    have hmax : maxReached cfg { s with depth := s.depth + 1, seen := s.seen ++ [v] } =
        some (.ok false, { s with depth := s.depth + 1, seen := s.seen ++ [v] }) := by
      simp [maxReached, hm.maxDepth]
    rw [bind_ok hmax]
    simp only [PyM.tryCatch]
    have hcyc : inCycle v.ident (isEnumV w v) false cfg.makeRefs { s with depth := s.depth + 1, seen := s.seen ++ [v] } =
        some (.ok false, { s with depth := s.depth + 1, seen := s.seen ++ [v] }) := by
      simp [inCycle, hm.makeRefs]
    rw [bind_ok hcyc]
    rfl
  obtain ⟨hh, hobj⟩ := hobj
  rw [bind_run, hobj] at hrun
  simp only [PyM.tryCatch] at hrun
  cases hb : flattenBy w cfg (flatten w cfg n) v { s with depth := s.depth + 1, seen := s.seen ++ [v] } with
  | none => rw [hb] at hrun; simp at hrun
  | some p =>
    obtain ⟨r1, s1⟩ := p
    refine ⟨r1, s1, rfl, ?_⟩
    intro j hj
    subst hj
    rw [hb] at hrun
    simp only [pop] at hrun
    injection hrun with hrun
    injection hrun with h1 h2
    refine ⟨h1.symm, ?_⟩
    rw [← h2]
    by_cases e : s1.depth - 1 = -1
    · simp [e]
    · simp [e]

/-- registering in ref mode -/
theorem mkref_new (hm : Matching w cfg env) {i : Ident} {s : PState} (h : i ∉ s.objs) :
    Pickler.mkref cfg i s = some (.ok true, { s with objs := s.objs ++ [i] }) := by
  simp [Pickler.mkref, logRef, bind_run, h, hm.unpicklable, hm.makeRefs]

theorem mkref_old (hm : Matching w cfg env) {i : Ident} {s : PState} (h : i ∈ s.objs) :
    Pickler.mkref cfg i s = some (.ok false, s) := by
  simp [Pickler.mkref, logRef, bind_run, h, hm.unpicklable, hm.makeRefs]

theorem getref_run {i : Ident} {s : PState} (h : i ∈ s.objs) :
    getref i s = some (.ok (.obj [(Tags.ID, .int (s.objs.idxOf i))]), s) := by
  simp [getref, h]

end JP.Sim
