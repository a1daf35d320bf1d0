import Verif.Unpickler
import Verif.TreeSpec
import Verif.Proofs.UDenote
/-!
# Documents without tags, read with any options
-/
namespace JP.Unpickler
open JP PyM

mutual
theorem spells_frame {h h' : Heap} {v : Val} : ∀ {j : Json} {as : List Addr}, Spells h v j as → (∀ a ∈ as, h'[a]? = h[a]?) → Spells h' v j as
  | .null, _, hs, _ => hs
  | .bool _, _, hs, _ => hs
  | .int _, _, hs, _ => hs
  | .float _, _, hs, _ => hs
  | .str _, _, hs, _ => hs
  | .arr _, _, hs, hh => by
    obtain ⟨a, vs, bs, h1, h2, h3, rfl⟩ := hs
    exact ⟨a, vs, bs, h1, by rw [hh a (.head _)]; exact h2, spellsAll_frame h3 (fun x hx => hh x (.tail _ hx)), rfl⟩
  | .obj _, _, hs, hh => by
    obtain ⟨a, vs, bs, h1, h2, h3, rfl⟩ := hs
    exact ⟨a, vs, bs, h1, by rw [hh a (.head _)]; exact h2, spellsEntries_frame h3 (fun x hx => hh x (.tail _ hx)), rfl⟩
theorem spellsAll_frame {h h' : Heap} {vs : List Val} : ∀ {xs : List Json} {as : List Addr}, SpellsAll h vs xs as → (∀ a ∈ as, h'[a]? = h[a]?) → SpellsAll h' vs xs as
  | [], _, hs, _ => hs
  | _ :: _, _, hs, hh => by
    obtain ⟨v, vs', bs, cs, h1, h2, h3, rfl⟩ := hs
    exact ⟨v, vs', bs, cs, h1, spells_frame h2 (fun x hx => hh x (List.mem_append_left _ hx)), spellsAll_frame h3 (fun x hx => hh x (List.mem_append_right _ hx)), rfl⟩
theorem spellsEntries_frame {h h' : Heap} {es : List (Val × Val)} : ∀ {xs : List (Str × Json)} {as : List Addr}, SpellsEntries h es xs as → (∀ a ∈ as, h'[a]? = h[a]?) → SpellsEntries h' es xs as
  | [], _, hs, _ => hs
  | (_, _) :: _, _, hs, hh => by
    obtain ⟨v, vs', bs, cs, h1, h2, h3, rfl⟩ := hs
    exact ⟨v, vs', bs, cs, h1, spells_frame h2 (fun x hx => hh x (List.mem_append_left _ hx)), spellsEntries_frame h3 (fun x hx => hh x (List.mem_append_right _ hx)), rfl⟩
end

theorem spells_not_proxy {h : Heap} {v : Val} {j : Json} {as : List Addr} (hs : Spells h v j as) : proxyAddr h v = none := by
  cases j with
  | arr xs => obtain ⟨a, vs, bs, rfl, h2, _⟩ := hs; simp only [proxyAddr, h2]
  | obj xs => obtain ⟨a, vs, bs, rfl, h2, _⟩ := hs; simp only [proxyAddr, h2]
  | _ => obtain ⟨rfl, _⟩ := hs; rfl

/-- the run only made new objects (apart from cell `a`) and noted no proxies -/
structure Kept (s s' : UState) : Prop where
  len : s.heap.length ≤ s'.heap.length
  old : ∀ a < s.heap.length, s'.heap[a]? = s.heap[a]?
  proxies : s'.proxies = s.proxies

theorem Kept.trans {s s' s'' : UState} (h : Kept s s') (h' : Kept s' s'') : Kept s s'' :=
  ⟨Nat.le_trans h.len h'.len, fun a ha => by rw [h'.old a (Nat.lt_of_lt_of_le ha h.len), h.old a ha], h'.proxies.trans h.proxies⟩

/-- the addresses are new, and different from each other -/
def NewIn (s s' : UState) (as : List Addr) : Prop := as.Nodup ∧ ∀ x ∈ as, s.heap.length ≤ x ∧ x < s'.heap.length

def Plainly (rs : Json → U Val) (j : Json) : Prop :=
  ∀ s : UState, ∃ (v : Val) (s' : UState) (as : List Addr), rs j s = some (.ok v, s') ∧ Kept s s' ∧ Spells s'.heap v j as ∧ NewIn s s' as

theorem NewIn.append {s s' s'' : UState} {as bs : List Addr} (h : NewIn s s' as) (h' : NewIn s' s'' bs) (hl : s.heap.length ≤ s'.heap.length) (hl' : s'.heap.length ≤ s''.heap.length) :
    NewIn s s'' (as ++ bs) := by
  refine ⟨List.nodup_append.2 ⟨h.1, h'.1, fun x hx y hy e => ?_⟩, fun x hx => ?_⟩
  · subst e
    have h1 := (h.2 x hx).2
    have h2 := (h'.2 x hy).1
    exact absurd h1 (Nat.not_lt_of_le h2)
  · rcases List.mem_append.1 hx with hx | hx
    · exact ⟨(h.2 x hx).1, Nat.lt_of_lt_of_le (h.2 x hx).2 hl'⟩
    · exact ⟨Nat.le_trans hl (h'.2 x hx).1, (h'.2 x hx).2⟩

variable {env : UEnv} {rs : Json → U Val}

theorem plainly_all : ∀ (xs : List Json), (∀ x ∈ xs, Plainly rs x) → ∀ s : UState,
    ∃ (vs : List Val) (s' : UState) (as : List Addr), mapM rs xs s = some (.ok vs, s') ∧ Kept s s' ∧ SpellsAll s'.heap vs xs as ∧ NewIn s s' as
  | [], _, s => ⟨[], s, [], rfl, ⟨Nat.le_refl _, fun _ _ => rfl, rfl⟩, ⟨rfl, rfl⟩, List.nodup_nil, fun _ h => by cases h⟩
  | x :: xs, h, s => by
    obtain ⟨v, s1, as, h1, k1, p1, n1⟩ := h x (.head _) s
    obtain ⟨vs, s2, bs, h2, k2, p2, n2⟩ := plainly_all xs (fun y hy => h y (.tail _ hy)) s1
    refine ⟨v :: vs, s2, as ++ bs, ?_, k1.trans k2, ⟨v, vs, as, bs, rfl, spells_frame p1 (fun a ha => k2.old a (n1.2 a ha).2), p2, rfl⟩, n1.append n2 k1.len k2.len⟩
    rw [mapM_cons, bind_ok h1, bind_ok h2]
    rfl

theorem mkref_kept (v : Val) (s : UState) : ∃ s', mkref v s = some (.ok v, s') ∧ s'.heap = s.heap ∧ s'.proxies = s.proxies := by
  unfold mkref
  cases idxGet v.ident s.idx with
  | none => exact ⟨_, rfl, rfl, rfl⟩
  | some n => exact ⟨_, rfl, rfl, rfl⟩

theorem noteList_none (a : Addr) : ∀ (vs : List Val) (n : Nat) (s : UState), (∀ v ∈ vs, proxyAddr s.heap v = none) → noteList a n vs s = some (.ok (), s)
  | [], _, _, _ => rfl
  | v :: vs, n, s, h => by
    unfold noteList
    have e : noteProxy a (.idx n) v s = some (.ok (), s) := by simp only [noteProxy, PyM.modify, h v (.head _)]
    rw [bind_ok e]
    exact noteList_none a vs (n + 1) s (fun w hw => h w (.tail _ hw))

theorem spellsAll_not_proxy {h : Heap} : ∀ {vs : List Val} {xs : List Json} {as : List Addr}, SpellsAll h vs xs as → ∀ v ∈ vs, proxyAddr h v = none
  | _, [], _, hs, v, hv => by rw [hs.1] at hv; cases hv
  | _, x :: xs, _, hs, v, hv => by
    obtain ⟨w, vs', bs, cs, rfl, h2, h3, _⟩ := hs
    rcases List.mem_cons.1 hv with rfl | hv
    · exact spells_not_proxy h2
    · exact spellsAll_not_proxy h3 v hv

theorem plainly_arr {xs : List Json} (h : ∀ x ∈ xs, Plainly rs x) : Plainly (restoreStep env rs) (.arr xs) := by
  intro s
  let s0 : UState := { s with heap := s.heap ++ [.list []] }
  have l0 : s0.heap.length = s.heap.length + 1 := List.length_append
  obtain ⟨s1, h1, e1, p1⟩ := mkref_kept (.ref s.heap.length) s0
  obtain ⟨vs, s2, as, h2, k2, sp2, n2⟩ := plainly_all xs h s1
  have l1 : s1.heap.length = s.heap.length + 1 := by rw [e1, l0]
  have hl2 := k2.len
  have hlt : s.heap.length < s2.heap.length := by omega
  let s3 : UState := { s2 with heap := s2.heap.set s.heap.length (.list vs) }
  have l3 : s3.heap.length = s2.heap.length := List.length_set ..
  have hne : ∀ x ∈ as, x ≠ s.heap.length := fun x hx e => by have := (n2.2 x hx).1; subst e; omega
  have sp3 : SpellsAll s3.heap vs xs as := spellsAll_frame sp2 (fun x hx => by
    show (s2.heap.set _ _)[x]? = _
    rw [List.getElem?_set, if_neg (fun e => hne x hx e.symm)])
  refine ⟨.ref s.heap.length, s3, s.heap.length :: as, ?_, ⟨by omega, fun x hx => ?_, ?_⟩, ⟨s.heap.length, vs, as, rfl, ?_, sp3, rfl⟩, ?_, ?_⟩
  · show (restoreList rs (.ok xs) >>= fun a => (pure (Val.ref a) : U Val)) s = _
    refine (bind_ok (a := s.heap.length) (s' := s3) ?_).trans rfl
    unfold restoreList
    refine (bind_ok (a := s.heap.length) (s' := s0) rfl).trans ((bind_ok h1).trans ((bind_ok (ofExcept_run _ _)).trans ((bind_ok h2).trans ?_)))
    refine (bind_ok (a := ()) (s' := s3) rfl).trans ((bind_ok (noteList_none _ vs 0 s3 (spellsAll_not_proxy sp3))).trans rfl)
  · show (s2.heap.set _ _)[x]? = _
    rw [List.getElem?_set, if_neg (Nat.ne_of_gt hx), k2.old x (by omega), e1]
    exact List.getElem?_append_left hx
  · show s2.proxies = _
    rw [k2.proxies, p1]
  · show (s2.heap.set _ _)[_]? = _
    rw [List.getElem?_set, if_pos rfl, if_pos hlt]
  · exact List.nodup_cons.2 ⟨fun hm => hne _ hm rfl, n2.1⟩
  · intro x hx
    rcases List.mem_cons.1 hx with rfl | hx
    · exact ⟨Nat.le_refl _, by rw [l3]; exact hlt⟩
    · have h4 := n2.2 x hx
      rw [l1] at h4
      exact ⟨Nat.le_of_succ_le h4.1, by rw [l3]; exact h4.2⟩

/-- what one entry does: read the value and store it under its key -/
def Stores (rs : Json → U Val) (a : Addr) (ent : Str × Json → U Unit) (kv : Str × Json) : Prop :=
  ∀ (s s1 s2 : UState) (v : Val), rs kv.2 s = some (.ok v, s1) → dictSet a (.str kv.1) v s1 = some (.ok (), s2) → proxyAddr s2.heap v = none → ent kv s = some (.ok (), s2)

theorem plainly_entries {a : Nat} {ent : Str × Json → U Unit} : ∀ (kvs : List (Str × Json)) (es0 : List (Str × Val)), (∀ kv ∈ kvs, Plainly rs kv.2) →
    (∀ kv ∈ kvs, Stores rs a ent kv) → (es0.map (·.1) ++ kvs.map (·.1)).Nodup → ∀ s : UState, a < s.heap.length → s.heap[a]? = some (.dict (Pickler.asItems es0)) →
    ∃ (us : List Unit) (es : List (Val × Val)) (s' : UState) (as : List Addr), mapM ent kvs s = some (.ok us, s') ∧ s.heap.length ≤ s'.heap.length ∧
      (∀ x < s.heap.length, x ≠ a → s'.heap[x]? = s.heap[x]?) ∧ s'.proxies = s.proxies ∧ s'.heap[a]? = some (.dict (Pickler.asItems es0 ++ es)) ∧
      SpellsEntries s'.heap es kvs as ∧ NewIn s s' as
  | [], es0, _, _, _, s, _, hc => ⟨[], [], s, [], rfl, Nat.le_refl _, fun _ _ _ => rfl, rfl, by simpa using hc, ⟨rfl, rfl⟩, List.nodup_nil, fun _ h => by cases h⟩
  | (k, x) :: kvs, es0, hg, hst, hn, s, hl, hc => by
    obtain ⟨v, s1, as, h1, k1, p1, n1⟩ := hg (k, x) (.head _) s
    have hc1 : s1.heap[a]? = some (.dict (Pickler.asItems es0)) := by rw [k1.old a hl]; exact hc
    have hkn : k ∉ es0.map (·.1) := fun hk => (List.nodup_append.1 hn).2.2 k hk k (by simp) rfl
    have hl1 : a < s1.heap.length := Nat.lt_of_lt_of_le hl k1.len
    let s2 : UState := { s1 with heap := s1.heap.set a (.dict (Pickler.asItems (es0 ++ [(k, v)]))) }
    have l2 : s2.heap.length = s1.heap.length := List.length_set ..
    have o2 : ∀ y : Nat, y ≠ a → s2.heap[y]? = s1.heap[y]? := fun y hy => by
      show (s1.heap.set _ _)[y]? = _
      rw [List.getElem?_set, if_neg (fun e => hy e.symm)]
    have hne : ∀ y ∈ as, y ≠ a := fun y hy e => by have := (n1.2 y hy).1; subst e; omega
    have p2 : Spells s2.heap v x as := spells_frame p1 (fun y hy => o2 y (hne y hy))
    have hc2 : s2.heap[a]? = some (.dict (Pickler.asItems (es0 ++ [(k, v)]))) := by
      show (s1.heap.set a _)[a]? = _
      rw [List.getElem?_set, if_pos rfl, if_pos hl1]
    have hrun : ent (k, x) s = some (.ok (), s2) := hst (k, x) (.head _) s s1 s2 v h1 (Sim.dictSet_name hkn hc1) (spells_not_proxy p2)
    obtain ⟨us, es, s3, bs, h3, l3, o3, q3, c3, p3, n3⟩ := plainly_entries kvs (es0 ++ [(k, v)]) (fun kv hkv => hg kv (.tail _ hkv)) (fun kv hkv => hst kv (.tail _ hkv))
      (by simpa using hn) s2 (by omega) hc2
    have kl := k1.len
    refine ⟨() :: us, (.str k, v) :: es, s3, as ++ bs, ?_, by omega, fun y hy hya => ?_, ?_, ?_, ⟨v, es, as, bs, rfl, ?_, p3, rfl⟩, ?_⟩
    · rw [mapM_cons, bind_ok hrun, bind_ok h3]; rfl
    · rw [o3 y (by omega) hya, o2 y hya, k1.old y hy]
    · rw [q3]; exact k1.proxies
    · rw [c3]; simp [Pickler.asItems]
    · refine spells_frame p2 (fun y hy => o3 y ?_ (hne y hy))
      rw [l2]
      exact (n1.2 y hy).2
    · refine NewIn.append (s' := s2) ⟨n1.1, fun y hy => ⟨(n1.2 y hy).1, by rw [l2]; exact (n1.2 y hy).2⟩⟩ n3 (by omega) l3

theorem stores_false {a : Addr} (kv : Str × Json) : Stores rs a (dictEntry rs a) kv := by
  intro s s1 s2 v h1 h2 h3
  unfold dictEntry
  refine (bind_ok h1).trans ((bind_ok h2).trans ?_)
  simp only [noteProxy, PyM.modify, h3]

theorem stores_true {a : Addr} {kv : Str × Json} (hj : isJsonKey kv.1 = false) : Stores rs a (dictEntry1 rs a) kv := by
  intro s s1 s2 v h1 h2 _
  unfold dictEntry1
  rw [hj]
  exact (bind_ok h1).trans h2

theorem entry2_skips {a : Addr} : ∀ {kvs : List (Str × Json)} (s : UState), (∀ kv ∈ kvs, isJsonKey kv.1 = false) → ∃ us : List Unit, mapM (dictEntry2 env rs a) kvs s = some (.ok us, s)
  | [], s, _ => ⟨[], rfl⟩
  | kv :: kvs, s, h => by
    obtain ⟨us, h1⟩ := entry2_skips (kvs := kvs) s (fun x hx => h x (.tail _ hx))
    have e : dictEntry2 env rs a kv s = some (.ok (), s) := by unfold dictEntry2; rw [h kv (.head _)]; rfl
    exact ⟨() :: us, by rw [mapM_cons, bind_ok e, bind_ok h1]; rfl⟩

theorem plainly_dict {kvs : List (Str × Json)} (hj : env.keys = true → ∀ kv ∈ kvs, isJsonKey kv.1 = false) (ht : tagOf kvs = none) (hn : (kvs.map (·.1)).Nodup)
    (h : ∀ kv ∈ kvs, Plainly rs kv.2) : Plainly (restoreStep env rs) (.obj kvs) := by
  intro s
  let s0 : UState := { s with heap := s.heap ++ [.dict []] }
  have l0 : s0.heap.length = s.heap.length + 1 := List.length_append
  have hm : ∃ s1, mkrefUnlessV1 env s.heap.length s0 = some (.ok (), s1) ∧ s1.heap = s0.heap ∧ s1.proxies = s0.proxies := by
    unfold mkrefUnlessV1
    cases env.v1 with
    | true => exact ⟨s0, rfl, rfl, rfl⟩
    | false =>
      obtain ⟨s1, h1, h2⟩ := mkref_kept (.ref s.heap.length) s0
      exact ⟨s1, (bind_ok h1).trans rfl, h2⟩
  obtain ⟨s1, h1, e1, q1⟩ := hm
  have c1 : s1.heap[s.heap.length]? = some (.dict (Pickler.asItems [])) := by rw [e1]; simp [s0, Pickler.asItems]
  have fin : ∀ ent : Str × Json → U Unit, (∀ kv ∈ kvs, Stores rs s.heap.length ent kv) → ∃ (us : List Unit) (s' : UState) (as : List Addr), mapM ent kvs s1 = some (.ok us, s') ∧
      Kept s s' ∧ Spells s'.heap (.ref s.heap.length) (.obj kvs) as ∧ NewIn s s' as := by
    intro ent hst
    obtain ⟨us, es, s2, as, h2, l2, o2, q2, c2, p2, n2⟩ := plainly_entries kvs [] h hst (by simpa using hn) s1 (by rw [e1, l0]; exact Nat.lt_succ_self _) c1
    have l1 : s1.heap.length = s.heap.length + 1 := by rw [e1, l0]
    refine ⟨us, s2, s.heap.length :: as, h2, ⟨by omega, fun x hx => ?_, by rw [q2, q1]⟩, ⟨s.heap.length, es, as, rfl, c2, p2, rfl⟩, List.nodup_cons.2 ⟨fun hm => ?_, n2.1⟩, fun x hx => ?_⟩
    · rw [o2 x (by omega) (Nat.ne_of_lt hx), e1]
      exact List.getElem?_append_left hx
    · have := (n2.2 _ hm).1
      omega
    · rcases List.mem_cons.1 hx with rfl | hx
      · exact ⟨Nat.le_refl _, Nat.lt_of_lt_of_le (by rw [l1]; exact Nat.lt_succ_self _) l2⟩
      · have h4 := n2.2 x hx
        rw [l1] at h4
        exact ⟨Nat.le_of_succ_le h4.1, h4.2⟩
  cases hk : env.keys with
  | false =>
    obtain ⟨us, s2, as, h2, r⟩ := fin (dictEntry rs s.heap.length) (fun kv _ => stores_false kv)
    refine ⟨_, s2, as, ?_, r⟩
    show restoreTags env rs kvs s = _
    rw [restoreTags_plain ht]
    unfold restoreDict
    refine (bind_ok (a := s.heap.length) (s' := s0) rfl).trans ((bind_ok h1).trans ?_)
    rw [hk]
    exact (bind_ok h2).trans rfl
  | true =>
    obtain ⟨us, s2, as, h2, r⟩ := fin (dictEntry1 rs s.heap.length) (fun kv hkv => stores_true (hj hk kv hkv))
    obtain ⟨us', h3⟩ := entry2_skips (env := env) (rs := rs) (a := s.heap.length) s2 (hj hk)
    refine ⟨_, s2, as, ?_, r⟩
    show restoreTags env rs kvs s = _
    rw [restoreTags_plain ht]
    unfold restoreDict
    refine (bind_ok (a := s.heap.length) (s' := s0) rfl).trans ((bind_ok h1).trans ?_)
    rw [hk]
    exact (bind_ok h2).trans ((bind_ok h3).trans rfl)

theorem distinctL_mem : ∀ {xs : List Json}, Json.DistinctL xs → ∀ x ∈ xs, x.Distinct
  | _ :: _, ⟨h, _⟩, _, .head _ => h
  | _ :: _, ⟨_, h⟩, y, .tail _ hy => distinctL_mem h y hy

theorem distinctKv_mem : ∀ {xs : List (Str × Json)}, Json.DistinctKv xs → ∀ x ∈ xs, x.2.Distinct
  | (_, _) :: _, ⟨h, _⟩, _, .head _ => h
  | _ :: _, ⟨_, h⟩, y, .tail _ hy => distinctKv_mem h y hy

theorem keysL_sub : ∀ {xs : List Json} {x : Json}, x ∈ xs → ∀ k ∈ x.keys, k ∈ Json.keysL xs
  | _ :: _, _, .head _, _, hk => List.mem_append_left _ hk
  | _ :: _, _, .tail _ h, k, hk => List.mem_append_right _ (keysL_sub h k hk)

theorem keysKv_sub : ∀ {xs : List (Str × Json)} {x : Str × Json}, x ∈ xs → x.1 ∈ Json.keysKv xs ∧ ∀ k ∈ x.2.keys, k ∈ Json.keysKv xs
  | (_, _) :: _, _, .head _ => ⟨.head _, fun _ hk => .tail _ (List.mem_append_left _ hk)⟩
  | (_, _) :: _, _, .tail _ h => ⟨.tail _ (List.mem_append_right _ (keysKv_sub h).1), fun k hk => .tail _ (List.mem_append_right _ ((keysKv_sub h).2 k hk))⟩

theorem tagOf_untagged {kvs : List (Str × Json)} (h : ∀ kv ∈ kvs, kv.1 ∉ wireTags) : tagOf kvs = none := by
  unfold tagOf
  rw [List.findSome?_eq_none_iff]
  intro t ht
  rw [(dget_eq_none_iff t kvs).2 (fun hm => by obtain ⟨kv, h1, rfl⟩ := List.mem_map.1 hm; exact h kv h1 ht)]
  rfl

/-- A document without tags (and, with `keys=True`, without `json://` keys) is read as itself. -/
theorem plainly_restore {env : UEnv} : ∀ (n : Nat) (j : Json), j.depth ≤ n → j.Distinct → (∀ k ∈ j.keys, k ∉ wireTags) → (env.keys = true → ∀ k ∈ j.keys, isJsonKey k = false) →
    Plainly (restore env (n + 1)) j
  | n, .arr xs, hd, hn, hf, hj => by
    refine plainly_arr (rs := restore env n) (fun x hx => ?_)
    have h1 := Json.depthL_mem hx
    simp only [Json.depth] at hd
    cases n with
    | zero => omega
    | succ n => exact plainly_restore n x (by omega) (distinctL_mem hn x hx) (fun k hk => hf k (keysL_sub hx k hk)) (fun he k hk => hj he k (keysL_sub hx k hk))
  | n, .obj kvs, hd, hn, hf, hj => by
    refine plainly_dict (rs := restore env n) (fun he kv hkv => hj he _ (keysKv_sub hkv).1) (tagOf_untagged (fun kv hkv => hf _ (keysKv_sub hkv).1)) hn.1 (fun x hx => ?_)
    have h1 := Json.depthKv_le.1 (Nat.le_refl _) x hx
    simp only [Json.depth] at hd
    cases n with
    | zero => omega
    | succ n => exact plainly_restore n x.2 (by omega) (distinctKv_mem hn.2 x hx) (fun k hk => hf k ((keysKv_sub hx).2 k hk)) (fun he k hk => hj he k ((keysKv_sub hx).2 k hk))
  | _, .null, _, _, _, _ => fun s => ⟨_, s, [], rfl, ⟨Nat.le_refl _, fun _ _ => rfl, rfl⟩, ⟨rfl, rfl⟩, List.nodup_nil, fun _ h => by cases h⟩
  | _, .bool _, _, _, _, _ => fun s => ⟨_, s, [], rfl, ⟨Nat.le_refl _, fun _ _ => rfl, rfl⟩, ⟨rfl, rfl⟩, List.nodup_nil, fun _ h => by cases h⟩
  | _, .int _, _, _, _, _ => fun s => ⟨_, s, [], rfl, ⟨Nat.le_refl _, fun _ _ => rfl, rfl⟩, ⟨rfl, rfl⟩, List.nodup_nil, fun _ h => by cases h⟩
  | _, .float _, _, _, _, _ => fun s => ⟨_, s, [], rfl, ⟨Nat.le_refl _, fun _ _ => rfl, rfl⟩, ⟨rfl, rfl⟩, List.nodup_nil, fun _ h => by cases h⟩
  | _, .str _, _, _, _, _ => fun s => ⟨_, s, [], rfl, ⟨Nat.le_refl _, fun _ _ => rfl, rfl⟩, ⟨rfl, rfl⟩, List.nodup_nil, fun _ h => by cases h⟩

end JP.Unpickler
