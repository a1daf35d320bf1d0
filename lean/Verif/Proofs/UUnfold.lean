import Verif.UnfoldSpec
import Verif.Proofs.Unfolding
import Verif.Proofs.UPlain
import Verif.Proofs.SimAttrs
import Verif.Proofs.SimHandled
import Verif.Proofs.SimTop
/-!
# Reading the document of a tree
-/
namespace JP.Unfold
open JP PyM Unpickler

mutual
theorem is_frame {cls : Str → ClassInfo} {h h' : Heap} {v : Val} : ∀ {t : Tree} {as : List Addr}, Is cls h v t as → (∀ a ∈ as, h'[a]? = h[a]?) → Is cls h' v t as
  | .none, _, hs, _ => hs
  | .bool _, _, hs, _ => hs
  | .int _, _, hs, _ => hs
  | .float _, _, hs, _ => hs
  | .str _, _, hs, _ => hs
  | .bytes _, _, hs, _ => hs
  | .bytearray _, _, hs, _ => hs
  | .type _, _, hs, _ => hs
  | .func _, _, hs, _ => hs
  | .module _, _, hs, _ => hs
  | .list _, _, hs, hh => by
    obtain ⟨a, vs, bs, h1, h2, h3, rfl⟩ := hs
    exact ⟨a, vs, bs, h1, by rw [hh a (.head _)]; exact h2, are_frame h3 (fun x hx => hh x (.tail _ hx)), rfl⟩
  | .tuple _, _, hs, hh => by
    obtain ⟨n, vs, h1, h3⟩ := hs
    exact ⟨n, vs, h1, are_frame h3 hh⟩
  | .set _, _, hs, hh => by
    obtain ⟨n, vs, h1, h3⟩ := hs
    exact ⟨n, vs, h1, are_frame h3 hh⟩
  | .dict _, _, hs, hh => by
    obtain ⟨a, vs, bs, h1, h2, h3, rfl⟩ := hs
    exact ⟨a, vs, bs, h1, by rw [hh a (.head _)]; exact h2, entries_frame h3 (fun x hx => hh x (.tail _ hx)), rfl⟩
  | .inst _ _, _, hs, hh => by
    obtain ⟨a, i, bs, h1, h2, ho, h3, rfl⟩ := hs
    exact ⟨a, i, bs, h1, by rw [hh a (.head _)]; exact h2, ho, entries_frame h3 (fun x hx => hh x (.tail _ hx)), rfl⟩
theorem are_frame {cls : Str → ClassInfo} {h h' : Heap} {vs : List Val} : ∀ {ts : List Tree} {as : List Addr}, Are cls h vs ts as → (∀ a ∈ as, h'[a]? = h[a]?) → Are cls h' vs ts as
  | [], _, hs, _ => hs
  | _ :: _, _, hs, hh => by
    obtain ⟨v, vs', bs, cs, h1, h2, h3, rfl⟩ := hs
    exact ⟨v, vs', bs, cs, h1, is_frame h2 (fun x hx => hh x (List.mem_append_left _ hx)), are_frame h3 (fun x hx => hh x (List.mem_append_right _ hx)), rfl⟩
theorem entries_frame {cls : Str → ClassInfo} {h h' : Heap} {es : List (Str × Val)} : ∀ {ts : List (Str × Tree)} {as : List Addr}, EntriesAre cls h es ts as → (∀ a ∈ as, h'[a]? = h[a]?) →
    EntriesAre cls h' es ts as
  | [], _, hs, _ => hs
  | (_, _) :: _, _, hs, hh => by
    obtain ⟨v, vs', bs, cs, h1, h2, h3, rfl⟩ := hs
    exact ⟨v, vs', bs, cs, h1, is_frame h2 (fun x hx => hh x (List.mem_append_left _ hx)), entries_frame h3 (fun x hx => hh x (List.mem_append_right _ hx)), rfl⟩
end

theorem is_not_proxy {cls : Str → ClassInfo} {h : Heap} {v : Val} {t : Tree} {as : List Addr} (hs : Is cls h v t as) : proxyAddr h v = none := by
  cases t with
  | list xs => obtain ⟨a, vs, bs, rfl, h2, _⟩ := hs; simp only [proxyAddr, h2]
  | tuple xs => obtain ⟨n, vs, rfl, _⟩ := hs; rfl
  | set xs => obtain ⟨n, vs, rfl, _⟩ := hs; rfl
  | bytes b => obtain ⟨n, rfl, _⟩ := hs; rfl
  | bytearray b => obtain ⟨n, rfl, _⟩ := hs; rfl
  | dict xs => obtain ⟨a, vs, bs, rfl, h2, _⟩ := hs; simp only [proxyAddr, h2]
  | inst c xs => obtain ⟨a, vs, bs, rfl, h2, _⟩ := hs; simp only [proxyAddr, h2]
  | _ => obtain ⟨rfl, _⟩ := hs; rfl

theorem are_not_proxy {cls : Str → ClassInfo} {h : Heap} : ∀ {vs : List Val} {xs : List Tree} {as : List Addr}, Are cls h vs xs as → ∀ v ∈ vs, proxyAddr h v = none
  | _, [], _, hs, v, hv => by rw [hs.1] at hv; cases hv
  | _, x :: xs, _, hs, v, hv => by
    obtain ⟨w, vs', bs, cs, rfl, h2, h3, _⟩ := hs
    rcases List.mem_cons.1 hv with rfl | hv
    · exact is_not_proxy h2
    · exact are_not_proxy h3 v hv

/-- reading the document of the tree makes new objects whose unfolding is the tree -/
def Makes (cfg : PCfg) (cls : Str → ClassInfo) (rs : Json → U Val) (t : Tree) : Prop :=
  ∀ s : UState, ∃ (v : Val) (s' : UState) (as : List Addr), rs (t.doc cfg) s = some (.ok v, s') ∧ Kept s s' ∧ Is cls s'.heap v t as ∧ NewIn s s' as

variable {env : UEnv} {rs : Json → U Val} {cls : Str → ClassInfo}

theorem makes_all : ∀ (xs : List Tree), (∀ x ∈ xs, Makes cfg cls rs x) → ∀ s : UState,
    ∃ (vs : List Val) (s' : UState) (as : List Addr), mapM rs (docL cfg xs) s = some (.ok vs, s') ∧ Kept s s' ∧ Are cls s'.heap vs xs as ∧ NewIn s s' as
  | [], _, s => ⟨[], s, [], rfl, ⟨Nat.le_refl _, fun _ _ => rfl, rfl⟩, ⟨rfl, rfl⟩, List.nodup_nil, fun _ h => by cases h⟩
  | x :: xs, h, s => by
    obtain ⟨v, s1, as, h1, k1, p1, n1⟩ := h x (.head _) s
    obtain ⟨vs, s2, bs, h2, k2, p2, n2⟩ := makes_all xs (fun y hy => h y (.tail _ hy)) s1
    refine ⟨v :: vs, s2, as ++ bs, ?_, k1.trans k2, ⟨v, vs, as, bs, rfl, is_frame p1 (fun a ha => k2.old a (n1.2 a ha).2), p2, rfl⟩, n1.append n2 k1.len k2.len⟩
    rw [docL, mapM_cons, bind_ok h1, bind_ok h2]
    rfl

theorem makes_list {xs : List Tree} (h : ∀ x ∈ xs, Makes cfg cls rs x) : Makes cfg cls (restoreStep env rs) (.list xs) := by
  intro s
  let s0 : UState := { s with heap := s.heap ++ [.list []] }
  have l0 : s0.heap.length = s.heap.length + 1 := List.length_append
  obtain ⟨s1, h1, e1, p1⟩ := mkref_kept (.ref s.heap.length) s0
  obtain ⟨vs, s2, as, h2, k2, sp2, n2⟩ := makes_all xs h s1
  have l1 : s1.heap.length = s.heap.length + 1 := by rw [e1, l0]
  have hl2 := k2.len
  have hlt : s.heap.length < s2.heap.length := by omega
  let s3 : UState := { s2 with heap := s2.heap.set s.heap.length (.list vs) }
  have l3 : s3.heap.length = s2.heap.length := List.length_set ..
  have hne : ∀ x ∈ as, x ≠ s.heap.length := fun x hx e => by have := (n2.2 x hx).1; subst e; omega
  have sp3 : Are cls s3.heap vs xs as := are_frame sp2 (fun x hx => by
    show (s2.heap.set _ _)[x]? = _
    rw [List.getElem?_set, if_neg (fun e => hne x hx e.symm)])
  refine ⟨.ref s.heap.length, s3, s.heap.length :: as, ?_, ⟨by omega, fun x hx => ?_, ?_⟩, ⟨s.heap.length, vs, as, rfl, ?_, sp3, rfl⟩, ?_, ?_⟩
  · show (restoreList rs (.ok (docL cfg xs)) >>= fun a => (pure (Val.ref a) : U Val)) s = _
    refine (bind_ok (a := s.heap.length) (s' := s3) ?_).trans rfl
    unfold restoreList
    refine (bind_ok (a := s.heap.length) (s' := s0) rfl).trans ((bind_ok h1).trans ((bind_ok (ofExcept_run _ _)).trans ((bind_ok h2).trans ?_)))
    refine (bind_ok (a := ()) (s' := s3) rfl).trans ((bind_ok (noteList_none _ vs 0 s3 (are_not_proxy sp3))).trans rfl)
  · show (s2.heap.set _ _)[x]? = _
    rw [List.getElem?_set, if_neg (Nat.ne_of_gt hx), k2.old x (by omega), e1]
    exact List.getElem?_append_left hx
  · show s2.proxies = _
    rw [k2.proxies, p1]
  · show (s2.heap.set _ _)[_]? = _
    rw [List.getElem?_set, if_pos rfl, if_pos hlt]
  · exact List.nodup_cons.2 ⟨fun hm => hne _ hm rfl, n2.1⟩
  · intro x hx
    rcases List.mem_cons.1 hx with rfl | hx
    · exact ⟨Nat.le_refl _, by rw [l3]; exact hlt⟩
    · have h4 := n2.2 x hx
      rw [l1] at h4
      exact ⟨Nat.le_of_succ_le h4.1, by rw [l3]; exact h4.2⟩

theorem makes_tuple {xs : List Tree} (h : ∀ x ∈ xs, Makes cfg cls rs x) : Makes cfg cls (restoreStep env rs) (.tuple xs) := by
  intro s
  obtain ⟨vs, s2, as, h2, k2, sp2, n2⟩ := makes_all xs h s
  refine ⟨.tuple (s2.nextId + 1) vs, { s2 with nextId := s2.nextId + 1 }, as, ?_, ⟨k2.len, k2.old, k2.proxies⟩, ⟨_, vs, rfl, sp2⟩, n2⟩
  show restoreTuple rs [(p!"py/tuple", .arr (docL cfg xs))] s = _
  unfold restoreTuple
  refine (bind_ok (a := vs) (s' := s2) ?_).trans rfl
  unfold PyM.tryCatch
  have : (do
      let j ← PyM.ofExcept (Unpickler.item Tags.TUPLE [(p!"py/tuple", .arr (docL cfg xs))])
      let xs ← PyM.ofExcept (jsonIter j)
      PyM.mapM rs xs : U (List Val)) s = some (.ok vs, s2) := h2
  rw [this]

theorem makes_members : ∀ (xs : List Tree) (acc : List Val), (∀ x ∈ xs, Makes cfg cls rs x) → Members xs → (∀ a ∈ acc, ∀ x ∈ xs, ∀ k, x.atom = some k → pyEq (bare a) k = false) →
    ∀ s : UState, ∃ (vs : List Val) (s' : UState) (as : List Addr), Sim.setLoop rs acc (docL cfg xs) s = some (.ok (acc ++ vs), s') ∧ Kept s s' ∧ Are cls s'.heap vs xs as ∧ NewIn s s' as
  | [], acc, _, _, _, s => ⟨[], s, [], by rw [List.append_nil]; rfl, ⟨Nat.le_refl _, fun _ _ => rfl, rfl⟩, ⟨rfl, rfl⟩, List.nodup_nil, fun _ h => by cases h⟩
  | x :: xs, acc, h, hm, hacc, s => by
    obtain ⟨v, s1, as, h1, k1, p1, n1⟩ := h x (.head _) s
    obtain ⟨k, hk⟩ := Option.ne_none_iff_exists'.1 (hm.1 x (.head _))
    obtain ⟨rfl, hh⟩ := atom_is p1 hk
    obtain ⟨q1, q2⟩ := List.pairwise_cons.1 hm.2
    obtain ⟨vs, s2, bs, h2, k2, p2, n2⟩ := makes_members xs (acc ++ [v]) (fun y hy => h y (.tail _ hy)) ⟨fun y hy => hm.1 y (.tail _ hy), q2⟩ (fun a ha y hy l hl => by
      rcases List.mem_append.1 ha with ha | ha
      · exact hacc a ha y (.tail _ hy) l hl
      · rw [List.mem_singleton.1 ha]
        exact q1 y hy _ l hk hl) s1
    refine ⟨v :: vs, s2, as ++ bs, ?_, k1.trans k2, ⟨v, vs, as, bs, rfl, is_frame p1 (fun a ha => k2.old a (n1.2 a ha).2), p2, rfl⟩, n1.append n2 k1.len k2.len⟩
    have hadd : sadd v acc = acc ++ [v] := by
      unfold sadd
      rw [if_neg]
      intro he
      obtain ⟨y, hy, e⟩ := List.any_eq_true.1 he
      have := hacc y hy x (.head _) _ hk
      rw [pyEq_bare] at this
      rw [this] at e
      cases e
    have h3 : (rs (x.doc cfg) >>= fun v => PyM.get >>= fun s => if hashable s.heap v then (pure (sadd v acc) : U _) else PyM.throw .typeError) s = some (.ok (acc ++ [v]), s1) := by
      rw [bind_ok h1, bind_ok (get_run s1), if_pos hh, hadd]
      rfl
    rw [docL]
    unfold Sim.setLoop
    rw [foldM_cons, bind_ok h3]
    have e : acc ++ v :: vs = acc ++ [v] ++ vs := by simp
    rw [e]
    exact h2

theorem makes_set {xs : List Tree} (hm : Members xs) (h : ∀ x ∈ xs, Makes cfg cls rs x) : Makes cfg cls (restoreStep env rs) (.set xs) := by
  intro s
  obtain ⟨vs, s2, as, h2, k2, sp2, n2⟩ := makes_members xs [] h hm (fun _ h => by cases h) s
  refine ⟨.set (s2.nextId + 1) vs, { s2 with nextId := s2.nextId + 1 }, as, ?_, ⟨k2.len, k2.old, k2.proxies⟩, ⟨_, vs, rfl, sp2⟩, n2⟩
  change (PyM.tryCatch (Sim.setLoop rs [] (docL cfg xs)) _ _ >>= fun vs => fresh >>= fun n => (pure (.set n vs) : U Val)) s = _
  have : PyM.tryCatch (Sim.setLoop rs [] (docL cfg xs)) (· == .typeError) (fun _ => pure []) s = some (.ok vs, s2) := by
    simp only [PyM.tryCatch, h2, List.nil_append]
  rw [bind_ok this]
  rfl

/-- what one entry does: read the value and store it under its key -/
def Stores (rs : Json → U Val) (a : Addr) (C : List (Str × Val) → Obj) (ent : Str × Json → U Unit) (kv : Str × Json) : Prop :=
  ∀ (s s1 : UState) (v : Val) (es : List (Str × Val)), rs kv.2 s = some (.ok v, s1) → s1.heap[a]? = some (C es) → kv.1 ∉ es.map (·.1) →
    proxyAddr (s1.heap.set a (C (es ++ [(kv.1, v)]))) v = none → ent kv s = some (.ok (), { s1 with heap := s1.heap.set a (C (es ++ [(kv.1, v)])) })

theorem makes_entries {a : Nat} {C : List (Str × Val) → Obj} {ent : Str × Json → U Unit} : ∀ (kvs : List (Str × Tree)) (es0 : List (Str × Val)), (∀ kv ∈ kvs, Makes cfg cls rs kv.2) →
    (∀ kv ∈ kvs, Stores rs a C ent (kv.1, (kv.2.doc cfg))) → (es0.map (·.1) ++ kvs.map (·.1)).Nodup → ∀ s : UState, a < s.heap.length → s.heap[a]? = some (C es0) →
    ∃ (us : List Unit) (es : List (Str × Val)) (s' : UState) (as : List Addr), mapM ent (docKv cfg kvs) s = some (.ok us, s') ∧ s.heap.length ≤ s'.heap.length ∧
      (∀ x < s.heap.length, x ≠ a → s'.heap[x]? = s.heap[x]?) ∧ s'.proxies = s.proxies ∧ s'.heap[a]? = some (C (es0 ++ es)) ∧
      EntriesAre cls s'.heap es kvs as ∧ NewIn s s' as
  | [], es0, _, _, _, s, _, hc => ⟨[], [], s, [], rfl, Nat.le_refl _, fun _ _ _ => rfl, rfl, by simpa using hc, ⟨rfl, rfl⟩, List.nodup_nil, fun _ h => by cases h⟩
  | (k, x) :: kvs, es0, hg, hst, hn, s, hl, hc => by
    obtain ⟨v, s1, as, h1, k1, p1, n1⟩ := hg (k, x) (.head _) s
    have hc1 : s1.heap[a]? = some (C es0) := by rw [k1.old a hl]; exact hc
    have hkn : k ∉ es0.map (·.1) := fun hk => (List.nodup_append.1 hn).2.2 k hk k (by simp) rfl
    have hl1 : a < s1.heap.length := Nat.lt_of_lt_of_le hl k1.len
    let s2 : UState := { s1 with heap := s1.heap.set a (C (es0 ++ [(k, v)])) }
    have l2 : s2.heap.length = s1.heap.length := List.length_set ..
    have o2 : ∀ y : Nat, y ≠ a → s2.heap[y]? = s1.heap[y]? := fun y hy => by
      show (s1.heap.set _ _)[y]? = _
      rw [List.getElem?_set, if_neg (fun e => hy e.symm)]
    have hne : ∀ y ∈ as, y ≠ a := fun y hy e => by have := (n1.2 y hy).1; subst e; omega
    have p2 : Is cls s2.heap v x as := is_frame p1 (fun y hy => o2 y (hne y hy))
    have hc2 : s2.heap[a]? = some (C (es0 ++ [(k, v)])) := by
      show (s1.heap.set a _)[a]? = _
      rw [List.getElem?_set, if_pos rfl, if_pos hl1]
    have hrun : ent (k, (x.doc cfg)) s = some (.ok (), s2) := hst (k, x) (.head _) s s1 v es0 h1 hc1 hkn (is_not_proxy p2)
    obtain ⟨us, es, s3, bs, h3, l3, o3, q3, c3, p3, n3⟩ := makes_entries kvs (es0 ++ [(k, v)]) (fun kv hkv => hg kv (.tail _ hkv)) (fun kv hkv => hst kv (.tail _ hkv))
      (by simpa using hn) s2 (by omega) hc2
    have kl := k1.len
    refine ⟨() :: us, (k, v) :: es, s3, as ++ bs, ?_, by omega, fun y hy hya => ?_, ?_, ?_, ⟨v, es, as, bs, rfl, ?_, p3, rfl⟩, ?_⟩
    · rw [docKv, mapM_cons, bind_ok hrun, bind_ok h3]; rfl
    · rw [o3 y (by omega) hya, o2 y hya, k1.old y hy]
    · rw [q3]; exact k1.proxies
    · rw [c3]; simp
    · refine is_frame p2 (fun y hy => o3 y ?_ (hne y hy))
      rw [l2]
      exact (n1.2 y hy).2
    · refine NewIn.append (s' := s2) ⟨n1.1, fun y hy => ⟨(n1.2 y hy).1, by rw [l2]; exact (n1.2 y hy).2⟩⟩ n3 (by omega) l3

theorem stores_dict {a : Addr} (kv : Str × Json) : Stores rs a (fun es => .dict (Pickler.asItems es)) (dictEntry rs a) kv := by
  intro s s1 v es h1 h2 h3 h4
  unfold dictEntry
  refine (bind_ok h1).trans ((bind_ok (Sim.dictSet_name h3 h2)).trans ?_)
  simp only [noteProxy, PyM.modify, h4]

theorem stores_dict1 {a : Addr} {kv : Str × Json} (hj : isJsonKey kv.1 = false) : Stores rs a (fun es => .dict (Pickler.asItems es)) (dictEntry1 rs a) kv := by
  intro s s1 v es h1 h2 h3 h4
  unfold dictEntry1
  rw [hj]
  exact (bind_ok h1).trans (Sim.dictSet_name h3 h2)

theorem docKv_keys : ∀ (kvs : List (Str × Tree)), (docKv cfg kvs).map (·.1) = kvs.map (·.1)
  | [] => rfl
  | (k, x) :: kvs => by rw [docKv, List.map_cons, List.map_cons, docKv_keys kvs]

theorem docKv_mem {kvs : List (Str × Tree)} {q : Str → Prop} (h : ∀ kv ∈ kvs, q kv.1) : ∀ kv ∈ docKv cfg kvs, q kv.1 := by
  intro kv hkv
  have : kv.1 ∈ (docKv cfg kvs).map (·.1) := List.mem_map_of_mem hkv
  rw [docKv_keys] at this
  obtain ⟨x, hx, e⟩ := List.mem_map.1 this
  rw [← e]
  exact h x hx

theorem wire_all : ∀ t ∈ wireTags, t ∈ Tags.all := by decide

theorem makes_dict {kvs : List (Str × Tree)} (hk : ∀ kv ∈ kvs, NameOk env.keys kv.1) (hn : (kvs.map (·.1)).Nodup)
    (h : ∀ kv ∈ kvs, Makes cfg cls rs kv.2) : Makes cfg cls (restoreStep env rs) (.dict kvs) := by
  intro s
  have ht : tagOf (docKv cfg kvs) = none := tagOf_untagged (docKv_mem (q := fun k => k ∉ wireTags) (fun kv hkv hw => (hk kv hkv).1 (wire_all _ hw)))
  let s0 : UState := { s with heap := s.heap ++ [.dict []] }
  have l0 : s0.heap.length = s.heap.length + 1 := List.length_append
  have hm : ∃ s1, mkrefUnlessV1 env s.heap.length s0 = some (.ok (), s1) ∧ s1.heap = s0.heap ∧ s1.proxies = s0.proxies := by
    unfold mkrefUnlessV1
    cases env.v1 with
    | true => exact ⟨s0, rfl, rfl, rfl⟩
    | false =>
      obtain ⟨s1, h1, h2⟩ := mkref_kept (.ref s.heap.length) s0
      exact ⟨s1, (bind_ok h1).trans rfl, h2⟩
  obtain ⟨s1, h1, e1, q1⟩ := hm
  have c1 : s1.heap[s.heap.length]? = some (.dict (Pickler.asItems [])) := by rw [e1]; simp [s0, Pickler.asItems]
  have fin : ∀ ent : Str × Json → U Unit, (∀ kv ∈ kvs, Stores rs s.heap.length (fun es => .dict (Pickler.asItems es)) ent (kv.1, (kv.2.doc cfg))) →
      ∃ (us : List Unit) (s' : UState) (as : List Addr), mapM ent (docKv cfg kvs) s1 = some (.ok us, s') ∧
      Kept s s' ∧ Is cls s'.heap (.ref s.heap.length) (.dict kvs) as ∧ NewIn s s' as := by
    intro ent hst
    obtain ⟨us, es, s2, as, h2, l2, o2, q2, c2, p2, n2⟩ := makes_entries kvs [] h hst (by simpa using hn) s1 (by rw [e1, l0]; exact Nat.lt_succ_self _) c1
    have l1 : s1.heap.length = s.heap.length + 1 := by rw [e1, l0]
    refine ⟨us, s2, s.heap.length :: as, h2, ⟨by omega, fun x hx => ?_, by rw [q2, q1]⟩, ⟨s.heap.length, es, as, rfl, c2, p2, rfl⟩, List.nodup_cons.2 ⟨fun hm => ?_, n2.1⟩, fun x hx => ?_⟩
    · rw [o2 x (by omega) (Nat.ne_of_lt hx), e1]
      exact List.getElem?_append_left hx
    · have := (n2.2 _ hm).1
      omega
    · rcases List.mem_cons.1 hx with rfl | hx
      · exact ⟨Nat.le_refl _, Nat.lt_of_lt_of_le (by rw [l1]; exact Nat.lt_succ_self _) l2⟩
      · have h4 := n2.2 x hx
        rw [l1] at h4
        exact ⟨Nat.le_of_succ_le h4.1, h4.2⟩
  cases hkk : env.keys with
  | false =>
    obtain ⟨us, s2, as, h2, r⟩ := fin (dictEntry rs s.heap.length) (fun kv _ => stores_dict _)
    refine ⟨_, s2, as, ?_, r⟩
    show restoreTags env rs (docKv cfg kvs) s = _
    rw [restoreTags_plain ht]
    unfold restoreDict
    refine (bind_ok (a := s.heap.length) (s' := s0) rfl).trans ((bind_ok h1).trans ?_)
    rw [hkk]
    exact (bind_ok h2).trans rfl
  | true =>
    have hj : ∀ kv ∈ kvs, isJsonKey kv.1 = false := fun kv hkv => (hk kv hkv).2 hkk
    obtain ⟨us, s2, as, h2, r⟩ := fin (dictEntry1 rs s.heap.length) (fun kv hkv => stores_dict1 (hj kv hkv))
    obtain ⟨us', h3⟩ := entry2_skips (env := env) (rs := rs) (a := s.heap.length) s2 (docKv_mem (q := fun k => isJsonKey k = false) hj)
    refine ⟨_, s2, as, ?_, r⟩
    show restoreTags env rs (docKv cfg kvs) s = _
    rw [restoreTags_plain ht]
    unfold restoreDict
    refine (bind_ok (a := s.heap.length) (s' := s0) rfl).trans ((bind_ok h1).trans ?_)
    rw [hkk]
    exact (bind_ok h2).trans ((bind_ok h3).trans rfl)

/-! ### instances -/

/-- the object that `__new__` makes -/
def made (env : UEnv) (c : Str) (es : List (Str × Val)) : Inst :=
  { cls := c, info := env.classInfo c, attrs := es, newargs := .tuple 0 [], newargsEx := (.tuple 0 [], .tuple 0 []) }

theorem stores_attr {c : Str} {a : Addr} (hb : (env.classInfo c).base = .plain) (hd : (env.classInfo c).hasDict = true) {kv : Str × Json} (hk : AttrOk env.keys kv.1) :
    Stores rs a (fun es => .inst (made env c es)) (Sim.entryOf env rs a) kv := by
  intro s s1 v es h1 h2 h3 h4
  rw [Sim.entryOf_name hk.1]
  refine (bind_ok h1).trans ?_
  unfold storeEntry
  have h5 : storeRaw a (.str kv.1) v s1 = some (.ok (), { s1 with heap := s1.heap.set a (.inst (made env c (es ++ [(kv.1, v)]))) }) := by
    unfold storeRaw
    have : isDictSub s1.heap a = false := by simp only [isDictSub, h2]; show ((env.classInfo c).base == _) = _; rw [hb]; rfl
    simp only [this, Bool.false_eq_true, if_false]
    unfold setAttrMangled
    simp only [hk.2.2.2, Bool.false_eq_true, if_false]
    unfold setattr
    have : attrOk (made env c es) kv.1 = true := by simp [attrOk, made, hd]
    simp only [h2, this, if_true]
    show some (Except.ok (), _) = _
    rw [Sim.dset_name (acc := (made env c es).attrs) h3]
    rfl
  refine (bind_ok h5).trans ?_
  exact Sim.noteEntry_none h4

theorem tuple_keys {k : Str} {keys : Bool} (h : NameOk keys k) (t : Str) (ht : t ∈ Tags.all) : k ≠ t := fun e => h.1 (e ▸ ht)

theorem entries_keys {h : Heap} : ∀ {es : List (Str × Val)} {kvs : List (Str × Tree)} {as : List Addr}, EntriesAre cls h es kvs as → es.map (·.1) = kvs.map (·.1)
  | _, [], _, hs => by rw [hs.1]; rfl
  | _, (k, x) :: kvs, _, hs => by
    obtain ⟨v, es', bs, cs, rfl, _, h3, _⟩ := hs
    rw [List.map_cons, List.map_cons, entries_keys h3]

theorem makes_inst {w : World} {c : Str} {kvs : List (Str × Tree)} (hc : ClassOk w env c) (hk : ∀ kv ∈ kvs, AttrOk env.keys kv.1) (hn : (kvs.map (·.1)).Nodup)
    (h : ∀ kv ∈ kvs, Makes cfg env.classInfo rs kv.2) : Makes cfg env.classInfo (restoreStep env rs) (.inst c kvs) := by
  intro s
  let j : List (Str × Json) := (Tags.OBJECT, .str c) :: docKv cfg kvs
  have hnot : ∀ t ∈ Tags.all, t ≠ Tags.OBJECT → dget t j = none := by
    intro t ht hne
    rw [dget_eq_none_iff]
    intro hm
    rcases List.mem_cons.1 hm with e | e
    · exact hne e
    · obtain ⟨kv, h1, h2⟩ := List.mem_map.1 e
      exact docKv_mem (q := fun k => k ∉ Tags.all) (fun kv hkv => (hk kv hkv).1.1) kv h1 (by rw [h2]; exact ht)
  have hfac : dget p!"default_factory" j = none := by
    rw [dget_eq_none_iff]
    intro hm
    rcases List.mem_cons.1 hm with e | e
    · exact absurd (show p!"default_factory" = Tags.OBJECT from e) (by decide)
    · obtain ⟨kv, h1, h2⟩ := List.mem_map.1 e
      exact docKv_mem (q := fun k => k ≠ p!"default_factory") (fun kv hkv => (hk kv hkv).2.2.1) kv h1 h2
  let s1 : UState := { s with log := s.log ++ [Event.imp c] ++ [Event.obj c] }
  let s2 : UState := { s1 with heap := s1.heap ++ [.proxy none] }
  obtain ⟨s3, h3, e3, q3⟩ := mkref_kept (.ref s.heap.length) s2
  have hidx : ∃ n, idxGet (.addr s.heap.length) s3.idx = some n := by
    unfold Unpickler.mkref at h3
    cases hi : idxGet (Val.ident (.ref s.heap.length)) s2.idx with
    | some n => rw [hi] at h3; injection h3 with h3; injection h3 with _ h3; exact ⟨n, by rw [← h3]; exact hi⟩
    | none =>
      rw [hi] at h3
      injection h3 with h3
      injection h3 with _ h3
      refine ⟨s2.objs.length, ?_⟩
      rw [← h3]
      unfold idxGet at hi ⊢
      rw [Option.map_eq_none_iff] at hi
      have hi' : s2.idx.find? (fun p => p.1 == Ident.addr s.heap.length) = none := hi
      rw [List.find?_append, hi']
      simp [Val.ident]
  obtain ⟨n, hidx⟩ := hidx
  let s4 : UState := { s3 with log := s3.log ++ [Event.call c] }
  let s5 : UState := { s4 with heap := s4.heap ++ [.inst (made env c [])] }
  let s6 : UState := { s5 with heap := s5.heap.set s.heap.length (.proxy (some (.ref (s.heap.length + 1)))) }
  let s7 : UState := { s6 with idx := (s6.idx.filter (fun q => q.1 != .addr s.heap.length && q.1 != .addr (s.heap.length + 1))) ++ [(.addr (s.heap.length + 1), n)], objs := s6.objs.set n (.ref (s.heap.length + 1)) }
  have l3 : s3.heap.length = s.heap.length + 1 := by rw [e3]; exact List.length_append
  have l5 : s5.heap.length = s.heap.length + 2 := by show (s3.heap ++ [_]).length = _; rw [List.length_append, l3]; rfl
  have l7 : s7.heap.length = s.heap.length + 2 := by show (s5.heap.set _ _).length = _; rw [List.length_set, l5]
  have c7 : s7.heap[s.heap.length + 1]? = some (.inst (made env c [])) := by
    show (s5.heap.set _ _)[_]? = _
    rw [List.getElem?_set, if_neg (by omega)]
    show (s3.heap ++ [_])[_]? = _
    rw [← l3, List.getElem?_concat_length]
  obtain ⟨us, es, s8, as, h8, l8, o8, q8, c8, p8, n8⟩ := makes_entries kvs [] h (fun kv hkv => stores_attr (a := s.heap.length + 1) (c := c) hc.plain hc.hasDict (hk kv hkv))
    (by simpa using hn) s7 (by omega) c7
  have c8' : s8.heap[s.heap.length + 1]? = some (.inst (made env c es)) := c8
  refine ⟨.ref (s.heap.length + 1), s8, (s.heap.length + 1) :: as, ?_, ⟨by omega, fun x hx => ?_, ?_⟩, ⟨_, _, as, rfl, c8', ⟨rfl, rfl, rfl, rfl, rfl, rfl, rfl⟩, p8, rfl⟩, List.nodup_cons.2 ⟨fun hm => ?_, n8.1⟩, fun x hx => ?_⟩
  · show restoreTags env rs j s = _
    rw [Sim.restoreTags_object (c := c) ?_]
    · rw [Sim.object_run, hc.unhandled']
      obtain ⟨cv, hcv⟩ := Option.ne_none_iff_exists'.1 hc.loads
      simp only [hcv]
      unfold restoreInstance
      refine (bind_ok (a := s.heap.length) (s' := s2) rfl).trans ((bind_ok h3).trans ?_)
      have hl : loadFactory rs j s3 = some (.ok (.none, j), s3) := by
        unfold loadFactory factoryKey dhas
        rw [hnot _ (by decide) (by decide), hfac]
        rfl
      have hca : ctorArgs env j s3 = some (.ok (.arr [], .obj []), s3) := by
        unfold ctorArgs getargs
        rw [hnot Tags.NEWARGSEX (by decide) (by decide), hnot Tags.NEWARGS (by decide) (by decide), hnot Tags.INITARGS (by decide) (by decide), hnot Tags.SEQ (by decide) (by decide)]
        rfl
      refine (bind_ok hl).trans ((bind_ok hca).trans ((bind_ok (a := Val.tuple 0 []) (s' := s3) rfl).trans ((bind_ok (a := Val.tuple 0 []) (s' := s3) rfl).trans
        ((bind_ok (a := s3) (s' := s3) rfl).trans ((bind_ok (a := ()) (s' := s4) rfl).trans ?_)))))
      have hcon : construct s3.heap c (env.classInfo c) .none (.tuple 0 []) (.tuple 0 []) = some (made env c []) := by
        simp [construct, starArgs, truthy, hc.new, kwOk, made, hc.plain]
      rw [hcon]
      have hal : alloc (.inst (made env c [])) s4 = some (.ok (s.heap.length + 1), s5) := by
        show some (Except.ok s3.heap.length, s5) = _
        rw [l3]
      have hsw : swapref s.heap.length (.ref (s.heap.length + 1)) s6 = some (.ok (), s7) := by
        unfold swapref
        have : idxGet (.addr s.heap.length) s6.idx = some n := hidx
        rw [this]
        rfl
      refine (bind_ok hal).trans ((bind_ok (a := ()) (s' := s6) rfl).trans ((bind_ok hsw).trans ?_))
      have hnt : ((made env c []).info.base == Base.tuple) = false := by show ((env.classInfo c).base == _) = _; rw [hc.plain]; rfl
      rw [hnt]
      have hvar : restoreVariables env rs (s.heap.length + 1) j s7 = some (.ok (.ref (s.heap.length + 1)), s8) := by
        unfold restoreVariables
        rw [Sim.restoreFromJson_eq, mapM_cons, Sim.entryOf_reserved (show Tags.isReserved Tags.OBJECT = true by decide), hnot Tags.STATE (by decide) (by decide)]
        unfold restoreSeqTag
        rw [hnot Tags.SEQ (by decide) (by decide)]
        refine (bind_ok (a := ()) (s' := s8) ?_).trans rfl
        refine (bind_ok (a := () :: us) (s' := s8) ?_).trans rfl
        refine (bind_ok (a := ()) (s' := s7) rfl).trans ((bind_ok h8).trans rfl)
      refine (bind_ok hvar).trans ((bind_ok (a := ()) (s' := s8) ?_).trans rfl)
      unfold fixFactory PyM.modify
      have hnf : dget p!"default_factory" es = none := by
        rw [dget_eq_none_iff, entries_keys p8]
        intro hm
        obtain ⟨kv, h1, h2⟩ := List.mem_map.1 hm
        exact (hk kv h1).2.2.1 h2
      simp only [c8', made, hnf]
    · intro k hkk ht
      refine docKv_mem (cfg := cfg) (q := fun k => k ∉ Tags.all) (fun kv hkv => (hk kv hkv).1.1) ?_ ?_ ?_
      · exact (List.mem_map.1 hkk).choose
      · exact (List.mem_map.1 hkk).choose_spec.1
      · rw [(List.mem_map.1 hkk).choose_spec.2]
        rcases ht with e | e | e | e | e | e | e <;> subst e <;> decide
  · rw [o8 x (by omega) (by omega)]
    show (s5.heap.set _ _)[x]? = _
    rw [List.getElem?_set, if_neg (by omega)]
    show (s3.heap ++ [_])[x]? = _
    rw [List.getElem?_append_left (by omega), e3]
    exact List.getElem?_append_left hx
  · rw [q8]
    exact q3
  · have := (n8.2 _ hm).1
    omega
  · rcases List.mem_cons.1 hx with rfl | hx
    · have : s.heap.length + 1 < s8.heap.length := by omega
      exact ⟨Nat.le_succ _, this⟩
    · have h4 := n8.2 x hx
      rw [l7] at h4
      exact ⟨Nat.le_of_succ_le (Nat.le_of_succ_le h4.1), h4.2⟩

theorem okL_mem {w : World} : ∀ {xs : List Tree}, OkL w env xs → ∀ x ∈ xs, x.Ok w env
  | _ :: _, ⟨h, _⟩, _, .head _ => h
  | _ :: _, ⟨_, h⟩, y, .tail _ hy => okL_mem h y hy

theorem okKv_mem {w : World} : ∀ {xs : List (Str × Tree)}, OkKv w env xs → ∀ x ∈ xs, x.2.Ok w env
  | (_, _) :: _, ⟨h, _⟩, _, .head _ => h
  | _ :: _, ⟨_, h⟩, y, .tail _ hy => okKv_mem h y hy

theorem depthL_mem : ∀ {xs : List Tree}, ∀ x ∈ xs, x.depth ≤ depthL xs
  | _ :: _, _, .head _ => Nat.le_max_left _ _
  | _ :: _, y, .tail _ hy => Nat.le_trans (depthL_mem y hy) (Nat.le_max_right _ _)

theorem depthKv_mem : ∀ {xs : List (Str × Tree)}, ∀ x ∈ xs, x.2.depth ≤ depthKv xs
  | (_, _) :: _, _, .head _ => Nat.le_max_left _ _
  | (_, _) :: _, y, .tail _ hy => Nat.le_trans (depthKv_mem y hy) (Nat.le_max_right _ _)

theorem makes_scalar {t : Tree} {v : Val} (hr : ∀ s, rs (t.doc cfg) s = some (.ok v, s)) (hv : ∀ h, Is cls h v t []) : Makes cfg cls rs t :=
  fun s => ⟨v, s, [], hr s, ⟨Nat.le_refl _, fun _ _ => rfl, rfl⟩, hv _, List.nodup_nil, fun _ h => by cases h⟩

/-- The document of a tree is read as new objects whose unfolding is the tree. -/
theorem makes {w : World} {env : UEnv} {cfg : PCfg} : ∀ (n : Nat) (t : Tree), t.depth ≤ n → t.Ok w env → Makes cfg env.classInfo (restore env (n + 1)) t
  | n, .list xs, hd, ho => by
    refine makes_list (rs := restore env n) (fun x hx => ?_)
    have h1 := depthL_mem x hx
    simp only [Tree.depth] at hd
    cases n with
    | zero => omega
    | succ n => exact makes n x (by omega) (okL_mem ho x hx)
  | n, .tuple xs, hd, ho => by
    refine makes_tuple (rs := restore env n) (fun x hx => ?_)
    have h1 := depthL_mem x hx
    simp only [Tree.depth] at hd
    cases n with
    | zero => omega
    | succ n => exact makes n x (by omega) (okL_mem ho x hx)
  | n, .set xs, hd, ho => by
    refine makes_set (rs := restore env n) ho.2 (fun x hx => ?_)
    have h1 := depthL_mem x hx
    simp only [Tree.depth] at hd
    cases n with
    | zero => omega
    | succ n => exact makes n x (by omega) (okL_mem ho.1 x hx)
  | n, .dict kvs, hd, ho => by
    refine makes_dict (rs := restore env n) (fun kv hkv => (ho.2.1 kv hkv).1) ho.1 (fun x hx => ?_)
    have h1 := depthKv_mem x hx
    simp only [Tree.depth] at hd
    cases n with
    | zero => omega
    | succ n => exact makes n x.2 (by omega) (okKv_mem ho.2.2 x hx)
  | n, .inst c kvs, hd, ho => by
    refine makes_inst (rs := restore env n) ho.1 ho.2.2.1 ho.2.1 (fun x hx => ?_)
    have h1 := depthKv_mem x hx
    simp only [Tree.depth] at hd
    cases n with
    | zero => omega
    | succ n => exact makes n x.2 (by omega) (okKv_mem ho.2.2.2 x hx)
  | _, .none, _, _ => makes_scalar (fun _ => rfl) (fun _ => ⟨rfl, rfl⟩)
  | _, .bool _, _, _ => makes_scalar (fun _ => rfl) (fun _ => ⟨rfl, rfl⟩)
  | _, .int _, _, _ => makes_scalar (fun _ => rfl) (fun _ => ⟨rfl, rfl⟩)
  | _, .float _, _, _ => makes_scalar (fun _ => rfl) (fun _ => ⟨rfl, rfl⟩)
  | _, .str _, _, _ => makes_scalar (fun _ => rfl) (fun _ => ⟨rfl, rfl⟩)
  | n, .bytes b, _, _ => fun s => ⟨_, _, [], Sim.restore_bytes cfg env (restore env n) b s, ⟨Nat.le_refl _, fun _ _ => rfl, rfl⟩, ⟨_, rfl, rfl⟩, List.nodup_nil, fun _ h => by cases h⟩
  | n, .bytearray b, _, _ => fun s => ⟨_, _, [], Sim.restore_bytearray cfg env (restore env n) b s, ⟨Nat.le_refl _, fun _ _ => rfl, rfl⟩, ⟨_, rfl, rfl⟩, List.nodup_nil, fun _ h => by cases h⟩
  | n, .type c, _, ho => fun s => by
    refine ⟨.type c, { s with log := s.log ++ [Event.imp c] }, [], ?_, ⟨Nat.le_refl _, fun _ _ => rfl, rfl⟩, ⟨rfl, rfl⟩, List.nodup_nil, fun _ h => by cases h⟩
    change (restoreType env [(Tags.TYPE, .str c)]) s = _
    refine (bind_ok (a := Json.str c) (s' := s) rfl).trans ((bind_ok (a := some (Val.type c)) (s' := { s with log := s.log ++ [Event.imp c] }) ?_).trans rfl)
    show some (Except.ok (env.loadclass c), _) = _
    rw [ho.1]
  | n, .func c, _, ho => fun s => by
    refine ⟨.func c, { s with log := s.log ++ [Event.imp c] }, [], ?_, ⟨Nat.le_refl _, fun _ _ => rfl, rfl⟩, ⟨rfl, rfl⟩, List.nodup_nil, fun _ h => by cases h⟩
    change (restoreFunction env [(Tags.FUNCTION, .str c)]) s = _
    refine (bind_ok (a := Json.str c) (s' := s) rfl).trans ((bind_ok (a := some (Val.func c)) (s' := { s with log := s.log ++ [Event.imp c] }) ?_).trans rfl)
    show some (Except.ok (env.loadclass c), _) = _
    rw [ho.1]
  | n, .module c, _, ho => fun s => by
    obtain ⟨s', h1, h2, h3⟩ := mkref_kept (.module c) { s with log := s.log ++ [Event.imp (c ++ 47 :: c)] }
    refine ⟨.module c, s', [], ?_, ⟨by rw [h2]; exact Nat.le_refl _, fun _ _ => by rw [h2], h3⟩, ⟨rfl, rfl⟩, List.nodup_nil, fun _ h => by cases h⟩
    change (emit (.imp (c ++ 47 :: c)) >>= fun _ => (ofExcept (env.loadmodule (c ++ 47 :: c)) : U _) >>= fun r => mkref (r.getD .none)) s = _
    rw [bind_ok (Sim.emit_run _ _), ho.1, bind_ok (ofExcept_run _ _)]
    exact h1

end JP.Unfold
