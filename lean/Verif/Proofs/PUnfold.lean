import Verif.UnfoldSpec
import Verif.ExpandSpec
import Verif.Proofs.SimEnc
import Verif.Proofs.Base64
/-!
# The document of an unfolding
-/
namespace JP.Unfold
open JP PyM Expand

variable {w : World} {cfg : PCfg} {env : UEnv}

theorem put_new : ∀ (es d : List (Str × Json)), (d.map (·.1) ++ es.map (·.1)).Nodup → put d es = d ++ es
  | [], d, _ => by simp [put]
  | (k, j) :: es, d, h => by
    have hk : k ∉ d.map (·.1) := fun hk => (List.nodup_append.1 h).2.2 k hk k (by simp) rfl
    rw [put, dset_of_not_mem k j d hk, put_new es _ (by simpa using h)]
    simp

/-- entries of a dict with ordinary keys -/
theorem entries_names {keys : Bool} (hkeys : cfg.keys = keys) {ex : Val → Json} : ∀ (es : List (Str × Val)), (∀ kv ∈ es, NameOk keys kv.1) → (∀ kv ∈ es, isLambda kv.2 = false) →
    entries w cfg ex (es.map (fun kv => (.str kv.1, kv.2))) = es.map (fun kv => (kv.1, ex kv.2)) := by
  have hres : ∀ {k : Str}, NameOk keys k → Tags.RESERVED.contains k = false := fun h => Sim.nameOk_reserved h
  have hplain : ∀ es : List (Str × Val), (∀ kv ∈ es, NameOk keys kv.1) → (∀ kv ∈ es, isLambda kv.2 = false) →
      (es.map (fun kv : Str × Val => (Val.str kv.1, kv.2))).filterMap (plainEntry w ex) = es.map (fun kv => (kv.1, ex kv.2)) := by
    intro es hn hl
    induction es with
    | nil => rfl
    | cons e es ih =>
      have h1 : plainEntry w ex (Val.str e.1, e.2) = some (e.1, ex e.2) := by
        unfold plainEntry
        simp only [hl e (.head _), hres (hn e (.head _)), Bool.false_eq_true, if_false]
      rw [List.map_cons, List.filterMap_cons, h1, ih (fun kv h => hn kv (.tail _ h)) (fun kv h => hl kv (.tail _ h))]
      rfl
  have hstr : ∀ es : List (Str × Val), keys = true → (∀ kv ∈ es, NameOk keys kv.1) → (∀ kv ∈ es, isLambda kv.2 = false) →
      (es.map (fun kv : Str × Val => (Val.str kv.1, kv.2))).filterMap (stringEntry w ex) = es.map (fun kv => (kv.1, ex kv.2)) := by
    intro es hkk hn hl
    induction es with
    | nil => rfl
    | cons e es ih =>
      have h1 : stringEntry w ex (Val.str e.1, e.2) = some (e.1, ex e.2) := by
        unfold stringEntry special
        simp only [hl e (.head _), hres (hn e (.head _)), (hn e (.head _)).2 hkk, Bool.false_eq_true, if_false, Bool.or_self]
      rw [List.map_cons, List.filterMap_cons, h1, ih (fun kv h => hn kv (.tail _ h)) (fun kv h => hl kv (.tail _ h))]
      rfl
  have hoth : ∀ es : List (Str × Val), (es.map (fun kv : Str × Val => (Val.str kv.1, kv.2))).filterMap (otherEntry w ex) = [] := by
    intro es
    induction es with
    | nil => rfl
    | cons e es ih => rw [List.map_cons, List.filterMap_cons]; exact ih
  intro es hn hl
  unfold entries
  split
  · next hk => rw [hstr es (hkeys ▸ hk) hn hl, hoth, List.append_nil]
  · exact hplain es hn hl

theorem is_not_lambda {cls : Str → ClassInfo} {h : Heap} {v : Val} {t : Tree} {as : List Addr} (hs : Is cls h v t as) : isLambda v = false := by
  cases t with
  | list xs => obtain ⟨a, vs, bs, rfl, h2, _⟩ := hs; rfl
  | tuple xs => obtain ⟨n, vs, rfl, _⟩ := hs; rfl
  | set xs => obtain ⟨n, vs, rfl, _⟩ := hs; rfl
  | bytes b => obtain ⟨n, rfl, _⟩ := hs; rfl
  | bytearray b => obtain ⟨n, rfl, _⟩ := hs; rfl
  | dict xs => obtain ⟨a, vs, bs, rfl, h2, _⟩ := hs; rfl
  | inst c xs => obtain ⟨a, vs, bs, rfl, h2, _⟩ := hs; rfl
  | _ => obtain ⟨rfl, _⟩ := hs; rfl

theorem entries_not_lambda {cls : Str → ClassInfo} {h : Heap} : ∀ {es : List (Str × Val)} {kvs : List (Str × Tree)} {as : List Addr}, EntriesAre cls h es kvs as →
    ∀ kv ∈ es, isLambda kv.2 = false
  | _, [], _, hs, _, hv => by rw [hs.1] at hv; cases hv
  | _, (k, x) :: xs, _, hs, kv, hv => by
    obtain ⟨w, vs', bs, cs, rfl, h2, h3, _⟩ := hs
    rcases List.mem_cons.1 hv with rfl | hv
    · exact is_not_lambda h2
    · exact entries_not_lambda h3 kv hv

theorem entries_names_of {cls : Str → ClassInfo} {h : Heap} {q : Str → Prop} : ∀ {es : List (Str × Val)} {kvs : List (Str × Tree)} {as : List Addr}, EntriesAre cls h es kvs as →
    (∀ kv ∈ kvs, q kv.1) → ∀ kv ∈ es, q kv.1
  | _, [], _, hs, _, _, hv => by rw [hs.1] at hv; cases hv
  | _, (k, x) :: xs, _, hs, hq, kv, hv => by
    obtain ⟨w, vs', bs, cs, rfl, h2, h3, _⟩ := hs
    rcases List.mem_cons.1 hv with rfl | hv
    · exact hq _ (.head _)
    · exact entries_names_of h3 (fun kv h => hq kv (.tail _ h)) kv hv

theorem docKv_fst : ∀ (kvs : List (Str × Tree)), (docKv cfg kvs).map (·.1) = kvs.map (·.1)
  | [] => rfl
  | (k, x) :: kvs => by rw [docKv, List.map_cons, List.map_cons, docKv_fst kvs]

theorem object_inst {ex : Val → Json} (hu : cfg.unpicklable = true) (hkeys : cfg.keys = env.keys) {c : Str} {kvs : List (Str × Tree)} {a : Addr} {i : Inst} {bs : List Addr} {h : Heap}
    (hc : ClassOk w env c) (hn : (kvs.map (·.1)).Nodup) (hk : ∀ kv ∈ kvs, AttrOk env.keys kv.1) (ho : Object (env.classInfo c) c i) (he : EntriesAre env.classInfo h i.attrs kvs bs)
    (hd : i.attrs.map (fun kv => (kv.1, ex kv.2)) = docKv cfg kvs) : Expand.inst w cfg ex a i = (Tree.inst c kvs).doc cfg := by
  have h1 : i.info.reduces = false := by rw [ho.info]; exact hc.data.reduces
  have h2 : i.info.ownGetstate = false := by rw [ho.info]; exact hc.data.ownGetstate
  have h3 : i.info.hasNewargs = false := by rw [ho.info]; exact hc.data.newargs
  have h4 : i.info.hasNewargsEx = false := by rw [ho.info]; exact hc.data.newargsEx
  have h5 : i.info.hasInitargs = false := by rw [ho.info]; exact hc.data.initargs
  have h6 : i.info.isIterator = false := by rw [ho.info]; exact hc.data.iterator
  have h7 : i.info.base = .plain := by rw [ho.info]; exact hc.plain
  have h8 : i.info.hasDict = true := by rw [ho.info]; exact hc.hasDict
  have hkept : ∀ l : List (Val × Val), kept [] l = l := by
    intro l
    unfold kept
    rw [List.filter_eq_self]
    intro kv _
    cases kv.1 <;> rfl
  unfold Expand.inst byState members args classTag dictOf
  rw [ho.cls, hc.unhandled]
  simp only [h1, h2, h3, h4, h5, h6, h7, h8, hu, ho.dictCell, ho.exclude, Bool.and_false, Bool.false_eq_true, if_false, if_true, List.append_nil, put, hkept]
  rw [entries_names hkeys i.attrs (entries_names_of he (fun kv hkv => (hk kv hkv).1)) (entries_not_lambda he), hd, put_new, Tree.doc]
  · rfl
  · rw [docKv_fst]
    refine List.nodup_cons.2 ⟨fun hm => ?_, hn⟩
    obtain ⟨kv, h1, h2⟩ := List.mem_map.1 hm
    refine (hk kv h1).1.1 ?_
    rw [h2]
    show Tags.OBJECT ∈ Tags.all
    decide

mutual
theorem doc_is (hu : cfg.unpicklable = true) (hkeys : cfg.keys = env.keys) : ∀ (t : Tree) {v : Val} {as : List Addr} {m : Nat}, Is env.classInfo w.heap v t as → t.Ok w env → t.depth ≤ m →
    doc w cfg (m + 1) v = t.doc cfg
  | .none, _, _, m, hs, _, _ => by rw [hs.1]; rfl
  | .bool _, _, _, m, hs, _, _ => by rw [hs.1]; rfl
  | .int _, _, _, m, hs, _, _ => by rw [hs.1]; rfl
  | .float _, _, _, m, hs, _, _ => by rw [hs.1]; rfl
  | .str _, _, _, m, hs, _, _ => by rw [hs.1]; rfl
  | .type _, _, _, m, hs, _, _ => by rw [hs.1]; rfl
  | .func _, _, _, m, hs, _, _ => by rw [hs.1]; exact if_pos hu
  | .module _, _, _, m, hs, _, _ => by rw [hs.1]; exact if_pos hu
  | .bytes _, _, _, m, hs, _, _ => by obtain ⟨_, rfl, _⟩ := hs; rfl
  | .bytearray _, _, _, m, hs, _, _ => by obtain ⟨_, rfl, _⟩ := hs; rfl
  | .list xs, _, _, m, hs, ho, hd => by
    obtain ⟨a, vs, bs, rfl, h2, h3, _⟩ := hs
    rw [Tree.depth] at hd
    obtain ⟨m, rfl⟩ : ∃ k, m = k + 1 := ⟨m - 1, by omega⟩
    rw [doc, level, h2]
    show Json.arr (vs.map _) = _
    rw [docs_are hu hkeys xs h3 ho (by omega), Tree.doc]
  | .tuple xs, _, _, m, hs, ho, hd => by
    obtain ⟨n, vs, rfl, h3⟩ := hs
    rw [Tree.depth] at hd
    obtain ⟨m, rfl⟩ : ∃ k, m = k + 1 := ⟨m - 1, by omega⟩
    rw [doc, level, if_pos hu, docs_are hu hkeys xs h3 ho (by omega), Tree.doc]
    rfl
  | .set xs, _, _, m, hs, ho, hd => by
    obtain ⟨n, vs, rfl, h3⟩ := hs
    rw [Tree.depth] at hd
    obtain ⟨m, rfl⟩ : ∃ k, m = k + 1 := ⟨m - 1, by omega⟩
    rw [doc, level, if_pos hu, docs_are hu hkeys xs h3 ho.1 (by omega), Tree.doc]
    rfl
  | .dict kvs, _, _, m, hs, ho, hd => by
    obtain ⟨a, es, bs, rfl, h2, h3, _⟩ := hs
    rw [Tree.depth] at hd
    obtain ⟨m, rfl⟩ : ∃ k, m = k + 1 := ⟨m - 1, by omega⟩
    rw [doc, level, h2]
    show Json.obj (put [] (entries _ _ _ _)) = _
    rw [entries_names hkeys es (entries_names_of h3 (fun kv hkv => (ho.2.1 kv hkv).1)) (entries_not_lambda h3), entries_are hu hkeys kvs h3 ho.2.2 (by omega), put_new _ _ (by rw [docKv_fst]; exact ho.1),
      Tree.doc]
    rfl
  | .inst c kvs, _, _, m, hs, ho, hd => by
    obtain ⟨a, i, bs, rfl, h2, hob, h3, _⟩ := hs
    rw [Tree.depth] at hd
    obtain ⟨m, rfl⟩ : ∃ k, m = k + 1 := ⟨m - 1, by omega⟩
    rw [doc, level, h2]
    exact object_inst hu hkeys ho.1 ho.2.1 ho.2.2.1 hob h3 (entries_are hu hkeys kvs h3 ho.2.2.2 (by omega))
theorem docs_are (hu : cfg.unpicklable = true) (hkeys : cfg.keys = env.keys) : ∀ (ts : List Tree) {vs : List Val} {as : List Addr} {m : Nat}, Are env.classInfo w.heap vs ts as → OkL w env ts →
    depthL ts ≤ m → vs.map (doc w cfg (m + 1)) = docL cfg ts
  | [], _, _, m, hs, _, _ => by rw [hs.1]; rfl
  | t :: ts, _, _, m, hs, ho, hd => by
    obtain ⟨v, vs', bs, cs, rfl, h2, h3, _⟩ := hs
    rw [depthL] at hd
    rw [List.map_cons, doc_is hu hkeys t h2 ho.1 (by omega), docs_are hu hkeys ts h3 ho.2 (by omega), docL]
theorem entries_are (hu : cfg.unpicklable = true) (hkeys : cfg.keys = env.keys) : ∀ (ts : List (Str × Tree)) {es : List (Str × Val)} {as : List Addr} {m : Nat},
    EntriesAre env.classInfo w.heap es ts as → OkKv w env ts → depthKv ts ≤ m → es.map (fun kv => (kv.1, doc w cfg (m + 1) kv.2)) = docKv cfg ts
  | [], _, _, m, hs, _, _ => by rw [hs.1]; rfl
  | (k, t) :: ts, _, _, m, hs, ho, hd => by
    obtain ⟨v, vs', bs, cs, rfl, h2, h3, _⟩ := hs
    rw [depthKv] at hd
    rw [List.map_cons, entries_are hu hkeys ts h3 ho.2 (by omega), docKv]
    show (k, doc w cfg (m + 1) v) :: _ = _
    rw [doc_is hu hkeys t h2 ho.1 (by omega)]
end

theorem bytes_writable (b : Bytes) : ((Tree.bytes b).doc cfg).Writable := by
  simp only [Tree.doc]
  split
  · exact ⟨by simp, strOk_of_ascii (by decide), strOk_of_ascii (b85encode_ascii b), trivial⟩
  · exact ⟨by simp, strOk_of_ascii (by decide), strOk_of_ascii (b64encode_ascii b), trivial⟩

mutual
theorem doc_writable : ∀ (t : Tree), t.Ok w env → (t.doc cfg).Writable
  | .none, _ => trivial
  | .bool _, _ => trivial
  | .int _, _ => trivial
  | .float _, h => h
  | .str _, h => h
  | .bytes b, _ => bytes_writable b
  | .bytearray b, _ => ⟨by simp, strOk_of_ascii (by decide), bytes_writable b, trivial⟩
  | .type n, h => ⟨by simp, strOk_of_ascii (by decide), h.2, trivial⟩
  | .func n, h => ⟨by simp, strOk_of_ascii (by decide), h.2, trivial⟩
  | .module n, h => ⟨by simp, strOk_of_ascii (by decide), h.2, trivial⟩
  | .list xs, h => docL_writable xs h
  | .tuple xs, h => ⟨by simp, strOk_of_ascii (by decide), docL_writable xs h, trivial⟩
  | .set xs, h => ⟨by simp, strOk_of_ascii (by decide), docL_writable xs h.1, trivial⟩
  | .dict kvs, h => ⟨by rw [docKv_fst]; exact h.1, docKv_writable kvs (fun kv hkv => (h.2.1 kv hkv).2) h.2.2⟩
  | .inst c kvs, h => ⟨List.nodup_cons.2 ⟨fun hm => by
      rw [docKv_fst] at hm
      obtain ⟨kv, h1, h2⟩ := List.mem_map.1 hm
      refine (h.2.2.1 kv h1).1.1 ?_
      rw [h2]
      show Tags.OBJECT ∈ Tags.all
      decide, by rw [docKv_fst]; exact h.2.1⟩, strOk_of_ascii (by decide), h.1.text, docKv_writable kvs (fun kv hkv => (h.2.2.1 kv hkv).2.1) h.2.2.2⟩
theorem docL_writable : ∀ (ts : List Tree), OkL w env ts → Json.WritableL (docL cfg ts)
  | [], _ => trivial
  | t :: ts, h => ⟨doc_writable t h.1, docL_writable ts h.2⟩
theorem docKv_writable : ∀ (ts : List (Str × Tree)), (∀ kv ∈ ts, StrOk kv.1) → OkKv w env ts → Json.WritableKv (docKv cfg ts)
  | [], _, _ => trivial
  | (k, t) :: ts, hk, h => ⟨hk _ (.head _), doc_writable t h.1, docKv_writable ts (fun kv hkv => hk kv (.tail _ hkv)) h.2⟩
end

end JP.Unfold
