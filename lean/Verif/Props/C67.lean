import Verif.SortKeys
import Verif.SampleProgram
import Verif.Props.C41
import Verif.Props.C06
/-!
# C67 — `sort_keys`

With `sort_keys=True` the text of plain data does not depend on the order in which dicts were filled, and the data comes back.  Data with references
does not come back: they are numbered in the order in which objects are flattened, but counted in the order in which they are written.
-/
namespace JP.C67
open JP PyM SortKeys Readonly

/-! ### vocabulary -/

mutual
/-- the documents are the same up to the order of the entries of objects -/
def SameData : Json → Json → Prop
  | .arr xs, .arr ys => SameL xs ys
  | .obj kvs, .obj kvs' => ∃ l, l.Perm kvs' ∧ SameKv kvs l
  | .arr _, _ => False
  | .obj _, _ => False
  | a, b => a = b
def SameL : List Json → List Json → Prop
  | [], ys => ys = []
  | x :: xs, ys => ∃ y ys', ys = y :: ys' ∧ SameData x y ∧ SameL xs ys'
def SameKv : List (Str × Json) → List (Str × Json) → Prop
  | [], ys => ys = []
  | (k, x) :: xs, ys => ∃ y ys', ys = (k, y) :: ys' ∧ SameData x y ∧ SameKv xs ys'
end

mutual
/-- the keys of every object increase (lexicographically by code points) -/
def Ordered : Json → Prop
  | .arr xs => OrderedL xs
  | .obj kvs => (kvs.map (·.1)).Pairwise (fun k k' : Str => k < k') ∧ OrderedKv kvs
  | _ => True
def OrderedL : List Json → Prop
  | [] => True
  | x :: xs => Ordered x ∧ OrderedL xs
def OrderedKv : List (Str × Json) → Prop
  | [] => True
  | (_, x) :: xs => Ordered x ∧ OrderedKv xs
end

/-- `encode(v, …)` returns `text` with `sort_keys=True` -/
def Encodes (w : World) (cfg : PCfg) (warn : Bool) (v : Val) (text : Str) : Prop :=
  ∃ n s', ∀ m s, n ≤ m → SortKeys.encode w cfg warn m v true s = some (.ok text, s')

/-! ### the order of strings -/

theorem strLe_iff : ∀ s t : Str, strLe s t = true ↔ ¬ t < s
  | [], t => by simp [strLe]
  | c :: s, [] => by simp [strLe]
  | c :: s, d :: t => by
    have ih := strLe_iff s t
    rw [strLe, List.cons_lt_cons_iff]
    by_cases h1 : c < d
    · simp [h1]; omega
    · by_cases h2 : d < c
      · simp [h1, h2]
      · have : c = d := by omega
        subst this
        simp [ih]

theorem lt_of_le_ne {s t : Str} (h : strLe s t = true) (hne : s ≠ t) : s < t := by
  rw [strLe_iff] at h
  rcases Std.lt_trichotomy s t with h' | h' | h'
  · exact h'
  · exact absurd h' hne
  · exact absurd h' h

theorem lt_of_not_le {s t : Str} (h : ¬ strLe s t = true) : t < s := by
  rw [strLe_iff] at h
  exact Classical.not_not.1 h

/-! ### sorting -/

theorem insert_perm (e : Str × Json) : ∀ l, (insertKv e l).Perm (e :: l)
  | [] => .refl _
  | f :: fs => by
    rw [insertKv]
    split
    · exact .refl _
    · exact ((insert_perm e fs).cons f).trans (.swap e f fs)

/-- entries with their values sorted, in the order that they have -/
def inside : List (Str × Json) → List (Str × Json) := List.map fun e => (e.1, sortDoc e.2)

theorem sortKv_perm : ∀ kvs, (sortKv kvs).Perm (inside kvs)
  | [] => .refl _
  | (k, x) :: r => (insert_perm _ _).trans ((sortKv_perm r).cons _)

theorem inside_keys (kvs : List (Str × Json)) : (inside kvs).map (·.1) = kvs.map (·.1) := by
  simp [inside, Function.comp_def]

theorem sortKv_keys (kvs : List (Str × Json)) : ((sortKv kvs).map (·.1)).Perm (kvs.map (·.1)) := by
  rw [← inside_keys kvs]
  exact (sortKv_perm kvs).map _

theorem insert_sorted (e : Str × Json) : ∀ l : List (Str × Json), l.Pairwise (fun a b => a.1 < b.1) → (∀ f ∈ l, e.1 ≠ f.1) →
    (insertKv e l).Pairwise (fun a b => a.1 < b.1)
  | [], _, _ => by simp [insertKv]
  | f :: fs, hp, hne => by
    rw [insertKv]
    rw [List.pairwise_cons] at hp
    split
    · rename_i h
      have hlt := lt_of_le_ne h (hne f (by simp))
      refine List.pairwise_cons.2 ⟨fun g hg => ?_, List.pairwise_cons.2 hp⟩
      rcases List.mem_cons.1 hg with rfl | hg
      · exact hlt
      · exact Std.lt_trans hlt (hp.1 g hg)
    · rename_i h
      have hlt := lt_of_not_le h
      refine List.pairwise_cons.2 ⟨fun g hg => ?_, insert_sorted e fs hp.2 fun g hg => hne g (by simp [hg])⟩
      rcases List.mem_cons.1 ((insert_perm e fs).mem_iff.1 hg) with rfl | hg
      · exact hlt
      · exact hp.1 g hg

theorem sortKv_sorted : ∀ kvs : List (Str × Json), (kvs.map (·.1)).Nodup → (sortKv kvs).Pairwise (fun a b => a.1 < b.1)
  | [], _ => List.Pairwise.nil
  | (k, x) :: r, h => by
    rw [List.map_cons, List.nodup_cons] at h
    refine insert_sorted _ _ (sortKv_sorted r h.2) fun f hf he => h.1 ?_
    have : f.1 ∈ (sortKv r).map (·.1) := List.mem_map_of_mem hf
    rw [(sortKv_keys r).mem_iff] at this
    exact (show k = f.1 from he) ▸ this

/-- strictly increasing lists with the same entries are equal -/
theorem sorted_unique {l l' : List (Str × Json)} (h : l.Perm l') (h1 : l.Pairwise (fun a b => a.1 < b.1)) (h2 : l'.Pairwise (fun a b => a.1 < b.1)) : l = l' :=
  h.eq_of_pairwise (fun a b _ _ x y => absurd (Std.lt_trans x y) (Std.lt_irrefl)) h1 h2

/-! ### what the sorted document is -/

mutual
theorem same : ∀ j : Json, SameData j (sortDoc j)
  | .null => rfl
  | .bool _ => rfl
  | .int _ => rfl
  | .float _ => rfl
  | .str _ => rfl
  | .arr xs => sameL xs
  | .obj kvs => ⟨inside kvs, (sortKv_perm kvs).symm, sameKv kvs⟩
theorem sameL : ∀ xs : List Json, SameL xs (sortL xs)
  | [] => rfl
  | x :: xs => ⟨_, _, rfl, same x, sameL xs⟩
theorem sameKv : ∀ kvs : List (Str × Json), SameKv kvs (inside kvs)
  | [] => rfl
  | (_, x) :: xs => ⟨_, _, rfl, same x, sameKv xs⟩
end

theorem orderedKv_iff : ∀ kvs : List (Str × Json), OrderedKv kvs ↔ ∀ e ∈ kvs, Ordered e.2
  | [] => by simp [OrderedKv]
  | (k, x) :: r => by simp [OrderedKv, orderedKv_iff r]

theorem distinctKv_iff : ∀ kvs : List (Str × Json), Json.DistinctKv kvs ↔ ∀ e ∈ kvs, e.2.Distinct
  | [] => by simp [Json.DistinctKv]
  | (k, x) :: r => by simp [Json.DistinctKv, distinctKv_iff r]

mutual
theorem sort_ordered : ∀ j : Json, j.Distinct → Ordered (sortDoc j)
  | .null, _ => trivial
  | .bool _, _ => trivial
  | .int _, _ => trivial
  | .float _, _ => trivial
  | .str _, _ => trivial
  | .arr xs, h => sort_orderedL xs h
  | .obj kvs, h => ⟨List.pairwise_map.2 (sortKv_sorted kvs h.1), (orderedKv_iff _).2 fun e he =>
      sort_orderedKv kvs h.2 e ((sortKv_perm kvs).mem_iff.1 he)⟩
theorem sort_orderedL : ∀ xs : List Json, Json.DistinctL xs → OrderedL (sortL xs)
  | [], _ => trivial
  | x :: xs, h => ⟨sort_ordered x h.1, sort_orderedL xs h.2⟩
theorem sort_orderedKv : ∀ kvs : List (Str × Json), Json.DistinctKv kvs → ∀ e ∈ inside kvs, Ordered e.2
  | [], _ => fun e he => by cases he
  | (_, x) :: xs, h => fun e he => by
    rcases List.mem_cons.1 he with rfl | he
    · exact sort_ordered x h.1
    · exact sort_orderedKv xs h.2 e he
end

mutual
/-- a document whose keys increase is left alone -/
theorem ordered_same : ∀ j : Json, Ordered j → sortDoc j = j
  | .null, _ => rfl
  | .bool _, _ => rfl
  | .int _, _ => rfl
  | .float _, _ => rfl
  | .str _, _ => rfl
  | .arr xs, h => by rw [sortDoc, ordered_sameL xs h]
  | .obj kvs, h => by
    have e := ordered_sameKv kvs h.2
    have hp := sortKv_perm kvs
    rw [e] at hp
    have hn : (kvs.map (·.1)).Nodup := h.1.imp fun h => Std.ne_of_lt h
    rw [sortDoc, sorted_unique hp (sortKv_sorted kvs hn) (List.pairwise_map.1 h.1)]
theorem ordered_sameL : ∀ xs : List Json, OrderedL xs → sortL xs = xs
  | [], _ => rfl
  | x :: xs, h => by rw [sortL, ordered_same x h.1, ordered_sameL xs h.2]
theorem ordered_sameKv : ∀ kvs : List (Str × Json), OrderedKv kvs → inside kvs = kvs
  | [], _ => rfl
  | (k, x) :: xs, h => by
    show (k, sortDoc x) :: inside xs = _
    rw [ordered_same x h.1, ordered_sameKv xs h.2]
end

mutual
theorem canonical : ∀ j j' : Json, SameData j j' → j.Distinct → sortDoc j = sortDoc j'
  | .null, _, h, _ => by rw [show _ = _ from h]
  | .bool _, _, h, _ => by rw [show _ = _ from h]
  | .int _, _, h, _ => by rw [show _ = _ from h]
  | .float _, _, h, _ => by rw [show _ = _ from h]
  | .str _, _, h, _ => by rw [show _ = _ from h]
  | .arr xs, .arr ys, h, hd => by rw [sortDoc, sortDoc, canonicalL xs ys h hd]
  | .obj kvs, .obj kvs', ⟨l, hp, hs⟩, hd => by
    have e := canonicalKv kvs l hs hd.2
    have hn' : (kvs'.map (·.1)).Nodup := by
      refine ((hp.map (·.1)).nodup_iff).1 ?_
      rw [← inside_keys, ← e, inside_keys]
      exact hd.1
    rw [sortDoc, sortDoc]
    congr 1
    refine sorted_unique ?_ (sortKv_sorted kvs hd.1) (sortKv_sorted kvs' hn')
    refine (sortKv_perm kvs).trans ?_
    rw [e]
    exact (hp.map _).trans (sortKv_perm kvs').symm
  | .arr _, .null, h, _ => absurd h (by simp [SameData])
  | .arr _, .bool _, h, _ => absurd h (by simp [SameData])
  | .arr _, .int _, h, _ => absurd h (by simp [SameData])
  | .arr _, .float _, h, _ => absurd h (by simp [SameData])
  | .arr _, .str _, h, _ => absurd h (by simp [SameData])
  | .arr _, .obj _, h, _ => absurd h (by simp [SameData])
  | .obj _, .null, h, _ => absurd h (by simp [SameData])
  | .obj _, .bool _, h, _ => absurd h (by simp [SameData])
  | .obj _, .int _, h, _ => absurd h (by simp [SameData])
  | .obj _, .float _, h, _ => absurd h (by simp [SameData])
  | .obj _, .str _, h, _ => absurd h (by simp [SameData])
  | .obj _, .arr _, h, _ => absurd h (by simp [SameData])
theorem canonicalL : ∀ xs ys : List Json, SameL xs ys → Json.DistinctL xs → sortL xs = sortL ys
  | [], ys, h, _ => by rw [show ys = [] from h]
  | x :: xs, ys, ⟨y, ys', e, h1, h2⟩, hd => by
    subst e
    rw [sortL, sortL, canonical x y h1 hd.1, canonicalL xs ys' h2 hd.2]
theorem canonicalKv : ∀ kvs l : List (Str × Json), SameKv kvs l → Json.DistinctKv kvs → inside kvs = inside l
  | [], l, h, _ => by rw [show l = [] from h]
  | (k, x) :: xs, l, ⟨y, ys', e, h1, h2⟩, hd => by
    subst e
    show (k, sortDoc x) :: inside xs = (k, sortDoc y) :: inside ys'
    rw [canonical x y h1 hd.1, canonicalKv xs ys' h2 hd.2]
end

/-! ### keys and levels of the sorted document -/

mutual
theorem sort_keys_mem (k : Str) : ∀ j : Json, k ∈ (sortDoc j).keys ↔ k ∈ j.keys
  | .null => Iff.rfl
  | .bool _ => Iff.rfl
  | .int _ => Iff.rfl
  | .float _ => Iff.rfl
  | .str _ => Iff.rfl
  | .arr xs => sort_keys_memL k xs
  | .obj kvs => by
    rw [sortDoc, Json.keys, Json.keys, ← sort_keys_memKv k kvs, Json.mem_keysKv, Json.mem_keysKv]
    constructor <;> rintro ⟨e, he, h⟩
    · exact ⟨e, (sortKv_perm kvs).mem_iff.1 he, h⟩
    · exact ⟨e, (sortKv_perm kvs).mem_iff.2 he, h⟩
theorem sort_keys_memL (k : Str) : ∀ xs : List Json, k ∈ Json.keysL (sortL xs) ↔ k ∈ Json.keysL xs
  | [] => Iff.rfl
  | x :: xs => by simp [sortL, Json.keysL, sort_keys_mem k x, sort_keys_memL k xs]
theorem sort_keys_memKv (k : Str) : ∀ kvs : List (Str × Json), k ∈ Json.keysKv (inside kvs) ↔ k ∈ Json.keysKv kvs
  | [] => Iff.rfl
  | (k', x) :: xs => by
    show k ∈ Json.keysKv ((k', sortDoc x) :: inside xs) ↔ _
    simp [Json.keysKv, sort_keys_mem k x, sort_keys_memKv k xs]
end

mutual
theorem sort_distinct : ∀ j : Json, j.Distinct → (sortDoc j).Distinct
  | .null, _ => trivial
  | .bool _, _ => trivial
  | .int _, _ => trivial
  | .float _, _ => trivial
  | .str _, _ => trivial
  | .arr xs, h => sort_distinctL xs h
  | .obj kvs, h => ⟨(sortKv_keys kvs).nodup_iff.2 h.1, (distinctKv_iff _).2 fun e he =>
      (distinctKv_iff _).1 (sort_distinctKv kvs h.2) e ((sortKv_perm kvs).mem_iff.1 he)⟩
theorem sort_distinctL : ∀ xs : List Json, Json.DistinctL xs → Json.DistinctL (sortL xs)
  | [], _ => trivial
  | x :: xs, h => ⟨sort_distinct x h.1, sort_distinctL xs h.2⟩
theorem sort_distinctKv : ∀ kvs : List (Str × Json), Json.DistinctKv kvs → Json.DistinctKv (inside kvs)
  | [], _ => trivial
  | (_, x) :: xs, h => ⟨sort_distinct x h.1, sort_distinctKv xs h.2⟩
end

theorem writableKv_iff : ∀ kvs : List (Str × Json), Json.WritableKv kvs ↔ ∀ e ∈ kvs, StrOk e.1 ∧ e.2.Writable
  | [] => by simp [Json.WritableKv]
  | (k, x) :: r => by simp [Json.WritableKv, writableKv_iff r, and_assoc]

mutual
theorem sort_writable : ∀ j : Json, j.Writable → (sortDoc j).Writable
  | .null, _ => trivial
  | .bool _, _ => trivial
  | .int _, _ => trivial
  | .float _, h => h
  | .str _, h => h
  | .arr xs, h => sort_writableL xs h
  | .obj kvs, h => ⟨(sortKv_keys kvs).nodup_iff.2 h.1, (writableKv_iff _).2 fun e he =>
      (writableKv_iff _).1 (sort_writableKv kvs h.2) e ((sortKv_perm kvs).mem_iff.1 he)⟩
theorem sort_writableL : ∀ xs : List Json, Json.WritableL xs → Json.WritableL (sortL xs)
  | [], _ => trivial
  | x :: xs, h => ⟨sort_writable x h.1, sort_writableL xs h.2⟩
theorem sort_writableKv : ∀ kvs : List (Str × Json), Json.WritableKv kvs → Json.WritableKv (inside kvs)
  | [], _ => trivial
  | (_, x) :: xs, h => ⟨h.1, sort_writable x h.2.1, sort_writableKv xs h.2.2⟩
end

mutual
theorem writable_distinct : ∀ j : Json, j.Writable → j.Distinct
  | .null, _ => trivial
  | .bool _, _ => trivial
  | .int _, _ => trivial
  | .float _, _ => trivial
  | .str _, _ => trivial
  | .arr xs, h => writable_distinctL xs h
  | .obj kvs, h => ⟨h.1, writable_distinctKv kvs h.2⟩
theorem writable_distinctL : ∀ xs : List Json, Json.WritableL xs → Json.DistinctL xs
  | [], _ => trivial
  | x :: xs, h => ⟨writable_distinct x h.1, writable_distinctL xs h.2⟩
theorem writable_distinctKv : ∀ kvs : List (Str × Json), Json.WritableKv kvs → Json.DistinctKv kvs
  | [], _ => trivial
  | (_, x) :: xs, h => ⟨writable_distinct x h.2.1, writable_distinctKv xs h.2.2⟩
end

/-! ### `encode` -/

/-- the root of plain data is not an instance: there are no attributes to sort -/
theorem plain_root {h : Heap} {v : Val} {j : Json} (ht : IsTree h v j) (warn : Bool) : sortRoot h warn v = .ok h := by
  obtain ⟨as, hs, _⟩ := ht
  cases j with
  | arr xs => obtain ⟨a, vs, bs, rfl, h2, _⟩ := hs; simp only [sortRoot, h2]
  | obj xs => obtain ⟨a, vs, bs, rfl, h2, _⟩ := hs; simp only [sortRoot, h2]
  | _ => obtain ⟨rfl, _⟩ := hs; rfl

/-- what `encode` does when the attributes of the root are sorted -/
theorem encode_run {w : World} {h : Heap} {warn : Bool} {v : Val} (hr : sortRoot w.heap warn v = .ok h) (cfg : PCfg) (n : Nat) (s : PState) :
    SortKeys.encode w cfg warn n v true s = Api.encode (sortedWorld w h) cfg n v true {} := by
  unfold SortKeys.encode
  simp only [if_true, hr]
  rfl

/-- without `keys=True` the document does not depend on how texts are written -/
theorem entries_dumps (w : World) (f : Json → Str) (cfg : PCfg) (hk : cfg.keys = false) (fl : Val → P Json) (kvs : List (Val × Val)) (ex : List Str)
    (d : List (Str × Json)) : Pickler.flattenEntries { w with dumps := f } cfg fl kvs ex d = Pickler.flattenEntries w cfg fl kvs ex d := by
  unfold Pickler.flattenEntries
  rw [hk]
  rfl

theorem inst_dumps (w : World) (f : Json → Str) (cfg : PCfg) (hk : cfg.keys = false) (fl : Val → P Json) (a : Addr) (i : Inst) :
    Pickler.flattenInst { w with dumps := f } cfg fl a i = Pickler.flattenInst w cfg fl a i := by
  have h1 := entries_dumps w f cfg hk fl
  have h2 : ∀ d, Pickler.flattenRest { w with dumps := f } cfg fl a i d = Pickler.flattenRest w cfg fl a i d := by
    intro d
    unfold Pickler.flattenRest Pickler.flattenDictSub Pickler.flattenOwnDict Pickler.flattenSequence Pickler.flattenSeqAttrs Pickler.flattenDefault Pickler.flattenFactory Pickler.flattenClone
    simp only [h1]
    rfl
  have h3 : Pickler.flattenBody { w with dumps := f } cfg fl a i = Pickler.flattenBody w cfg fl a i := by
    unfold Pickler.flattenBody Pickler.flattenGetstate Pickler.flattenFilteredState
    simp only [h1, h2]
  unfold Pickler.flattenInst Pickler.flattenReduce
  simp only [h3]
  rfl

theorem flatten_dumps (w : World) (f : Json → Str) (cfg : PCfg) (hk : cfg.keys = false) : ∀ n, Pickler.flatten { w with dumps := f } cfg n = Pickler.flatten w cfg n
  | 0 => rfl
  | n + 1 => by
    have ih := flatten_dumps w f cfg hk n
    funext v
    have hb : ∀ v, Pickler.flattenBy { w with dumps := f } cfg (Pickler.flatten w cfg n) v = Pickler.flattenBy w cfg (Pickler.flatten w cfg n) v := by
      intro v
      cases v <;> try rfl
      unfold Pickler.flattenBy
      simp only [entries_dumps w f cfg hk, inst_dumps w f cfg hk]
    have hi : ∀ v, Pickler.flattenImpl { w with dumps := f } cfg (Pickler.flatten w cfg n) v = Pickler.flattenImpl w cfg (Pickler.flatten w cfg n) v := by
      intro v
      unfold Pickler.flattenImpl Pickler.flattenObj
      simp only [hb]
      rfl
    show Pickler.flattenStep _ cfg (Pickler.flatten _ cfg n) v = Pickler.flattenStep w cfg (Pickler.flatten w cfg n) v
    rw [ih]
    unfold Pickler.flattenStep
    simp only [hi]

/-- **For every object**, the text is that of a document with increasing keys, which is a rearrangement of the document that the object is flattened to
(with the root's attributes sorted). -/
theorem text_of (w : World) (cfg : PCfg) (hk : cfg.keys = false) (warn : Bool) (n : Nat) (v : Val) (s s' : PState) (t : Str) :
    SortKeys.encode w cfg warn n v true s = some (.ok t, s') ↔
    ∃ h D, sortRoot w.heap warn v = .ok h ∧ Pickler.flattenTop { w with heap := h } cfg n v true {} = some (.ok D, s') ∧ t = w.dumps (sortDoc D) ∧
      SameData D (sortDoc D) ∧ (D.Distinct → Ordered (sortDoc D)) := by
  have hf : ∀ h, Pickler.flattenTop (sortedWorld w h) cfg n v true = Pickler.flattenTop { w with heap := h } cfg n v true := by
    intro h
    unfold Pickler.flattenTop
    rw [if_pos rfl, if_pos rfl, ← flatten_dumps { w with heap := h } (fun j => w.dumps (sortDoc j)) cfg hk n]
    rfl
  constructor
  · intro he
    cases hr : sortRoot w.heap warn v with
    | error e =>
      unfold SortKeys.encode at he
      rw [if_pos rfl, hr] at he
      cases he
    | ok h =>
      rw [encode_run hr] at he
      obtain ⟨D, s1, h1, h2⟩ := bind_eq_ok.1 he
      cases h2
      exact ⟨h, D, rfl, hf h ▸ h1, rfl, same D, sort_ordered D⟩
  · rintro ⟨h, D, hr, h1, rfl, _⟩
    rw [encode_run hr]
    exact (bind_ok (hf h ▸ h1)).trans rfl

/-- **The option changes nothing** if the keys of the document increase already and the root has no attributes to sort. -/
theorem nothing_to_sort (w : World) (cfg : PCfg) (hk : cfg.keys = false) (warn : Bool) (n : Nat) (v : Val) (s s' : PState) (D : Json)
    (hr : sortRoot w.heap warn v = .ok w.heap) (hD : Pickler.flattenTop w cfg n v true {} = some (.ok D, s')) (ho : Ordered D) :
    SortKeys.encode w cfg warn n v true s = some (.ok (w.dumps D), s') ∧ Api.encode w cfg n v true s = some (.ok (w.dumps D), s') := by
  refine ⟨(text_of w cfg hk warn n v s s' _).2 ⟨w.heap, D, hr, hD, by rw [ordered_same D ho], same D, sort_ordered D⟩, ?_⟩
  exact (bind_ok (x := Pickler.flattenTop w cfg n v true) hD).trans rfl

/-- Plain data (without sharing) is written as the document that it looks like, sorted. -/
theorem encodes_plain (w : World) (cfg : PCfg) (warn : Bool) (v : Val) (j : Json) (ht : IsTree w.heap v j) (hd : j.Distinct)
    (hmax : ∀ d, cfg.maxDepth = some d → (j.depth : Int) ≤ d)
    (hk : ∀ k ∈ j.keys, k ∉ Tags.all) (hesc : cfg.keys = true → ∀ k ∈ j.keys, startsWith k p!"json://" = false) :
    Encodes w cfg warn v (w.dumps (sortDoc j)) := by
  have hr := plain_root ht warn
  obtain ⟨n, s', h⟩ := C06.encodes_itself (sortedWorld w w.heap) cfg v j ht hd hmax hk hesc
  exact ⟨n, s', fun m s hm => (encode_run hr cfg m s).trans (h m {} hm)⟩

/-- **One text for equal data.**  Plain data that is the same up to the order in which dicts were filled has one text. -/
theorem one_text (w : World) (cfg : PCfg) (warn : Bool) (v v' : Val) (j j' : Json) (ht : IsTree w.heap v j) (ht' : IsTree w.heap v' j')
    (hd : j.Distinct) (hd' : j'.Distinct) (hs : SameData j j')
    (hmax : ∀ d, cfg.maxDepth = some d → (j.depth : Int) ≤ d ∧ (j'.depth : Int) ≤ d)
    (hk : ∀ k, k ∈ j.keys ∨ k ∈ j'.keys → k ∉ Tags.all)
    (hesc : cfg.keys = true → ∀ k, k ∈ j.keys ∨ k ∈ j'.keys → startsWith k p!"json://" = false) :
    ∃ text, Encodes w cfg warn v text ∧ Encodes w cfg warn v' text := by
  refine ⟨_, encodes_plain w cfg warn v j ht hd (fun d h => (hmax d h).1) (fun k h => hk k (.inl h)) (fun hc k h => hesc hc k (.inl h)), ?_⟩
  rw [canonical j j' hs hd]
  exact encodes_plain w cfg warn v' j' ht' hd' (fun d h => (hmax d h).2) (fun k h => hk k (.inr h)) (fun hc k h => hesc hc k (.inr h))

/-- **Plain data comes back**, with the keys of every dict in order.  (`loads` inverts `dumps` on documents that can be told from their text: C41.) -/
theorem plain_trip (w : World) (cfg : PCfg) (warn : Bool) (env : UEnv) (v : Val) (j : Json) (hmax : ∀ d, cfg.maxDepth = some d → (j.depth : Int) ≤ d)
    (hl : ∀ i : Json, i.Writable → env.loads (w.dumps i) = some i)
    (ht : IsTree w.heap v j) (hj : j.Writable) (hfree : ∀ k ∈ j.keys, k ∉ Tags.all ∧ k ∉ wireTags)
    (hesc : cfg.keys = true ∨ env.keys = true → ∀ k ∈ j.keys, startsWith k p!"json://" = false) (u : UState) :
    ∃ text x u' i, Encodes w cfg warn v text ∧ Decodes env text u x u' ∧ IsTree u'.heap x i ∧ SameData j i ∧ Ordered i := by
  have hm := fun k => sort_keys_mem k j
  have hd := writable_distinct j hj
  obtain ⟨x, u', h1, h2, _⟩ := C06.decodes_itself env (w.dumps (sortDoc j)) (sortDoc j) (hl _ (sort_writable j hj)) (sort_distinct j hd)
    (fun k h => (hfree k ((hm k).1 h)).2) (fun h k hk => hesc (.inr h) k ((hm k).1 hk)) u
  exact ⟨_, x, u', sortDoc j, encodes_plain w cfg warn v j ht hd hmax (fun k h => (hfree k h).1) (fun h => hesc (.inl h)), h1, h2, same j, sort_ordered j hd⟩

/-! ### examples -/

/-- `{"b": [1, {"d": 1, "c": 2}], "a": None}` -/
def doc : Json := .obj [(p!"b", .arr [.int 1, .obj [(p!"d", .int 1), (p!"c", .int 2)]]), (p!"a", .null)]

/-- the same, filled in another order -/
def doc' : Json := .obj [(p!"a", .null), (p!"b", .arr [.int 1, .obj [(p!"c", .int 2), (p!"d", .int 1)]])]

def heap : Heap := [.dict [(.str p!"b", .ref 1), (.str p!"a", .none)], .list [.int 1, .ref 2], .dict [(.str p!"d", .int 1), (.str p!"c", .int 2)],
  .dict [(.str p!"a", .none), (.str p!"b", .ref 4)], .list [.int 1, .ref 5], .dict [(.str p!"c", .int 2), (.str p!"d", .int 1)]]

theorem doc_tree : IsTree heap (.ref 0) doc :=
  ⟨[0, 1, 2], ⟨0, _, [1, 2], rfl, rfl, ⟨_, _, [1, 2], [], rfl, ⟨1, _, [2], rfl, rfl, ⟨_, _, [], [2], rfl, ⟨rfl, rfl⟩, ⟨_, _, [2], [], rfl, ⟨2, _, [], rfl, rfl,
      ⟨_, _, [], [], rfl, ⟨rfl, rfl⟩, ⟨_, _, [], [], rfl, ⟨rfl, rfl⟩, ⟨rfl, rfl⟩, rfl⟩, rfl⟩, rfl⟩, ⟨rfl, rfl⟩, rfl⟩, rfl⟩, rfl⟩,
      ⟨_, _, [], [], rfl, ⟨rfl, rfl⟩, ⟨rfl, rfl⟩, rfl⟩, rfl⟩, rfl⟩, by decide⟩

theorem doc_tree' : IsTree heap (.ref 3) doc' :=
  ⟨[3, 4, 5], ⟨3, _, [4, 5], rfl, rfl, ⟨_, _, [], [4, 5], rfl, ⟨rfl, rfl⟩, ⟨_, _, [4, 5], [], rfl, ⟨4, _, [5], rfl, rfl, ⟨_, _, [], [5], rfl, ⟨rfl, rfl⟩,
      ⟨_, _, [5], [], rfl, ⟨5, _, [], rfl, rfl, ⟨_, _, [], [], rfl, ⟨rfl, rfl⟩, ⟨_, _, [], [], rfl, ⟨rfl, rfl⟩, ⟨rfl, rfl⟩, rfl⟩, rfl⟩, rfl⟩, ⟨rfl, rfl⟩, rfl⟩, rfl⟩, rfl⟩,
      ⟨rfl, rfl⟩, rfl⟩, rfl⟩, rfl⟩, by decide⟩

theorem doc_same : SameData doc doc' :=
  ⟨[(p!"b", .arr [.int 1, .obj [(p!"c", .int 2), (p!"d", .int 1)]]), (p!"a", .null)], .swap _ _ _,
    ⟨_, _, rfl, ⟨_, _, rfl, rfl, ⟨_, _, rfl, ⟨[(p!"d", .int 1), (p!"c", .int 2)], .swap _ _ _, ⟨_, _, rfl, rfl, ⟨_, _, rfl, rfl, rfl⟩⟩⟩, rfl⟩⟩,
      ⟨_, _, rfl, rfl, rfl⟩⟩⟩

example : ∃ text, Encodes (Sample.program.world heap) {} true (.ref 0) text ∧ Encodes (Sample.program.world heap) {} true (.ref 3) text :=
  one_text _ _ _ _ _ doc doc' doc_tree doc_tree' (by simp [doc, Json.Distinct, Json.DistinctKv, Json.DistinctL])
    (by simp [doc', Json.Distinct, Json.DistinctKv, Json.DistinctL]) doc_same (fun _ h => by cases h)
    (fun k h => by rcases h with h | h <;> revert h <;> revert k <;> decide +kernel) (fun h => by cases h)

example : ∃ text x u' i, Encodes (Sample.program.world heap) {} true (.ref 0) text ∧ Decodes Sample.program.env text {} x u' ∧ IsTree u'.heap x i ∧ SameData doc i ∧ Ordered i :=
  plain_trip _ _ _ _ _ doc (fun _ h => by cases h) (fun i hi => JsonText.loads_dumps C41.sampleFloat_lawful i hi) doc_tree
    (by
      have h : ∀ s : Str, s.all (· < 128) = true → StrOk s := fun s h => strOk_of_ascii (by simpa using h)
      exact ⟨by decide, h _ rfl, ⟨trivial, ⟨by decide, h _ rfl, trivial, h _ rfl, trivial, trivial⟩, trivial⟩, h _ rfl, trivial, trivial⟩)
    (by decide +kernel) (fun h => by rcases h with h | h <;> cases h) {}

/-- the two texts without the option differ, and this is the one with it -/
example : Sample.res (Api.encode (Sample.program.world heap) {} 9 (.ref 0) true {}) ≠ Sample.res (Api.encode (Sample.program.world heap) {} 9 (.ref 3) true {}) ∧
    Sample.res (SortKeys.encode (Sample.program.world heap) {} true 9 (.ref 0) true {}) = some (.ok p!"{\"a\": null, \"b\": [1, {\"c\": 2, \"d\": 1}]}") := by
  decide +kernel

/-- encode with the option, then decode in a new interpreter -/
def trip (p : Sample.Program) (h : Heap) (v : Val) : Option (Val × Heap) :=
  match SortKeys.encode (p.world h) {} true 30 v true {} with
  | some (.ok text, _) => match Api.decode p.env 30 text true true {} with
    | some (.ok x, u) => some (x, u.heap)
    | _ => none
  | _ => none

/-- `{"b": [1], "a": [2], "c": <the list of b>}` -/
def shared : Heap := [.dict [(.str p!"b", .ref 1), (.str p!"a", .ref 2), (.str p!"c", .ref 1)], .list [.int 1], .list [.int 2]]

/-- References are numbered in the order in which objects are flattened: the list of `b` is the first one after the dict itself.  In the sorted text the
list of `a` is the first one, and that is what `c` becomes: `{"a": [2], "b": [1], "c": <the list of a>}`. -/
theorem reference_moves :
    Sample.res (SortKeys.encode (Sample.program.world shared) {} true 9 (.ref 0) true {}) = some (.ok p!"{\"a\": [2], \"b\": [1], \"c\": {\"py/id\": 1}}") ∧
    (trip Sample.program shared (.ref 0)).map (fun r => (r.1, r.2.map Sample.view)) =
      some (.ref 0, [.dict [(.str p!"a", .ref 1), (.str p!"b", .ref 2), (.str p!"c", .ref 1)], .list [.int 2], .list [.int 1]]) := by
  decide +kernel

/-- an instance of `C` with `b = [1]`, `a = [2]` and `c = b`; a list that it is the only element of -/
def attributes : Heap := [.inst { cls := p!"m.C", attrs := [(p!"b", .ref 1), (p!"a", .ref 2), (p!"c", .ref 1)] }, .list [.int 1], .list [.int 2], .list [.ref 0]]

/-- The attributes of the object that is encoded are sorted before it is flattened, so it comes back with `c is b` … -/
theorem root_attributes : (trip Sample.program attributes (.ref 0)).map (fun r => (r.1, r.2.map Sample.view)) =
    some (.ref 1, [.proxy, .inst p!"m.C" [(p!"a", .ref 2), (p!"b", .ref 3), (p!"c", .ref 3)] [] [], .list [.int 2], .list [.int 1]]) := by
  decide +kernel

/-- … but inside a list the same object comes back with `c is a`. -/
theorem inner_attributes : (trip Sample.program attributes (.ref 3)).map (fun r => (r.1, r.2.map Sample.view)) =
    some (.ref 0, [.list [.ref 2], .proxy, .inst p!"m.C" [(p!"a", .ref 3), (p!"b", .ref 4), (p!"c", .ref 3)] [] [], .list [.int 2], .list [.int 1]]) := by
  decide +kernel

/-- Sharing also makes the text depend on the order: `{"a": l, "b": l}` and `{"b": l, "a": l}` have different texts. -/
theorem two_texts :
    Sample.res (SortKeys.encode (Sample.program.world [.dict [(.str p!"a", .ref 1), (.str p!"b", .ref 1)], .list []]) {} true 9 (.ref 0) true {}) =
      some (.ok p!"{\"a\": [], \"b\": {\"py/id\": 1}}") ∧
    Sample.res (SortKeys.encode (Sample.program.world [.dict [(.str p!"b", .ref 1), (.str p!"a", .ref 1)], .list []]) {} true 9 (.ref 0) true {}) =
      some (.ok p!"{\"a\": {\"py/id\": 1}, \"b\": []}") := by
  decide +kernel

/-- An object with `__slots__` is refused if `warn` is on (only if it is the one that is encoded). -/
theorem slots_refused (w : World) (cfg : PCfg) (n : Nat) (a : Addr) (i : Inst) (ha : w.heap[a]? = some (.inst i)) (hs : i.info.hasSlots = true) (s : PState) :
    SortKeys.encode w cfg true n (.ref a) true s = some (.error .typeError, {}) := by
  unfold SortKeys.encode
  simp only [sortRoot, ha, hs]
  rfl

example : ∃ i, Sample.graph[3]? = some (.inst i) ∧ i.info.hasSlots = true := ⟨_, rfl, rfl⟩

/-- With `warn` off an object without `__dict__` is encoded as it is, whether it has `__slots__` or not; only the entries of the document are sorted. -/
theorem slots_accepted (w : World) (cfg : PCfg) (n : Nat) (a : Addr) (i : Inst) (ha : w.heap[a]? = some (.inst i)) (hd : i.info.hasDict = false) (s : PState) :
    SortKeys.encode w cfg false n (.ref a) true s = Api.encode (sortedWorld w w.heap) cfg n (.ref a) true {} := by
  unfold SortKeys.encode
  simp only [sortRoot, ha, hd, Bool.and_false, Bool.false_eq_true, if_false]
  rfl

/-- an object of a class with `__slots__ = ("q", "p")`, both the same list -/
def slotted : Heap := [.inst { cls := p!"m.S", info := { hasDict := false, hasSlots := true, slots := [p!"q", p!"p"] }, attrs := [(p!"q", .ref 1), (p!"p", .ref 1)] }, .list []]

example : Sample.res (SortKeys.encode (Sample.program.world slotted) {} false 9 (.ref 0) true {}) = some (.ok p!"{\"p\": {\"py/id\": 1}, \"py/object\": \"m.S\", \"q\": []}") := by
  decide +kernel

/-- an object whose `__dict__` is the dict `{"b": [], "a": <the same list>}`: the attributes are flattened in the order of their names -/
theorem own_dict_sorted :
    Sample.res (SortKeys.encode (Sample.program.world [.inst { cls := p!"m.C", dictCell := some 1 }, .dict [(.str p!"b", .ref 2), (.str p!"a", .ref 2)], .list []]) {} true 9 (.ref 0) true {}) =
      some (.ok p!"{\"a\": [], \"b\": {\"py/id\": 1}, \"py/object\": \"m.C\"}") := by
  decide +kernel

/-- `[{"a": [1], "b": <the same list>}, C()]` -/
def increasing : Heap := [.list [.ref 1, .ref 3], .dict [(.str p!"a", .ref 2), (.str p!"b", .ref 2)], .list [.int 1], .inst { cls := p!"m.C", attrs := [(p!"x", .int 1)] }]

/-- the keys increase, so the option changes nothing -/
example (s : PState) : SortKeys.encode (Sample.program.world increasing) {} true 9 (.ref 0) true s = Api.encode (Sample.program.world increasing) {} 9 (.ref 0) true s := by
  obtain ⟨s', hD⟩ : ∃ s', Pickler.flattenTop (Sample.program.world increasing) {} 9 (.ref 0) true {} =
      some (.ok (.arr [.obj [(p!"a", .arr [.int 1]), (p!"b", .obj [(Tags.ID, .int 2)])], .obj [(Tags.OBJECT, .str p!"m.C"), (p!"x", .int 1)]]), s') := by
    have h : Sample.res (Pickler.flattenTop (Sample.program.world increasing) {} 9 (.ref 0) true {}) =
        some (.ok (.arr [.obj [(p!"a", .arr [.int 1]), (p!"b", .obj [(Tags.ID, .int 2)])], .obj [(Tags.OBJECT, .str p!"m.C"), (p!"x", .int 1)]])) := by decide +kernel
    generalize Pickler.flattenTop (Sample.program.world increasing) {} 9 (.ref 0) true {} = r at h
    cases r with
    | none => cases h
    | some r => exact ⟨r.2, by obtain ⟨r1, r2⟩ := r; injection h with h; subst h; rfl⟩
  have hn := nothing_to_sort (Sample.program.world increasing) {} rfl true 9 (.ref 0) s s' _ rfl hD (by
    refine ⟨⟨List.Pairwise.cons (fun b hb => ?_) (List.Pairwise.cons (fun _ h => by cases h) .nil), ⟨⟨trivial, trivial⟩, ⟨List.Pairwise.cons (fun _ h => by cases h) .nil, trivial, trivial⟩, trivial⟩⟩,
      ⟨List.Pairwise.cons (fun b hb => ?_) (List.Pairwise.cons (fun _ h => by cases h) .nil), ⟨trivial, trivial, trivial⟩⟩, trivial⟩
    · simp at hb; subst hb; decide
    · simp at hb; subst hb; decide)
  rw [hn.1, hn.2]

end JP.C67
