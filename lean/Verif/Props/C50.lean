import Verif.KeySpec
import Verif.Proofs.Post
import Verif.Proofs.PLevel
import Verif.Sample
/-!
# C50 — dictionary keys as text (`keys=False`)
-/
namespace JP.C50
open JP PyM Pickler

/-- the names that are not written as keys -/
def names : List Str := [p!"py/bytes", p!"py/bytea", p!"py/function", p!"py/id", p!"py/initargs", p!"py/iterator", p!"py/mod", p!"py/newargs", p!"py/newargsex", p!"py/newobj",
  p!"py/object", p!"py/property", p!"py/reduce", p!"py/default_factory", p!"py/ref", p!"py/repr", p!"py/seq", p!"py/set", p!"py/state", p!"py/tuple", p!"py/type"]

/-- the entry is written: its key is not one of the reserved names, its value is not a function that cannot be found by name -/
def written (kv : Val × Val) : Bool :=
  match kv with
  | (_, .lambda _) => false
  | (.str s, _) => !names.contains s
  | _ => true

/-- the first occurrences -/
def firsts : List Str → List Str → List Str
  | acc, [] => acc
  | acc, k :: r => if k ∈ acc then firsts acc r else firsts (acc ++ [k]) r

/-- the last value with the key `k` -/
def last (k : Str) : List (Str × Json) → Option Json
  | [] => none
  | (k', j) :: r => (last k r).or (if k' = k then some j else none)

variable {w : World} {cfg : PCfg} {fl : Val → P Json}

theorem picklable_eq (kv : Val × Val) : isPicklable kv.1 kv.2 = written kv := by
  obtain ⟨k, v⟩ := kv
  have hn : Tags.RESERVED = names := rfl
  unfold isPicklable written Tags.isReserved
  rw [← hn]
  cases k <;> cases v <;> simp

/-- the writes, in order -/
def writes : List (Str × Json) → List (Str × Json) → List (Str × Json)
  | d, [] => d
  | d, (k, j) :: r => writes (dset k j d) r

theorem writes_keys : ∀ (l d : List (Str × Json)), (writes d l).map (·.1) = firsts (d.map (·.1)) (l.map (·.1))
  | [], _ => rfl
  | (k, j) :: r, d => by
    simp only [writes, writes_keys r, dset_keys, List.map_cons, firsts]
    split <;> rfl

theorem writes_get (k : Str) : ∀ (l d : List (Str × Json)), dget k (writes d l) = (last k l).or (dget k d)
  | [], _ => rfl
  | (k', j) :: r, d => by
    simp only [writes, writes_get k r, last]
    by_cases h : k' = k
    · subst h
      simp only [dget_dset_same, if_true]
      cases last k' r <;> rfl
    · simp only [if_neg h, dget_dset_ne (Ne.symm h)]
      cases last k r <;> rfl

/-- what the entries become -/
theorem entries_writes (hk : cfg.keys = false) : ∀ (kvs : List (Val × Val)) (d d' : List (Str × Json)) (s s' : PState),
    PyM.foldM (fun d (kv : Val × Val) => flattenKeyValuePair w fl kv.1 kv.2 d) d kvs s = some (.ok d', s') →
    ∃ (ws : List (Val × Val)) (ts : List Str) (js : List Json), ws = kvs.filter (fun kv => isPicklable kv.1 kv.2) ∧
      All2 (KeyText w) (ws.map (·.1)) ts ∧ InTurn fl s (ws.map (·.2)) js s' ∧ d' = writes d (ts.zip js)
  | [], d, d', s, s', h => by
    cases h
    exact ⟨[], [], [], rfl, trivial, rfl, rfl⟩
  | kv :: kvs, d, d', s, s', h => by
    simp only [PyM.foldM] at h
    obtain ⟨d1, s1, h1, h2⟩ := bind_eq_ok.1 h
    obtain ⟨ws, ts, js, e1, e2, e3, e4⟩ := entries_writes hk kvs d1 d' s1 s' h2
    unfold flattenKeyValuePair at h1
    by_cases hp : isPicklable kv.1 kv.2 = true
    · rw [if_pos hp] at h1
      obtain ⟨t, s2, h3, h4⟩ := bind_eq_ok.1 h1
      obtain ⟨j, s3, h5, h6⟩ := bind_eq_ok.1 h4
      have ht : reprKey w kv.1 = .ok t := by
        cases hr : reprKey w kv.1 with
        | error e => rw [hr] at h3; cases h3
        | ok t' => rw [hr] at h3; cases h3; rfl
      rw [ht] at h3
      cases h3
      cases h6
      exact ⟨kv :: ws, t :: ts, j :: js, by simp [List.filter_cons, hp, e1], ⟨reprKey_text ht, e2⟩, ⟨_, h5, e3⟩, e4⟩
    · rw [if_neg hp] at h1
      cases h1
      exact ⟨ws, ts, js, by simp [List.filter_cons, hp, e1], e2, e3, e4⟩

theorem itemsExcl_nil (kvs : List (Val × Val)) : itemsExcl [] kvs = kvs := by
  unfold itemsExcl
  rw [List.filter_eq_self]
  intro kv _
  cases kv.1 <;> rfl

theorem length_all2 {α β : Type} {p : α → β → Prop} : ∀ {xs : List α} {ys : List β}, All2 p xs ys → xs.length = ys.length
  | [], [], _ => rfl
  | [], _ :: _, h => h.elim
  | _ :: _, [], h => h.elim
  | _ :: _, _ :: _, h => by simp [length_all2 h.2]

theorem length_inTurn : ∀ {s s' : PState} {vs : List Val} {js : List Json}, InTurn fl s vs js s' → vs.length = js.length
  | _, _, [], [], _ => rfl
  | _, _, [], _ :: _, h => h.elim
  | _, _, _ :: _, [], h => h.elim
  | _, _, _ :: _, _ :: _, ⟨_, _, h⟩ => by simp [length_inTurn h]

/-- A dict that is met for the first time becomes a JSON object with one entry for each text among the texts of the keys of its entries, in the
order of their first occurrences.  The value is what the value of the last entry with that text became: of entries with the same text
all but the last are lost.  Entries under reserved names and functions that cannot be found by name are left out.  (With `fail_safe` the whole dict may be replaced by what the callback returned.) -/
theorem dict_as_text (hk : cfg.keys = false) (a : Addr) (kvs : List (Val × Val)) (ha : w.heap[a]? = some (.dict kvs))
    (n : Nat) (s s' : PState) (hs : New a s) (hd : cfg.maxDepth ≠ some (s.depth + 1)) (j : Json)
    (h : flatten w cfg (n + 1) (.ref a) s = some (.ok j, s')) :
    (∃ (ts : List Str) (js : List Json) (d : List (Str × Json)),
      All2 (KeyText w) ((kvs.filter written).map (·.1)) ts ∧
      (∃ s1 s2, InTurn (flatten w cfg n) s1 ((kvs.filter written).map (·.2)) js s2) ∧
      j = .obj d ∧ d.map (·.1) = firsts [] ts ∧ ∀ k, dget k d = last k (ts.zip js)) ∨ Replaced cfg j := by
  refine (level_dict ha hs hd h).imp (fun ⟨d, s3, h2, hj⟩ => ?_) id
  subst hj
  unfold flattenEntries at h2
  simp only [itemsExcl_nil, hk, Bool.false_eq_true, if_false] at h2
  obtain ⟨ws, ts, js, e1, e2, e3, e4⟩ := entries_writes hk kvs [] d _ _ h2
  have e0 : ws = kvs.filter written := by rw [e1]; congr 1; funext kv; exact picklable_eq kv
  subst e0
  refine ⟨ts, js, d, e2, ⟨_, _, e3⟩, rfl, ?_, ?_⟩
  · rw [e4, writes_keys]
    rw [List.map_fst_zip (by rw [← length_all2 e2, ← length_inTurn e3]; simp)]
    rfl
  · intro k
    rw [e4, writes_get]
    cases last k (ts.zip js) <;> rfl

/-- `{1: "a", None: 2, "1": 3, "py/id": 4}`: the last entry wins, at the place of the first -/
def heap : Heap := [.dict [(.int 1, .str p!"a"), (.none, .int 2), (.str p!"1", .int 3), (.str p!"py/id", .int 4)]]
def world : World := { Sample.world heap with repr := fun v => match v with | .int 1 => .ok p!"1" | _ => .error .valueError }

example : New 0 {} ∧ ({} : PCfg).maxDepth ≠ some (({} : PState).depth + 1) ∧
    Sample.res (flatten world {} 5 (.ref 0) {}) = some (.ok (.obj [(p!"1", .int 3), (p!"null", .int 2)])) := by
  refine ⟨⟨by simp, fun p hp => by cases hp⟩, by decide, by decide +kernel⟩

end JP.C50
