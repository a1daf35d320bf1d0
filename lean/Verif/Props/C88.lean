import Verif.Proofs.UParts
import Verif.Proofs.Run
import Verif.Props.C82
/-!
# C88 — documents without references are decoded part by part

For a document without `py/id`, `restore('[a, b]')` is `[restore('a'), restore('b')]` (`list_value`, `list_error`), and likewise for tuples (`tuple_value`,
`tuple_error`, `tuple_type_error`) and dicts (`dict_value`, `dict_error`): the parts of the result are copies of what each part gives alone, they share nothing,
the same calls are made in the same order, and the exception is that of the first part that raises one.  Nothing waits for replacement and no placeholder is
left (`no_placeholders`).  With references the parts depend on each other (`needs_condition`).
-/
namespace JP.C88
open JP PyM Unpickler
open JP.Unpickler.Parts (Gives Alone Raises Ends EndsD)

/-- the document has an entry `py/id`, possibly (with `keys=True`) inside a key -/
abbrev HasRef := V1.HasRef

theorem part {env : UEnv} {js : List Json} (h : ¬ HasRef env (.arr js)) (j : Json) (hj : j ∈ js) : V1.Free env j := V1.Free.arr h hj

theorem run_of_gives {env : UEnv} {j : Json} {r : Except Exc Val} {s : UState} (h : Gives env j r s) : ∃ n, ∀ m, n ≤ m → restoreTop env m j true {} = some (r, s) := by
  obtain ⟨n, h⟩ := h
  exact ⟨n, fun m hm => restoreTop_mono hm h⟩

/-- Decoding a list without references gives the list of what its elements give. -/
theorem list_value (env : UEnv) (g : env.Globals) (js : List Json) (hj : ¬ HasRef env (.arr js)) (x : Val) (h : Heap) (l : List Event) :
    (∃ u, Gives env (.arr js) (.ok x) u ∧ u.heap = h ∧ u.log = l) ↔ ∃ vs new, Alone (Gives env) 1 0 js vs new l ∧ x = .ref 0 ∧ h = .list vs :: new := by
  constructor
  · rintro ⟨u, hu, rfl, rfl⟩
    obtain ⟨n, hu⟩ := run_of_gives hu
    have hu := hu (n + 1) (Nat.le_succ n)
    obtain ⟨s, s1, s2, s3, s4, he, hr⟩ := Parts.list_run g n js (part hj)
    rw [Parts.top g (n + 1) _ hj, hr] at hu
    match hm : mapM (restore env n) js s, he with
    | none, _ => rw [hm] at hu; cases hu
    | some (.error e, t), _ => rw [hm] at hu; cases hu
    | some (.ok vs, t), he =>
      rw [hm] at hu
      obtain ⟨new, l, a1, a2, a3, _⟩ := he
      obtain ⟨e1, e2⟩ := Prod.mk.inj (Option.some.inj hu)
      cases e1
      subst e2
      rw [s1, s3] at a1
      refine ⟨vs, new, ?_, rfl, ?_⟩
      · rw [show ({ ({ t with heap := t.heap.set 0 (.list vs) } : UState) with proxies := [] } : UState).log = t.log from rfl, a3, s2]
        exact a1.imp Parts.gives_of_run
      · change t.heap.set 0 (.list vs) = _
        rw [a2, s1]
        rfl
  · rintro ⟨vs, new, a, rfl, rfl⟩
    obtain ⟨n, a⟩ := a.bound
    obtain ⟨s, s1, s2, s3, s4, he, hr⟩ := Parts.list_run g n js (part hj)
    match hm : mapM (restore env n) js s, he with
    | none, he => exact (Parts.alone_hangs a he).elim
    | some (.error e, t), he => exact (Parts.alone_raises a he).elim
    | some (.ok vs', t), he =>
      obtain ⟨new', l', a1, a2, a3, _⟩ := he
      rw [s1, s3] at a1
      obtain ⟨rfl, rfl, rfl⟩ := a.unique a1
      rw [hm] at hr
      refine ⟨_, ⟨n + 1, by rw [Parts.top g (n + 1) _ hj, hr]; rfl⟩, ?_, ?_⟩
      · change t.heap.set 0 (.list vs) = _
        rw [a2, s1]
        rfl
      · change t.log = _
        rw [a3, s2]
        rfl

/-- Decoding a list without references raises what the first element that raises an exception raises. -/
theorem list_error (env : UEnv) (g : env.Globals) (js : List Json) (hj : ¬ HasRef env (.arr js)) (e : Exc) :
    (∃ u, Gives env (.arr js) (.error e) u) ↔ Raises (Gives env) js e := by
  constructor
  · rintro ⟨u, hu⟩
    obtain ⟨n, hu⟩ := run_of_gives hu
    have hu := hu (n + 1) (Nat.le_succ n)
    obtain ⟨s, s1, s2, s3, s4, he, hr⟩ := Parts.list_run g n js (part hj)
    rw [Parts.top g (n + 1) _ hj, hr] at hu
    match hm : mapM (restore env n) js s, he with
    | none, _ => rw [hm] at hu; cases hu
    | some (.ok vs, t), _ => rw [hm] at hu; cases hu
    | some (.error e', t), he =>
      rw [hm] at hu
      obtain ⟨e1, e2⟩ := Prod.mk.inj (Option.some.inj hu)
      cases e1
      exact Parts.Raises.imp Parts.gives_of_run he
  · intro a
    obtain ⟨n, a⟩ := a.bound
    obtain ⟨s, s1, s2, s3, s4, he, hr⟩ := Parts.list_run g n js (part hj)
    match hm : mapM (restore env n) js s, he with
    | none, he => exact (Parts.raises_hangs a he).elim
    | some (.ok vs', t), he =>
      obtain ⟨new', l', a1, _⟩ := he
      exact (Parts.alone_raises a1 a).elim
    | some (.error e', t), he =>
      cases Parts.raises_unique a he
      rw [hm] at hr
      exact ⟨_, n + 1, by rw [Parts.top g (n + 1) _ hj, hr]; rfl⟩

/-- `{"py/tuple": js}` -/
def tupleDoc (js : List Json) : Json := .obj [(p!"py/tuple", .arr js)]

theorem part_tuple {env : UEnv} {js : List Json} (h : ¬ HasRef env (tupleDoc js)) (j : Json) (hj : j ∈ js) : V1.Free env j :=
  V1.Free.arr (V1.Free.value h (List.mem_cons_self)) hj

/-- the run of a tuple -/
theorem tuple_run (env : UEnv) (n : Nat) (js : List Json) :
    restore env (n + 1) (tupleDoc js) {} = match mapM (restore env n) js {} with
      | none => none
      | some (.ok vs, t) => some (.ok (.tuple (t.nextId + 1) vs), { t with nextId := t.nextId + 1 })
      | some (.error e, t) => if e = .typeError then some (.ok (.tuple (t.nextId + 1) []), { t with nextId := t.nextId + 1 }) else some (.error e, t) := by
  have h0 : restore env (n + 1) (tupleDoc js) {} = (PyM.tryCatch (mapM (restore env n) js) (· == .typeError) (fun _ => Pure.pure []) >>= fun vs => fresh >>= fun k =>
      Pure.pure (Val.tuple k vs)) {} := rfl
  rw [h0, bind_run]
  unfold PyM.tryCatch
  match mapM (restore env n) js {} with
  | none => rfl
  | some (.ok vs, t) => rfl
  | some (.error e, t) => cases e <;> rfl

/-- Decoding a tuple whose elements raise no `TypeError` gives the tuple of what its elements give. -/
theorem tuple_value (env : UEnv) (g : env.Globals) (js : List Json) (hj : ¬ HasRef env (tupleDoc js)) (ht : ¬ Raises (Gives env) js .typeError)
    (vs : List Val) (h : Heap) (l : List Event) :
    (∃ u k, Gives env (tupleDoc js) (.ok (.tuple k vs)) u ∧ u.heap = h ∧ u.log = l) ↔ Alone (Gives env) 0 0 js vs h l := by
  constructor
  · rintro ⟨u, k, hu, rfl, rfl⟩
    obtain ⟨n, hu⟩ := run_of_gives hu
    have hu := hu (n + 1) (Nat.le_succ n)
    have he := Parts.seq g n js (part_tuple hj) {} Parts.tidy_empty
    rw [Parts.top g (n + 1) _ hj, tuple_run] at hu
    match hm : mapM (restore env n) js {}, he with
    | none, _ => rw [hm] at hu; cases hu
    | some (.error e, t), he =>
      have he := Parts.Raises.imp Parts.gives_of_run he
      rw [hm] at hu
      dsimp only at hu
      split at hu
      · next h => subst h; exact absurd he ht
      · cases hu
    | some (.ok vs, t), he =>
      rw [hm] at hu
      obtain ⟨new, l, a1, a2, a3, _⟩ := he
      obtain ⟨e1, e2⟩ := Prod.mk.inj (Option.some.inj hu)
      cases e1
      subst e2
      change Alone _ 0 0 js vs t.heap t.log
      rw [a2, a3]
      exact a1.imp Parts.gives_of_run
  · intro a
    obtain ⟨n, a⟩ := a.bound
    have he := Parts.seq g n js (part_tuple hj) {} Parts.tidy_empty
    have hr := tuple_run env n js
    match hm : mapM (restore env n) js {}, he with
    | none, he => exact (Parts.alone_hangs a he).elim
    | some (.error e, t), he => exact (Parts.alone_raises a he).elim
    | some (.ok vs', t), he =>
      obtain ⟨new', l', a1, a2, a3, _⟩ := he
      obtain ⟨rfl, rfl, rfl⟩ := a.unique a1
      rw [hm] at hr
      exact ⟨{ t with nextId := t.nextId + 1, proxies := [] }, t.nextId + 1, ⟨n + 1, by rw [Parts.top g (n + 1) _ hj, hr]; rfl⟩, a2, a3⟩

/-- Decoding a tuple raises what the first element that raises an exception raises, unless this is a `TypeError` … -/
theorem tuple_error (env : UEnv) (g : env.Globals) (js : List Json) (hj : ¬ HasRef env (tupleDoc js)) (e : Exc) :
    (∃ u, Gives env (tupleDoc js) (.error e) u) ↔ Raises (Gives env) js e ∧ e ≠ .typeError := by
  constructor
  · rintro ⟨u, hu⟩
    obtain ⟨n, hu⟩ := run_of_gives hu
    have hu := hu (n + 1) (Nat.le_succ n)
    have he := Parts.seq g n js (part_tuple hj) {} Parts.tidy_empty
    rw [Parts.top g (n + 1) _ hj, tuple_run] at hu
    match hm : mapM (restore env n) js {}, he with
    | none, _ => rw [hm] at hu; cases hu
    | some (.ok vs, t), _ => rw [hm] at hu; cases hu
    | some (.error e', t), he =>
      have he := Parts.Raises.imp Parts.gives_of_run he
      rw [hm] at hu
      dsimp only at hu
      split at hu
      · cases hu
      · next h =>
        obtain ⟨e1, e2⟩ := Prod.mk.inj (Option.some.inj hu)
        cases e1
        exact ⟨he, h⟩
  · rintro ⟨a, hne⟩
    obtain ⟨n, a⟩ := a.bound
    have he := Parts.seq g n js (part_tuple hj) {} Parts.tidy_empty
    have hr := tuple_run env n js
    match hm : mapM (restore env n) js {}, he with
    | none, he => exact (Parts.raises_hangs a he).elim
    | some (.ok vs', t), he =>
      obtain ⟨new', l', a1, _⟩ := he
      exact (Parts.alone_raises a1 a).elim
    | some (.error e', t), he =>
      cases Parts.raises_unique a he
      rw [hm] at hr
      simp only [hne, if_false] at hr
      exact ⟨_, n + 1, by rw [Parts.top g (n + 1) _ hj, hr]; rfl⟩

/-- … in which case the result is the empty tuple. -/
theorem tuple_type_error (env : UEnv) (g : env.Globals) (js : List Json) (hj : ¬ HasRef env (tupleDoc js)) (h : Raises (Gives env) js .typeError) :
    ∃ u k, Gives env (tupleDoc js) (.ok (.tuple k [])) u := by
  obtain ⟨n, a⟩ := h.bound
  have he := Parts.seq g n js (part_tuple hj) {} Parts.tidy_empty
  have hr := tuple_run env n js
  match hm : mapM (restore env n) js {}, he with
  | none, he => exact (Parts.raises_hangs a he).elim
  | some (.ok vs', t), he =>
    obtain ⟨new', l', a1, _⟩ := he
    exact (Parts.alone_raises a1 a).elim
  | some (.error e', t), he =>
    cases Parts.raises_unique a he
    rw [hm] at hr
    exact ⟨_, _, n + 1, by rw [Parts.top g (n + 1) _ hj, hr]; rfl⟩

/-- a dict: distinct keys, none of them a tag or (with `keys=True`) an encoded key -/
structure PlainDict (env : UEnv) (kvs : List (Str × Json)) : Prop where
  distinct : (kvs.map (·.1)).Nodup
  untagged : ∀ k ∈ kvs.map (·.1), k ∉ wireTags
  noKey : env.keys = true → ∀ k ∈ kvs.map (·.1), ¬ p!"json://" <+: k

theorem PlainDict.tagOf {env : UEnv} {kvs : List (Str × Json)} (h : PlainDict env kvs) : tagOf kvs = none :=
  tagOf_untagged (fun _ hkv hw => h.untagged _ (List.mem_map_of_mem hkv) hw)

theorem PlainDict.keys {env : UEnv} {kvs : List (Str × Json)} (h : PlainDict env kvs) (he : env.keys = true) : ∀ kv ∈ kvs, isJsonKey kv.1 = false := fun kv hkv => by
  cases hb : isJsonKey kv.1 with
  | false => rfl
  | true => exact absurd (List.isPrefixOf_iff_prefix.1 hb) (h.noKey he _ (List.mem_map_of_mem hkv))

/-- Decoding a dict without references gives the dict of what its values give. -/
theorem dict_value (env : UEnv) (g : env.Globals) (kvs : List (Str × Json)) (hp : PlainDict env kvs) (hj : ¬ HasRef env (.obj kvs)) (x : Val) (h : Heap) (l : List Event) :
    (∃ u, Gives env (.obj kvs) (.ok x) u ∧ u.heap = h ∧ u.log = l) ↔
      ∃ vs new, Alone (Gives env) 1 0 (kvs.map (·.2)) vs new l ∧ x = .ref 0 ∧ h = .dict ((kvs.zip vs).map (fun p => (.str p.1.1, p.2))) :: new := by
  have zip : ∀ (kvs : List (Str × Json)) (vs : List Val), Pickler.asItems ([] ++ (kvs.map (·.1)).zip vs) = (kvs.zip vs).map (fun p => (.str p.1.1, p.2)) := by
    intro kvs
    induction kvs with
    | nil => intro vs; rfl
    | cons kv kvs ih =>
      intro vs
      cases vs with
      | nil => rfl
      | cons v vs => exact congrArg (_ :: ·) (ih vs)
  obtain ⟨d1, d2, d3, d4⟩ := Parts.dictStart_heap env
  constructor
  · rintro ⟨u, hu, rfl, rfl⟩
    obtain ⟨n, hu⟩ := run_of_gives hu
    have hu := hu (n + 1) (Nat.le_succ n)
    obtain ⟨m, he, hr⟩ := Parts.dict_run g n kvs (fun kv hkv => V1.Free.value hj hkv) hp.distinct hp.tagOf hp.keys
    rw [Parts.top g (n + 1) _ hj, hr] at hu
    match m, he with
    | none, _ => cases hu
    | some (.error e, t), _ => cases hu
    | some (.ok us, t), he =>
      obtain ⟨vs, new, l, a1, a2, a3, _⟩ := he
      obtain ⟨e1, e2⟩ := Prod.mk.inj (Option.some.inj hu)
      cases e1
      subst e2
      rw [d1, d3] at a1
      refine ⟨vs, new, ?_, rfl, ?_⟩
      · change Alone _ _ _ _ _ _ t.log
        rw [a3, d2]
        exact a1.imp Parts.gives_of_run
      · change t.heap = _
        rw [a2, zip]
        rfl
  · rintro ⟨vs, new, a, rfl, rfl⟩
    obtain ⟨n, a⟩ := a.bound
    obtain ⟨m, he, hr⟩ := Parts.dict_run g n kvs (fun kv hkv => V1.Free.value hj hkv) hp.distinct hp.tagOf hp.keys
    match m, he with
    | none, he => exact (Parts.alone_hangs a he).elim
    | some (.error e, t), he => exact (Parts.alone_raises a he).elim
    | some (.ok us, t), he =>
      obtain ⟨vs', new', l', a1, a2, a3, _⟩ := he
      rw [d1, d3] at a1
      obtain ⟨rfl, rfl, rfl⟩ := a.unique a1
      refine ⟨_, ⟨n + 1, by rw [Parts.top g (n + 1) _ hj, hr]; rfl⟩, ?_, ?_⟩
      · change t.heap = _
        rw [a2, zip]
        rfl
      · change t.log = _
        rw [a3, d2]
        rfl

/-- Decoding a dict without references raises what the first value that raises an exception raises. -/
theorem dict_error (env : UEnv) (g : env.Globals) (kvs : List (Str × Json)) (hp : PlainDict env kvs) (hj : ¬ HasRef env (.obj kvs)) (e : Exc) :
    (∃ u, Gives env (.obj kvs) (.error e) u) ↔ Raises (Gives env) (kvs.map (·.2)) e := by
  constructor
  · rintro ⟨u, hu⟩
    obtain ⟨n, hu⟩ := run_of_gives hu
    have hu := hu (n + 1) (Nat.le_succ n)
    obtain ⟨m, he, hr⟩ := Parts.dict_run g n kvs (fun kv hkv => V1.Free.value hj hkv) hp.distinct hp.tagOf hp.keys
    rw [Parts.top g (n + 1) _ hj, hr] at hu
    match m, he with
    | none, _ => cases hu
    | some (.ok us, t), _ => cases hu
    | some (.error e', t), he =>
      obtain ⟨e1, e2⟩ := Prod.mk.inj (Option.some.inj hu)
      cases e1
      exact Parts.Raises.imp Parts.gives_of_run he
  · intro a
    obtain ⟨n, a⟩ := a.bound
    obtain ⟨m, he, hr⟩ := Parts.dict_run g n kvs (fun kv hkv => V1.Free.value hj hkv) hp.distinct hp.tagOf hp.keys
    match m, he with
    | none, he => exact (Parts.raises_hangs a he).elim
    | some (.ok us, t), he =>
      obtain ⟨vs', new', l', a1, _⟩ := he
      exact (Parts.alone_raises a1 a).elim
    | some (.error e', t), he =>
      cases Parts.raises_unique a he
      exact ⟨_, n + 1, by rw [Parts.top g (n + 1) _ hj, hr]; rfl⟩

/-- not a placeholder -/
def Solid (h : Heap) (v : Val) : Prop := ∀ a, v = .ref a → ∃ o, h[a]? = some o ∧ (∀ w, o ≠ .proxy w) ∧ ∀ i, o ≠ .idproxy i

theorem solid_of_sol {h : Heap} {v : Val} (s : Quiet.Sol h v) : Solid h v := fun a ha => by
  obtain ⟨k, h1, h2, h3⟩ := s a ha
  unfold V1.kindAt at h1
  cases ho : h[a]? with
  | none => rw [ho] at h1; cases h1
  | some o =>
    rw [ho] at h1
    refine ⟨o, rfl, fun w e => ?_, fun i e => ?_⟩
    · subst e; exact h2 (Option.some.inj h1).symm
    · subst e; exact h3 (Option.some.inj h1).symm

/-- What decoding a document without references gives holds no placeholder: not the value, no element of a list, no value of a dict, no attribute, item or default
factory of an instance. -/
theorem no_placeholders (env : UEnv) (g : env.Globals) (j : Json) (hj : ¬ HasRef env j) (x : Val) (u : UState) (h : Gives env j (.ok x) u) :
    Solid u.heap x ∧ (∀ (a : Addr) vs, u.heap[a]? = some (.list vs) → ∀ v ∈ vs, Solid u.heap v) ∧
      (∀ (a : Addr) es, u.heap[a]? = some (.dict es) → ∀ k v, (k, v) ∈ es → Solid u.heap v) ∧
      ∀ (a : Addr) i, u.heap[a]? = some (.inst i) → (∀ k v, (k, v) ∈ i.items → Solid u.heap v) ∧ (∀ k v, dget k i.attrs = some v → Solid u.heap v) ∧
        ∀ v, i.factory = some v → Solid u.heap v := by
  obtain ⟨n, h⟩ := h
  rw [Parts.top g n _ hj] at h
  obtain ⟨⟨r, t⟩, ht, e⟩ := Option.map_eq_some_iff.1 h
  obtain ⟨e1, e2⟩ := Prod.mk.inj e
  dsimp only at e1 e2
  subst e1 e2
  obtain ⟨q1, _, _, q4⟩ := Quiet.keeps_restore g n j hj {} Parts.tidy_empty.cells _ _ ht
  refine ⟨solid_of_sol (q4 _ rfl), fun a vs ha v hv => solid_of_sol (q1 a _ ha v hv), fun a es ha k v hv => solid_of_sol (q1 a _ ha k v hv), fun a i ha => ?_⟩
  obtain ⟨c1, c2, c3⟩ := q1 a _ ha
  exact ⟨fun k v hv => solid_of_sol (c1 k v hv), fun k v hv => solid_of_sol (c2 k v hv), fun v hv => solid_of_sol (c3 v hv)⟩

theorem gives_unique {env : UEnv} {j : Json} {r r' : Except Exc Val} {s s' : UState} (h : Gives env j r s) (h' : Gives env j r' s') : r = r' ∧ s = s' := by
  obtain ⟨n, h⟩ := run_of_gives h
  obtain ⟨m, h'⟩ := run_of_gives h'
  exact Prod.mk.inj (Option.some.inj ((h _ (Nat.le_max_left n m)).symm.trans (h' _ (Nat.le_max_right n m))))

/-! ### examples -/

/-- `[[1], {"py/object": "m.C", "a": [2]}, {"py/tuple": [3, {"py/type": "m.C"}]}, {"k": [4]}]` -/
def parts : List Json := [.arr [.int 1], .obj [(p!"py/object", .str p!"m.C"), (p!"a", .arr [.int 2])],
  .obj [(p!"py/tuple", .arr [.int 3, .obj [(p!"py/type", .str p!"m.C")]])], .obj [(p!"k", .arr [.int 4])]]

example : ¬ HasRef C10.env (.arr parts) := C82.keys_of_mem rfl (by decide +kernel)
example : ¬ HasRef C10.env (tupleDoc parts) := C82.keys_of_mem rfl (by decide +kernel)

/-- what a run gives, in a form that can be compared -/
def seen (p : Option (Except Exc Val × UState)) : Option (Except Exc Val × List Sample.View × List Event) := p.map (fun p => (p.1, p.2.heap.map Sample.view, p.2.log))

/-- The instance, which is in cell 1 when decoded alone (behind its placeholder), is in cell 3 = 2 + 1; its list in cell 4 = 2 + 2. -/
example : seen (restoreTop C10.env 9 (.obj [(p!"py/object", .str p!"m.C"), (p!"a", .arr [.int 2])]) true {}) =
    some (.ok (.ref 1), [.proxy, .inst p!"m.C" [(p!"a", .ref 2)] [] [], .list [.int 2]], [.imp p!"m.C", .obj p!"m.C", .call p!"m.C"]) ∧
  seen (restoreTop C10.env 9 (.arr parts) true {}) =
    some (.ok (.ref 0), [.list [.ref 1, .ref 3, .tuple 1 [.int 3, .type p!"m.C"], .ref 5], .list [.int 1], .proxy, .inst p!"m.C" [(p!"a", .ref 4)] [] [],
      .list [.int 2], .dict [(.str p!"k", .ref 6)], .list [.int 4]], [.imp p!"m.C", .obj p!"m.C", .call p!"m.C", .imp p!"m.C"]) := by decide +kernel

/-- The second part raises: so does the list, and the tuple is empty. -/
def broken : List Json := [.arr [.int 1], .obj [(p!"py/bytea", .int 5)], .arr []]

example : Raises (Gives C10.env) broken .typeError := ⟨[.arr [.int 1]], _, _, rfl, (fun i hi => by
  cases hi with
  | head => exact ⟨.ref 0, { heap := [.list [.int 1]], objs := [.ref 0], idx := [(.addr 0, 0)] }, 2, rfl⟩
  | tail _ h => cases h), {}, 1, rfl⟩

example : ¬ HasRef C10.env (tupleDoc broken) ∧ seen (restoreTop C10.env 9 (.arr broken) true {}) = some (.error .typeError, [.list [], .list [.int 1]], []) ∧
    seen (restoreTop C10.env 9 (tupleDoc broken) true {}) = some (.ok (.tuple 1 []), [.list [.int 1]], []) :=
  ⟨C82.keys_of_mem rfl (by decide +kernel), by decide +kernel, by decide +kernel⟩

/-- `{"a": [1], "b": {"py/type": "m.C"}}` -/
def dict : List (Str × Json) := [(p!"a", .arr [.int 1]), (p!"b", .obj [(p!"py/type", .str p!"m.C")])]

example : PlainDict C10.env dict ∧ ¬ HasRef C10.env (.obj dict) ∧
    seen (restoreTop C10.env 9 (.obj dict) true {}) = some (.ok (.ref 0), [.dict [(.str p!"a", .ref 1), (.str p!"b", .type p!"m.C")], .list [.int 1]], [.imp p!"m.C"]) :=
  ⟨⟨by decide +kernel, by decide +kernel, (fun h => by cases h)⟩, C82.keys_of_mem rfl (by decide +kernel), by decide +kernel⟩

/-- With a reference the parts are not independent: in `[[], {"py/id": 1}]` the second element is the first one (numbers count from the list itself, 0),
decoded alone it is a placeholder. -/
theorem needs_condition : ∃ u, Gives C10.env (.arr [.arr [], .obj [(p!"py/id", .int 1)]]) (.ok (.ref 0)) u ∧
    ¬ ∃ vs new l, Alone (Gives C10.env) 1 0 [.arr [], .obj [(p!"py/id", .int 1)]] vs new l ∧ u.heap = .list vs :: new := by
  refine ⟨_, ⟨9, rfl⟩, ?_⟩
  rintro ⟨vs, new, l, a, h⟩
  cases a with
  | cons h1 a => cases a with
    | cons h2 a =>
      obtain ⟨_, rfl⟩ := gives_unique h1 ⟨9, rfl⟩
      obtain ⟨_, rfl⟩ := gives_unique h2 ⟨9, rfl⟩
      have h := congrArg List.length h
      simp only [List.length_cons, List.length_append, List.length_map] at h
      revert h
      cases a
      exact fun h => absurd h (by decide +kernel)

example : seen (restoreTop C10.env 9 (.arr [.arr [], .obj [(p!"py/id", .int 1)]]) true {}) = some (.ok (.ref 0), [.list [.ref 1, .ref 1], .list []], []) ∧
    seen (restoreTop C10.env 9 (.obj [(p!"py/id", .int 1)]) true {}) = some (.ok (.ref 0), [.proxy], []) := by decide +kernel

end JP.C88
