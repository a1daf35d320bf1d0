import Verif.Proofs.UPrune
import Verif.ApiSpec
import Verif.Sample
/-!
# C59 — what `decode` reads
-/
namespace JP.C59
open JP PyM Unpickler Unpickler.Pruning

/-- Two texts whose documents agree once the entries that are not read are left out are decoded alike: the same object, the same exception,
the same imports, calls and evaluations. -/
theorem unread {env : UEnv} {t t' : Str} {j j' : Json} (h : env.loads t = some j) (h' : env.loads t' = some j')
    (e : prune env j = prune env j') (n : Nat) (reset own : Bool) :
    Api.decode env n t reset own = Api.decode env n t' reset own := by
  have : restore env n j = restore env n j' := by rw [← restore_prune n j, ← restore_prune n j', e]
  unfold Api.decode
  rw [h, h']
  dsimp only
  unfold restoreTop
  rw [this]

/-- The pruned document is decoded as the document itself. -/
theorem pruned {env : UEnv} {t t' : Str} {j : Json} (h : env.loads t = some j) (h' : env.loads t' = some (prune env j))
    (n : Nat) (reset own : Bool) : Api.decode env n t reset own = Api.decode env n t' reset own := by
  unfold Api.decode
  rw [h, h']
  dsimp only
  unfold restoreTop
  rw [restore_prune n j]

/-- What the entry `py/property` of an instance holds makes no difference, nor does it matter whether there is one. -/
theorem property_unread {env : UEnv} {pre post : List (Str × Json)} {x : Json} {c : Str}
    (ht : tagOf (pre ++ post) = some (p!"py/object", .str c))
    (hh : env.handler c = none) (hc : env.loadclass c ≠ none) (hb : (env.classInfo c).blankOk = true) :
    prune env (.obj (pre ++ (p!"py/property", x) :: post)) = prune env (.obj (pre ++ post)) := by
  have hg : ∀ t, t ≠ p!"py/property" → dget t (pre ++ (p!"py/property", x) :: post) = dget t (pre ++ post) := by
    intro t h
    rw [dget_append, dget_append, dget_cons, if_neg (fun e => h e.symm)]
  have ht' : tagOf (pre ++ (p!"py/property", x) :: post) = some (p!"py/object", .str c) := by
    rw [← ht]
    unfold tagOf wireTags
    simp only [List.findSome?]
    repeat rw [hg _ (by decide)]
  have hk : ∀ kvs, tagOf kvs = some (p!"py/object", .str c) → keptWhole env kvs = false := by
    intro kvs h
    unfold keptWhole
    rw [h]
    dsimp only
    rw [if_pos rfl, hh, hb]
    cases he : env.loadclass c with
    | none => exact absurd he hc
    | some _ => rfl
  have hm : ∀ t, t ≠ p!"py/property" → mentions t (pre ++ (p!"py/property", x) :: post) = mentions t (pre ++ post) := by
    intro t h
    rw [mentions_dhas, mentions_dhas]
    unfold dhas
    rw [hg t h]
  have hr : reads env (pre ++ (p!"py/property", x) :: post) = reads env (pre ++ post) := by
    funext k
    unfold reads
    rw [ht, ht']
    dsimp only
    rw [if_pos rfl, if_pos rfl]
    unfold readsObject
    rw [hm p!"py/newargsex" (by decide), hm p!"py/newargs" (by decide), hm p!"py/initargs" (by decide)]
  rw [prune, prune, hk _ ht, hk _ ht', hr, pruneKvs_map, pruneKvs_map]
  simp only [Bool.false_eq_true, if_false, List.map_append, List.map_cons, List.filter_append, List.filter_cons]
  have hf : reads env (pre ++ post) p!"py/property" = false := by
    unfold reads
    rw [ht]
    dsimp only
    rw [if_pos rfl]
    unfold readsObject
    rw [if_neg (by decide), if_neg (by decide), if_neg (by decide)]
    split
    · rw [show decide (p!"py/property" = p!"py/seq") = false from by decide]; rfl
    · rw [if_neg (by decide), if_neg (by decide)]; decide
  rw [hf]
  rfl

/-! ### named tuples of old documents -/

/-- the value of a number, string, constant -/
def atom : Json → Option Val
  | .null => some .none
  | .bool b => some (.bool b)
  | .int i => some (.int i)
  | .float f => some (.float f)
  | .str s => some (.str s)
  | _ => none

theorem restore_atom {env : UEnv} {n : Nat} {j : Json} {v : Val} (h : atom j = some v) : restore env (n + 1) j = pure v := by
  cases j <;> cases h <;> rfl

theorem mapM_atoms {env : UEnv} {n : Nat} : ∀ {xs : List Json} {vs : List Val}, xs.map atom = vs.map some →
    PyM.mapM (restore env (n + 1)) xs = (pure vs : U (List Val))
  | [], [], _ => rfl
  | [], _ :: _, h => by cases h
  | _ :: _, [], h => by cases h
  | x :: xs, v :: vs, h => by
    rw [List.map_cons, List.map_cons] at h
    injection h with h1 h2
    rw [mapM_cons, restore_atom h1, mapM_atoms h2]
    rfl

theorem noteList_atoms {a : Addr} {s : UState} : ∀ {xs : List Json} {vs : List Val} {k : Nat}, xs.map atom = vs.map some →
    noteList a k vs s = some (.ok (), s)
  | [], [], _, _ => rfl
  | [], _ :: _, _, h => by cases h
  | _ :: _, [], _, h => by cases h
  | x :: xs, v :: vs, k, h => by
    rw [List.map_cons, List.map_cons] at h
    injection h with h1 h2
    have hp : proxyAddr s.heap v = none := by cases x <;> cases h1 <;> rfl
    unfold noteList
    rw [bind_ok (a := ()) (s' := s) (by unfold noteProxy; rw [modify_run, hp])]
    exact noteList_atoms h2

theorem restoreList_ok (rs : Json → U Val) (xs : List Json) : restoreList rs (.ok xs) = (do
    let a ← alloc (.list [])
    let _ ← mkref (.ref a)
    let vs ← PyM.mapM rs xs
    setCell a (.list vs)
    noteList a 0 vs
    pure a) := rfl

/-- the state with one registered placeholder -/
def begun (u : UState) (l : List Event) : UState :=
  { u with heap := u.heap ++ [.proxy none], objs := [.ref u.heap.length], idx := [(.addr u.heap.length, 0)], proxies := [], log := l }

/-- the arguments that a list of such values denotes -/
theorem restoreArg_atoms {env : UEnv} {n : Nat} {xs : List Json} {vs : List Val} (hx : xs.map atom = vs.map some) (u : UState) (l : List Event) :
    ∃ x u', restoreArg (restore env (n + 2)) (.arr xs) (begun u l) = some (.ok x, u') ∧ starArgs u'.heap x = some vs ∧
      idxGet (.addr u.heap.length) u'.idx = some 0 ∧ u'.proxies = [] ∧ u.heap.length < u'.heap.length := by
  cases xs with
  | nil =>
    cases vs with
    | cons _ _ => cases hx
    | nil =>
      refine ⟨.tuple 0 [], _, rfl, rfl, ?_, rfl, by simp [begun]⟩
      simp [idxGet, begun]
  | cons x xs =>
    have hm := mapM_atoms (env := env) (n := n) hx
    let h : Heap := u.heap ++ [.proxy none]
    have hlen : h.length = u.heap.length + 1 := by simp [h]
    have hid : ∀ v, idxGet (.addr h.length) [(.addr u.heap.length, v)] = none := by
      intro v
      unfold idxGet
      rw [List.find?_cons_of_neg]
      · rfl
      · simp [hlen]
    refine ⟨.ref h.length, { u with heap := h ++ [.list vs], objs := [.ref u.heap.length] ++ [.ref h.length], idx := [(.addr u.heap.length, 0)] ++ [(.addr h.length, 1)], proxies := [], log := l }, ?_, ?_, ?_, rfl, by simp [h]⟩
    · unfold restoreArg
      rw [if_pos (by rfl)]
      show (restoreList (restore env (n + 1)) (.ok (x :: xs)) >>= fun a => (pure (Val.ref a) : U Val)) _ = _
      refine bind_ok (a := h.length) ?_
      unfold restoreList
      rw [bind_ok (a := h.length) (s' := { u with heap := h ++ [.list []], objs := [.ref u.heap.length], idx := [(.addr u.heap.length, 0)], proxies := [], log := l }) rfl]
      rw [bind_ok (a := Val.ref h.length) (s' := { u with heap := h ++ [.list []], objs := [.ref u.heap.length] ++ [.ref h.length], idx := [(.addr u.heap.length, 0)] ++ [(.addr h.length, 1)], proxies := [], log := l })
        (by unfold mkref; rw [show (Val.ref h.length).ident = .addr h.length from rfl]; dsimp only; rw [hid]; rfl)]
      rw [bind_ok (a := x :: xs) rfl, hm, bind_ok (a := vs) rfl]
      rw [bind_ok (a := ()) (s' := { u with heap := h ++ [.list vs], objs := [.ref u.heap.length] ++ [.ref h.length], idx := [(.addr u.heap.length, 0)] ++ [(.addr h.length, 1)], proxies := [], log := l })
        (by unfold setCell; rw [modify_run]; simp)]
      rw [bind_ok (noteList_atoms hx)]
      rfl
    · unfold starArgs
      dsimp only
      rw [List.getElem?_append_right (Nat.le_refl _)]
      simp
    · simp [idxGet]

/-- An instance of a tuple class with `_fields`, written as in old documents without constructor arguments: the elements are the arguments
if there are as many as there are fields, and are not used otherwise. -/
theorem fields {env : UEnv} {t c : Str} {xs : List Json} {vs : List Val} {k : Nat}
    (hl : env.loads t = some (.obj [(p!"py/object", .str c), (p!"py/seq", .arr xs)]))
    (hc : env.loadclass c = some (.type c)) (hh : env.handler c = none)
    (hb : (env.classInfo c).base = .tuple) (hf : (env.classInfo c).numFields = some k)
    (hn : (env.classInfo c).newAccepts (if xs.length = k then k else 0) = true)
    (hx : xs.map atom = vs.map some) (u : UState) :
    ∃ a u' i, Decodes env t u (.ref a) u' ∧ u'.heap[a]? = some (.inst i) ∧ i.cls = c ∧
      i.elems = if xs.length = k then vs else [] := by
  obtain ⟨ys, ws, hy, hw, e1, e2⟩ : ∃ ys ws, (if xs.length = k then xs else []) = ys ∧ (if xs.length = k then vs else []) = ws ∧
      ys.map atom = ws.map some ∧ ws.length = if xs.length = k then k else 0 := by
    have hlen : xs.length = vs.length := by have := congrArg List.length hx; simpa using this
    by_cases he : xs.length = k
    · refine ⟨xs, vs, if_pos he, if_pos he, hx, ?_⟩
      rw [if_pos he, ← he, hlen]
    · refine ⟨[], [], if_neg he, if_neg he, rfl, ?_⟩
      rw [if_neg he]; rfl
  rw [hw]
  have harg := fun n => restoreArg_atoms (env := env) (n := n) e1 u (u.log ++ [.imp c] ++ [.obj c] ++ [.imp c])
  obtain ⟨x, u1, hr, hs, hi, hp, hlt⟩ := harg 0
  have hdet : ∀ n, restoreArg (restore env (n + 2)) (.arr ys) (begun u (u.log ++ [.imp c] ++ [.obj c] ++ [.imp c])) = some (.ok x, u1) := by
    intro n
    rw [← hr]
    unfold restoreArg
    split
    · show (restoreList (restore env (n + 1)) (.ok ys) >>= fun a => (pure (Val.ref a) : U Val)) _ = (restoreList (restore env (0 + 1)) (.ok ys) >>= fun a => (pure (Val.ref a) : U Val)) _
      rw [restoreList_ok, restoreList_ok, mapM_atoms e1, mapM_atoms e1]
    · rfl
  have hinst : ∃ i, construct u1.heap c (env.classInfo c) .none x (.tuple 0 []) = some i ∧ i.cls = c ∧ i.info = env.classInfo c ∧ i.elems = ws := by
    unfold construct
    rw [hs]
    simp only [truthy, Bool.false_eq_true, if_false]
    rw [e2, hn]
    simp only [kwOk, Bool.and_true, if_true]
    refine ⟨_, rfl, rfl, rfl, ?_⟩
    simp only [hb, beq_self_eq_true, if_true]
    unfold tupleElems
    rw [hf]
  obtain ⟨i, hci, hic, hii, hie⟩ := hinst
  let u2 : UState := { u1 with heap := (u1.heap ++ [Obj.inst i]).set u.heap.length (.proxy (some (.ref u1.heap.length))), idx := (u1.idx.filter (fun q => q.1 != .addr u.heap.length && q.1 != .addr u1.heap.length)) ++ [(.addr u1.heap.length, 0)], objs := u1.objs.set 0 (.ref u1.heap.length), log := u1.log ++ [.call c] }
  refine ⟨u1.heap.length, { u2 with objs := [], idx := [], proxies := [] }, i, ⟨4, ?_⟩, ?_, hic, hie⟩
  · intro m hm
    obtain ⟨n, rfl⟩ : ∃ n, m = n + 3 := ⟨m - 3, by omega⟩
    have hrun : restore env (n + 3) (.obj [(p!"py/object", .str c), (p!"py/seq", .arr xs)]) { u with objs := [], idx := [], proxies := [] } =
        some (.ok (.ref u1.heap.length), u2) := by
      show restoreTags env (restore env (n + 2)) [(p!"py/object", .str c), (p!"py/seq", .arr xs)] _ = _
      rw [restoreTags_object (j := .str c) rfl]
      unfold restoreObject
      rw [bind_ok (a := Json.str c) (s' := { u with objs := [], idx := [], proxies := [] }) rfl]
      rw [bind_ok (a := some (Val.type c)) (s' := { u with objs := [], idx := [], proxies := [], log := u.log ++ [.imp c] }) (by simp only [loadclassJ, emit, bind_run, modify_run, pure_run, hc])]
      dsimp only
      rw [bind_ok (a := ()) (s' := { u with objs := [], idx := [], proxies := [], log := u.log ++ [.imp c] ++ [.obj c] }) rfl]
      rw [hh]
      dsimp only
      unfold restoreInstance
      rw [bind_ok (a := u.heap.length) (s' := { u with heap := u.heap ++ [.proxy none], objs := [], idx := [], proxies := [], log := u.log ++ [.imp c] ++ [.obj c] }) rfl]
      rw [bind_ok (a := Val.ref u.heap.length) (s' := begun u (u.log ++ [.imp c] ++ [.obj c])) rfl]
      rw [bind_ok (a := (Val.none, [(p!"py/object", Json.str c), (p!"py/seq", Json.arr xs)])) (s' := begun u (u.log ++ [.imp c] ++ [.obj c])) rfl]
      dsimp only
      rw [bind_ok (a := (Json.arr ys, Json.obj [])) (s' := begun u (u.log ++ [.imp c] ++ [.obj c] ++ [.imp c])) ?_]
      · dsimp only
        rw [bind_ok (hdet n)]
        rw [bind_ok (a := Val.tuple 0 []) (s' := u1) rfl]
        rw [bind_ok (get_run _), bind_ok (a := ()) (s' := { u1 with log := u1.log ++ [.call c] }) rfl]
        rw [hci]
        dsimp only
        rw [bind_ok (a := u1.heap.length) (s' := { u1 with heap := u1.heap ++ [Obj.inst i], log := u1.log ++ [.call c] }) rfl]
        rw [bind_ok (a := ()) (s' := { u1 with heap := (u1.heap ++ [Obj.inst i]).set u.heap.length (.proxy (some (.ref u1.heap.length))), log := u1.log ++ [.call c] }) rfl]
        rw [bind_ok (a := ()) (s' := u2) (by unfold swapref; dsimp only; rw [hi]; rfl)]
        rw [hii, hb, if_pos (by rfl)]
        rfl
      · show (getargs env [(p!"py/object", Json.str c), (p!"py/seq", Json.arr xs)] >>= fun a => (pure (a, Json.obj []) : U (Json × Json))) _ = _
        refine bind_ok (a := Json.arr ys) ?_
        show (loadclassJ env (.str c) >>= _) _ = _
        rw [bind_ok (a := some (Val.type c)) (s' := begun u (u.log ++ [.imp c] ++ [.obj c] ++ [.imp c])) (by simp only [loadclassJ, emit, bind_run, modify_run, pure_run, hc]; rfl)]
        simp only [hf, jsonLen, pure_run]
        rw [← hy]
        by_cases he : xs.length = k
        · simp [he]
        · have : (k == xs.length) = false := by rw [beq_eq_false_iff_ne]; exact fun e => he e.symm
          simp [he, this]
    unfold Api.decode
    rw [hl]
    show (restoreTop env (n + 3) (.obj [(p!"py/object", .str c), (p!"py/seq", .arr xs)]) true >>= fun x => _) u = _
    rw [bind_ok (a := Val.ref u1.heap.length) (s' := { u2 with proxies := [] })]
    · rfl
    · unfold restoreTop
      rw [if_pos rfl, bind_ok (a := ()) (s' := { u with objs := [], idx := [], proxies := [] }) rfl, bind_ok hrun]
      refine bind_ok (a := ()) ?_
      unfold swapProxies
      rw [bind_ok (get_run _)]
      rw [show u2.proxies = [] from hp]
      rfl
  · show ((u1.heap ++ [Obj.inst i]).set u.heap.length _)[u1.heap.length]? = _
    rw [List.getElem?_set_ne (by omega)]
    simp

/-! ### examples -/

/-- a class `m.P`, a named tuple `m.T` with two fields, and a missing class `m.M` -/
def env (texts : List (Str × Json)) : UEnv where
  loadclass := fun s => if s = p!"m.M" then none else some (.type s)
  classInfo := fun s => if s = p!"m.T" then { base := .tuple, hasDict := false, numFields := some 2, newAccepts := fun n => n == 2 || n == 0 } else {}
  handler := fun _ => none
  loadmodule := fun _ => .ok none
  loadrepr := fun _ => .ok .none
  loads := fun t => dget t texts

/-- `{"py/object": "m.P", "py/property": {…}, "x": {"py/tuple": [1], "py/set": [2], "y": 3}, "py/newargs": [1], "py/initargs": [2]}` -/
def doc : Json := .obj [(p!"py/object", .str p!"m.P"), (p!"py/property", .obj [(p!"area", .int 7)]),
  (p!"x", .obj [(p!"py/tuple", .arr [.int 1]), (p!"py/set", .arr [.int 2]), (p!"y", .int 3)]),
  (p!"py/newargs", .arr [.int 1]), (p!"py/initargs", .arr [.int 2])]

/-- `{"py/object": "m.P", "x": {"py/tuple": [1]}, "py/newargs": [1]}` -/
def small : Json := .obj [(p!"py/object", .str p!"m.P"), (p!"x", .obj [(p!"py/tuple", .arr [.int 1])]), (p!"py/newargs", .arr [.int 1])]

example : prune (env []) doc = small := by decide +kernel

example (n : Nat) : Api.decode (env [(p!"a", doc), (p!"b", small)]) n p!"a" = Api.decode (env [(p!"a", doc), (p!"b", small)]) n p!"b" :=
  pruned (j := doc) rfl (by decide +kernel) n true true

example : prune (env []) (.obj ([(p!"py/object", .str p!"m.P")] ++ (p!"py/property", .int 1) :: [(p!"x", .int 2)])) =
    prune (env []) (.obj ([(p!"py/object", .str p!"m.P")] ++ [(p!"x", .int 2)])) :=
  property_unread (c := p!"m.P") rfl rfl (by decide +kernel) rfl

/-- The object of a missing class is kept as it is. -/
example : prune (env []) (.obj [(p!"py/object", .str p!"m.M"), (p!"py/property", .int 1)]) =
    .obj [(p!"py/object", .str p!"m.M"), (p!"py/property", .int 1)] := by decide +kernel

example (u : UState) : ∃ a u' i, Decodes (env [(p!"t", .obj [(p!"py/object", .str p!"m.T"), (p!"py/seq", .arr [.int 5, .str p!"x"])])]) p!"t" u (.ref a) u' ∧
    u'.heap[a]? = some (.inst i) ∧ i.cls = p!"m.T" ∧ i.elems = [.int 5, .str p!"x"] :=
  fields (c := p!"m.T") (k := 2) (xs := [.int 5, .str p!"x"]) rfl rfl rfl rfl rfl rfl (vs := [.int 5, .str p!"x"]) rfl u

/-- three elements for two fields -/
example (u : UState) : ∃ a u' i, Decodes (env [(p!"t", .obj [(p!"py/object", .str p!"m.T"), (p!"py/seq", .arr [.int 5, .int 6, .int 7])])]) p!"t" u (.ref a) u' ∧
    u'.heap[a]? = some (.inst i) ∧ i.cls = p!"m.T" ∧ i.elems = [] :=
  fields (c := p!"m.T") (k := 2) (xs := [.int 5, .int 6, .int 7]) rfl rfl rfl rfl rfl rfl (vs := [.int 5, .int 6, .int 7]) rfl u

end JP.C59
