import Verif.ApiSpec
import Verif.TreeSpec
import Verif.JsonSpec
import Verif.DocSpec
import Verif.Proofs.PPlain
import Verif.Proofs.UPlain
import Verif.Props.C06
import Verif.SampleProgram
/-!
# C69 — iterators

An iterator that has no reduce value of its own (a generator, an instance of a class with `__next__`) is written as its items, and comes back as
an iterator over a list of the items, whatever its class was.  Where it occurs a second time, the list comes back instead.
-/
namespace JP.C69
open JP PyM

/-- the object is an iterator without a handler, reduce value, constructor arguments or `__getstate__` -/
structure IsIterator (w : World) (i : Inst) : Prop where
  iter : i.info.isIterator = true
  base : i.info.base = .plain
  handler : w.handler i.cls = none
  reduces : i.info.reduces = false
  newargs : i.info.hasNewargs = false ∧ i.info.hasNewargsEx = false ∧ i.info.hasInitargs = false
  getstate : i.info.ownGetstate = false
  enum : i.info.isEnum = false

/-- `xs` are the items that `islice(iterator, max_iter)` gives -/
def Gives (max : Option Nat) (i : Inst) (xs : List Val) : Prop :=
  (i.errs.iter = none ∧ ∀ n, max = some n → i.elems.length < n) ∧ xs = i.elems ∨ ∃ n, max = some n ∧ n ≤ i.elems.length ∧ xs = i.elems.take n

/-- `{"py/object": cls, "py/iterator": [...]}` -/
def doc (cls : Str) (xs : List Json) : Json := .obj [(p!"py/object", .str cls), (p!"py/iterator", .arr xs)]

/-- `x` is an iterator over a list that is the plain data `xs` -/
def Iterates (h : Heap) (x : Val) (xs : List Json) : Prop :=
  ∃ b a i, x = .ref b ∧ h[b]? = some (.inst i) ∧ i.cls = p!"builtins.list_iterator" ∧ i.hfields = [(p!"list", .ref a)] ∧ IsTree h (.ref a) (.arr xs)

mutual
theorem spells_containers {h : Heap} : ∀ {j : Json} {v : Val} {as : List Addr}, Spells h v j as → ∀ a ∈ as, (∃ xs, h[a]? = some (.list xs)) ∨ ∃ kvs, h[a]? = some (.dict kvs)
  | .null, _, _, hs, a, hm | .bool _, _, _, hs, a, hm | .int _, _, _, hs, a, hm | .float _, _, _, hs, a, hm | .str _, _, _, hs, a, hm => by
    rw [hs.2] at hm; cases hm
  | .arr xs, _, _, ⟨b, vs, bs, _, h1, h2, e⟩, a, hm => by
    subst e
    rcases List.mem_cons.1 hm with rfl | hm
    · exact .inl ⟨_, h1⟩
    · exact spellsAll_containers h2 a hm
  | .obj xs, _, _, ⟨b, vs, bs, _, h1, h2, e⟩, a, hm => by
    subst e
    rcases List.mem_cons.1 hm with rfl | hm
    · exact .inr ⟨_, h1⟩
    · exact spellsEntries_containers h2 a hm
theorem spellsAll_containers {h : Heap} : ∀ {js : List Json} {vs : List Val} {as : List Addr}, SpellsAll h vs js as → ∀ a ∈ as, (∃ xs, h[a]? = some (.list xs)) ∨ ∃ kvs, h[a]? = some (.dict kvs)
  | [], _, _, hs, a, hm => by rw [hs.2] at hm; cases hm
  | x :: xs, _, _, ⟨_, _, _, _, _, h1, h2, e⟩, a, hm => by
    subst e
    rcases List.mem_append.1 hm with hm | hm
    · exact spells_containers h1 a hm
    · exact spellsAll_containers h2 a hm
theorem spellsEntries_containers {h : Heap} : ∀ {js : List (Str × Json)} {vs : List (Val × Val)} {as : List Addr}, SpellsEntries h vs js as → ∀ a ∈ as, (∃ xs, h[a]? = some (.list xs)) ∨ ∃ kvs, h[a]? = some (.dict kvs)
  | [], _, _, hs, a, hm => by rw [hs.2] at hm; cases hm
  | (k, x) :: xs, _, _, ⟨_, _, _, _, _, h1, h2, e⟩, a, hm => by
    subst e
    rcases List.mem_append.1 hm with hm | hm
    · exact spells_containers h1 a hm
    · exact spellsEntries_containers h2 a hm
end

/-- The items are written.  (The items are plain data in which no list or dict occurs twice; the conditions on `keys` and `max_depth` are those of C06.) -/
theorem written (w : World) (cfg : PCfg) (hu : cfg.unpicklable = true) (a : Addr) (i : Inst) (ha : w.heap[a]? = some (.inst i)) (hi : IsIterator w i) (xs : List Val)
    (hx : Gives cfg.maxIter i xs) (js : List Json) (as : List Addr) (ht : SpellsAll w.heap xs js as) (hn : as.Nodup) (hd : (Json.arr js).Distinct)
    (hmax : ∀ d, cfg.maxDepth = some d → ((Json.arr js).depth : Int) ≤ d) (hk : ∀ k ∈ (Json.arr js).keys, k ∉ Tags.all)
    (hesc : cfg.keys = true → ∀ k ∈ (Json.arr js).keys, startsWith k p!"json://" = false) : Encodes w cfg (.ref a) (w.dumps (doc i.cls js)) := by
  have hkey : ∀ k ∈ (Json.arr js).keys, Pickler.KeyOk cfg k := by
    refine fun k hm => ⟨?_, fun h => hesc h k hm⟩
    rw [Bool.eq_false_iff]
    intro h
    exact hk k hm (List.mem_append_left _ (List.contains_iff_mem.1 h))
  obtain ⟨d, hl, hdep⟩ : ∃ d : Option Nat, Pickler.Levels cfg (-1) d ∧ ∀ m, d = some m → (Json.arr js).depth ≤ m := by
    cases hc : cfg.maxDepth with
    | none => exact ⟨none, hc, (fun _ h => by cases h)⟩
    | some M =>
      have := hmax M hc
      refine ⟨some M.toNat, ?_, fun m h => ?_⟩
      · unfold Pickler.Levels
        rw [hc]
        simp
        omega
      · injection h with h
        omega
  have hd0 : d ≠ some 0 := fun e => by
    have := hdep 0 e
    simp only [Json.depth] at this
    omega
  have hst := Pickler.spells_to_all w.repr (h := w.heap) (d := d.map (· - 1)) (fun m e => by
    cases d with
    | none => cases e
    | some M =>
      injection e with e
      have := hdep M rfl
      simp only [Json.depth] at this
      dsimp only at e
      omega) ht
  have hna : a ∉ as := fun hm => by
    rcases spellsAll_containers ht a hm with ⟨_, h⟩ | ⟨_, h⟩ <;> · rw [ha] at h; cases h
  have hall := Pickler.writes_all (hl.next hd0) (Json.depthL js + 1) hst hn hkey hd (Nat.le_refl _)
  have hit : Pickler.iterated cfg i = xs ∧ Pickler.iterErr cfg i = none := by
    unfold Pickler.iterated Pickler.iterErr
    rcases hx with ⟨⟨h1, h2⟩, rfl⟩ | ⟨n, h1, h2, rfl⟩
    · cases hm : cfg.maxIter with
      | none => exact ⟨rfl, h1⟩
      | some n =>
        have := h2 n hm
        refine ⟨List.take_of_length_le (by omega), ?_⟩
        dsimp only
        rw [if_neg (by omega), h1]
    · rw [h1]
      exact ⟨rfl, if_pos h2⟩
  have hbody : Pickler.Writes (-1 + 1) as (Pickler.flattenInst w cfg (Pickler.flatten w cfg (Json.depthL js + 1)) a i) (doc i.cls js) := by
    have e : Pickler.flattenInst w cfg (Pickler.flatten w cfg (Json.depthL js + 1)) a i = (do
        let js ← mapM (Pickler.flatten w cfg (Json.depthL js + 1)) xs
        pure (doc i.cls js) : P Json) := by
      unfold Pickler.flattenInst
      rw [hi.handler]
      simp only [Pickler.flattenReduce, hi.reduces, Bool.and_false, Pickler.flattenBody, Pickler.flattenNewargs, Pickler.flattenInitargs, hi.newargs.1, hi.newargs.2.1, hi.newargs.2.2,
        Pickler.flattenGetstate, hi.getstate, Pickler.flattenRest, hi.base, hi.iter, hit.1, hit.2, Pickler.objTag, hu]
      rfl
    rw [e]
    exact hall.map hn rfl
  have hw : Pickler.Writes (-1) (a :: as) (Pickler.flatten w cfg (Json.depthL js + 2) (.ref a)) (doc i.cls js) := by
    show Pickler.Writes (-1) _ (Pickler.cached cfg (.addr a) (do
      Pickler.push
      let j ← Pickler.flattenObjWith cfg (.ref a) (.addr a) (Pickler.isEnumV w (.ref a)) (w.repr (.ref a)) (Pickler.flattenBy w cfg (Pickler.flatten w cfg (Json.depthL js + 1)) (.ref a))
      Pickler.pop j)) _
    have he : Pickler.isEnumV w (.ref a) = false := by simp only [Pickler.isEnumV, ha, hi.enum]
    rw [he]
    simp only [Pickler.flattenBy, ha, Pickler.refObjInstance, hu, if_true]
    exact Pickler.level_writes (w := w) (hl.above hd0) (List.nodup_cons.2 ⟨hna, hn⟩)
      (body := fun new => if new then Pickler.flattenInst w cfg (Pickler.flatten w cfg (Json.depthL js + 1)) a i else Pickler.getref (.addr a)) hbody
  obtain ⟨s', h1, _⟩ := hw {} rfl ⟨(fun _ _ h => by cases h), (fun _ h => by cases h)⟩
  refine ⟨Json.depthL js + 2, s', fun m s hm => ?_⟩
  refine (bind_ok (a := doc i.cls js) (s' := s') ?_).trans rfl
  exact Pickler.flatten_mono hm h1

/-- They are read back as an iterator over a new list of new objects; the class is not looked up. -/
theorem read (env : UEnv) (text : Str) (cls : Str) (js : List Json) (hl : env.loads text = some (doc cls js)) (hd : (Json.arr js).Distinct)
    (hfree : ∀ k ∈ (Json.arr js).keys, k ∉ wireTags) (hesc : env.keys = true → ∀ k ∈ (Json.arr js).keys, startsWith k p!"json://" = false) (u : UState) :
    ∃ x u', Decodes env text u x u' ∧ Iterates u'.heap x js := by
  obtain ⟨v, s, as, h1, k1, p1, n1⟩ := Unpickler.plainly_restore (env := env) (Json.arr js).depth (.arr js) (Nat.le_refl _) hd hfree hesc { u with objs := [], idx := [], proxies := [] }
  let n := (Json.arr js).depth
  obtain ⟨a, s1, h2, h3⟩ := bind_eq_ok.1 (show (Unpickler.restoreList (Unpickler.restore env n) (.ok js) >>= fun a => (pure (Val.ref a) : U Val)) _ = some (.ok v, s) from h1)
  injection h3 with h3
  injection h3 with h3 h4
  injection h3 with h3
  subst h3 h4
  let s2 : UState := { s1 with heap := s1.heap ++ [.inst (Unpickler.iterOf a)] }
  have h5 : Unpickler.restore env (n + 1) (doc cls js) { u with objs := [], idx := [], proxies := [] } = some (.ok (.ref s1.heap.length), s2) := by
    show Unpickler.restoreIterator (Unpickler.restore env n) [(p!"py/object", .str cls), (p!"py/iterator", .arr js)] _ = _
    unfold Unpickler.restoreIterator
    refine (bind_ok (a := a) (s' := s1) ?_).trans rfl
    have : (do
        let j ← ofExcept (Unpickler.item Tags.ITERATOR [(p!"py/object", .str cls), (p!"py/iterator", .arr js)])
        Unpickler.restoreList (Unpickler.restore env n) (Unpickler.jsonIter j) : U Addr) { u with objs := [], idx := [], proxies := [] } = some (.ok a, s1) := h2
    simp only [PyM.tryCatch, this]
  have hp : s2.proxies = [] := k1.proxies
  have hs : Unpickler.swapProxies s2 = some (.ok (), { s2 with proxies := [] }) := by
    unfold Unpickler.swapProxies
    rw [bind_ok (a := s2) (s' := s2) rfl, hp]
    rfl
  have ht : Unpickler.restoreTop env (n + 1) (doc cls js) true u = some (.ok (.ref s1.heap.length), { s2 with proxies := [] }) := by
    simp only [Unpickler.restoreTop, if_true]
    rw [bind_ok (a := ()) (s' := { u with objs := [], idx := [], proxies := [] }) rfl, bind_ok h5, bind_ok hs]
    rfl
  refine ⟨.ref s1.heap.length, { s2 with objs := [], idx := [], proxies := [] }, ⟨n + 1, fun m hm => ?_⟩, ⟨s1.heap.length, a, Unpickler.iterOf a, rfl, ?_, rfl, rfl, as, ?_, n1.1⟩⟩
  · unfold Api.decode
    rw [hl]
    exact (bind_ok (Unpickler.restoreTop_mono hm ht)).trans rfl
  · show (s1.heap ++ [_])[s1.heap.length]? = _
    simp
  · refine Unpickler.spells_frame p1 fun x hx => ?_
    exact List.getElem?_append_left (n1.2 x hx).2

/-- Both together, for the standard backend (`loads` inverts `dumps`, C41). -/
theorem comes_back (w : World) (cfg : PCfg) (env : UEnv) (hu : cfg.unpicklable = true) (hek : env.keys = cfg.keys) (a : Addr) (i : Inst) (ha : w.heap[a]? = some (.inst i)) (hi : IsIterator w i)
    (xs : List Val) (hx : Gives cfg.maxIter i xs) (js : List Json) (as : List Addr) (ht : SpellsAll w.heap xs js as) (hn : as.Nodup) (hd : (Json.arr js).Distinct)
    (hmax : ∀ d, cfg.maxDepth = some d → ((Json.arr js).depth : Int) ≤ d) (hk : ∀ k ∈ (Json.arr js).keys, k ∉ Tags.all)
    (hesc : cfg.keys = true → ∀ k ∈ (Json.arr js).keys, startsWith k p!"json://" = false) (hl : env.loads (w.dumps (doc i.cls js)) = some (doc i.cls js)) (u : UState) :
    ∃ text x u', Encodes w cfg (.ref a) text ∧ Decodes env text u x u' ∧ Iterates u'.heap x js := by
  have hsub : ∀ k, k ∈ wireTags → k ∈ Tags.all := by decide +kernel
  obtain ⟨x, u', h1, h2⟩ := read env _ i.cls js hl hd (fun k h h' => hk k h (hsub k h')) (fun h => hesc (hek ▸ h)) u
  exact ⟨_, x, u', written w cfg hu a i ha hi xs hx js as ht hn hd hmax hk hesc, h1, h2⟩

/-! ### examples -/

/-- `(x for x in [1, [2], 3, 4])` -/
def gen : Inst := { cls := p!"builtins.generator", info := { isIterator := true, hasDict := false }, elems := [.int 1, .ref 1, .int 3, .int 4] }

def heap : Heap := [.inst gen, .list [.int 2], .list [.ref 0, .ref 0]]

/-- with `max_iter=3` -/
example (u : UState) : ∃ text x u', Encodes (Sample.program.world heap) { maxIter := some 3 } (.ref 0) text ∧ Decodes (Sample.program.env) text u x u' ∧
    Iterates u'.heap x [.int 1, .arr [.int 2], .int 3] :=
  comes_back (Sample.program.world heap) { maxIter := some 3 } Sample.program.env rfl rfl 0 gen rfl ⟨rfl, rfl, rfl, rfl, ⟨rfl, rfl, rfl⟩, rfl, rfl⟩ [.int 1, .ref 1, .int 3] (.inr ⟨3, rfl, by decide, rfl⟩) [.int 1, .arr [.int 2], .int 3] [1]
    ⟨_, _, [], [1], rfl, ⟨rfl, rfl⟩, ⟨_, _, [1], [], rfl, ⟨1, _, [], rfl, rfl, ⟨_, _, [], [], rfl, ⟨rfl, rfl⟩, ⟨rfl, rfl⟩, rfl⟩, rfl⟩, ⟨_, _, [], [], rfl, ⟨rfl, rfl⟩, ⟨rfl, rfl⟩, rfl⟩, rfl⟩, rfl⟩
    (by decide) (by simp [Json.Distinct, Json.DistinctL]) (fun _ h => by cases h) (by decide) (fun h => by cases h) (by decide +kernel) u

/-- the lists, and after `0` what the iterators iterate over -/
def shape (h : Heap) : List (List Val) :=
  h.map fun o => match o with
    | .list xs => xs
    | .inst i => .int 0 :: i.hfields.map (·.2)
    | _ => []

/-- `g = iter(...); [g, g]`: the second `g` comes back as the list over which the first one iterates (unpickler.py:499-503 registers the list, not the iterator). -/
theorem second_is_list : (Sample.program.trip heap {} 9 (.ref 2)).map (fun r => shape r.2) =
    some [[.ref 3, .ref 1], [.int 1, .ref 2, .int 3, .int 4], [.int 2], [.int 0, .ref 1]] := by
  decide +kernel

end JP.C69
