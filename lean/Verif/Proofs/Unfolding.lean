import Verif.UnfoldSpec
import Verif.ExpandSpec
/-!
# Unfoldings: there is one, there is only one, and when two graphs with the same unfolding are isomorphic
-/
namespace JP.Unfold
open JP Expand

mutual
theorem is_unique {cls : Str → ClassInfo} {h : Heap} {v : Val} : ∀ {t t' : Tree} {as as' : List Addr}, Is cls h v t as → Is cls h v t' as' → t = t' ∧ as = as'
  | .none, t', _, _, h1, h2 => by
    obtain ⟨rfl, rfl⟩ := h1
    cases t' <;> first | exact ⟨rfl, h2.2.symm⟩ | (obtain ⟨_, _, _, h2, _⟩ := h2; cases h2; done) | (obtain ⟨_, _, h2, _⟩ := h2; cases h2; done) | (obtain ⟨_, h2, _⟩ := h2; cases h2; done) | (obtain ⟨h2, _⟩ := h2; cases h2; done)
  | .bool b, t', _, _, h1, h2 => by
    obtain ⟨rfl, rfl⟩ := h1
    cases t' <;> first | (obtain ⟨h2, rfl⟩ := h2; cases h2; exact ⟨rfl, rfl⟩) | (obtain ⟨_, _, _, h2, _⟩ := h2; cases h2; done) | (obtain ⟨_, _, h2, _⟩ := h2; cases h2; done) | (obtain ⟨_, h2, _⟩ := h2; cases h2; done) | (obtain ⟨h2, _⟩ := h2; cases h2; done)
  | .int b, t', _, _, h1, h2 => by
    obtain ⟨rfl, rfl⟩ := h1
    cases t' <;> first | (obtain ⟨h2, rfl⟩ := h2; cases h2; exact ⟨rfl, rfl⟩) | (obtain ⟨_, _, _, h2, _⟩ := h2; cases h2; done) | (obtain ⟨_, _, h2, _⟩ := h2; cases h2; done) | (obtain ⟨_, h2, _⟩ := h2; cases h2; done) | (obtain ⟨h2, _⟩ := h2; cases h2; done)
  | .float b, t', _, _, h1, h2 => by
    obtain ⟨rfl, rfl⟩ := h1
    cases t' <;> first | (obtain ⟨h2, rfl⟩ := h2; cases h2; exact ⟨rfl, rfl⟩) | (obtain ⟨_, _, _, h2, _⟩ := h2; cases h2; done) | (obtain ⟨_, _, h2, _⟩ := h2; cases h2; done) | (obtain ⟨_, h2, _⟩ := h2; cases h2; done) | (obtain ⟨h2, _⟩ := h2; cases h2; done)
  | .str b, t', _, _, h1, h2 => by
    obtain ⟨rfl, rfl⟩ := h1
    cases t' <;> first | (obtain ⟨h2, rfl⟩ := h2; cases h2; exact ⟨rfl, rfl⟩) | (obtain ⟨_, _, _, h2, _⟩ := h2; cases h2; done) | (obtain ⟨_, _, h2, _⟩ := h2; cases h2; done) | (obtain ⟨_, h2, _⟩ := h2; cases h2; done) | (obtain ⟨h2, _⟩ := h2; cases h2; done)
  | .type b, t', _, _, h1, h2 => by
    obtain ⟨rfl, rfl⟩ := h1
    cases t' <;> first | (obtain ⟨h2, rfl⟩ := h2; cases h2; exact ⟨rfl, rfl⟩) | (obtain ⟨_, _, _, h2, _⟩ := h2; cases h2; done) | (obtain ⟨_, _, h2, _⟩ := h2; cases h2; done) | (obtain ⟨_, h2, _⟩ := h2; cases h2; done) | (obtain ⟨h2, _⟩ := h2; cases h2; done)
  | .func b, t', _, _, h1, h2 => by
    obtain ⟨rfl, rfl⟩ := h1
    cases t' <;> first | (obtain ⟨h2, rfl⟩ := h2; cases h2; exact ⟨rfl, rfl⟩) | (obtain ⟨_, _, _, h2, _⟩ := h2; cases h2; done) | (obtain ⟨_, _, h2, _⟩ := h2; cases h2; done) | (obtain ⟨_, h2, _⟩ := h2; cases h2; done) | (obtain ⟨h2, _⟩ := h2; cases h2; done)
  | .module b, t', _, _, h1, h2 => by
    obtain ⟨rfl, rfl⟩ := h1
    cases t' <;> first | (obtain ⟨h2, rfl⟩ := h2; cases h2; exact ⟨rfl, rfl⟩) | (obtain ⟨_, _, _, h2, _⟩ := h2; cases h2; done) | (obtain ⟨_, _, h2, _⟩ := h2; cases h2; done) | (obtain ⟨_, h2, _⟩ := h2; cases h2; done) | (obtain ⟨h2, _⟩ := h2; cases h2; done)
  | .bytes b, t', _, _, h1, h2 => by
    obtain ⟨n, rfl, rfl⟩ := h1
    cases t' <;> first | (obtain ⟨_, h2, rfl⟩ := h2; cases h2; exact ⟨rfl, rfl⟩) | (obtain ⟨_, _, _, h2, _⟩ := h2; cases h2; done) | (obtain ⟨_, _, h2, _⟩ := h2; cases h2; done) | (obtain ⟨_, h2, _⟩ := h2; cases h2; done) | (obtain ⟨h2, _⟩ := h2; cases h2; done)
  | .bytearray b, t', _, _, h1, h2 => by
    obtain ⟨n, rfl, rfl⟩ := h1
    cases t' <;> first | (obtain ⟨_, h2, rfl⟩ := h2; cases h2; exact ⟨rfl, rfl⟩) | (obtain ⟨_, _, _, h2, _⟩ := h2; cases h2; done) | (obtain ⟨_, _, h2, _⟩ := h2; cases h2; done) | (obtain ⟨_, h2, _⟩ := h2; cases h2; done) | (obtain ⟨h2, _⟩ := h2; cases h2; done)
  | .list xs, t', _, _, h1, h2 => by
    obtain ⟨a, vs, bs, rfl, hc, h3, rfl⟩ := h1
    cases t' with
    | list ys =>
      obtain ⟨a', vs', bs', e, hc', h3', rfl⟩ := h2
      cases e
      rw [hc] at hc'
      cases hc'
      obtain ⟨rfl, rfl⟩ := are_unique h3 h3'
      exact ⟨rfl, rfl⟩
    | dict ys => obtain ⟨a', vs', bs', e, hc', h3', rfl⟩ := h2; cases e; rw [hc] at hc'; cases hc'
    | inst c ys => obtain ⟨a', vs', bs', e, hc', h3', _⟩ := h2; cases e; rw [hc] at hc'; cases hc'
    | tuple ys => obtain ⟨_, _, e, _⟩ := h2; cases e
    | set ys => obtain ⟨_, _, e, _⟩ := h2; cases e
    | bytes b => obtain ⟨_, e, _⟩ := h2; cases e
    | bytearray b => obtain ⟨_, e, _⟩ := h2; cases e
    | _ => obtain ⟨e, _⟩ := h2; cases e
  | .tuple xs, t', _, _, h1, h2 => by
    obtain ⟨n, vs, rfl, h3⟩ := h1
    cases t' with
    | tuple ys =>
      obtain ⟨n', vs', e, h3'⟩ := h2
      cases e
      obtain ⟨rfl, rfl⟩ := are_unique h3 h3'
      exact ⟨rfl, rfl⟩
    | set ys => obtain ⟨_, _, e, _⟩ := h2; cases e
    | list ys => obtain ⟨_, _, _, e, _⟩ := h2; cases e
    | dict ys => obtain ⟨_, _, _, e, _⟩ := h2; cases e
    | inst c ys => obtain ⟨_, _, _, e, _⟩ := h2; cases e
    | bytes b => obtain ⟨_, e, _⟩ := h2; cases e
    | bytearray b => obtain ⟨_, e, _⟩ := h2; cases e
    | _ => obtain ⟨e, _⟩ := h2; cases e
  | .set xs, t', _, _, h1, h2 => by
    obtain ⟨n, vs, rfl, h3⟩ := h1
    cases t' with
    | set ys =>
      obtain ⟨n', vs', e, h3'⟩ := h2
      cases e
      obtain ⟨rfl, rfl⟩ := are_unique h3 h3'
      exact ⟨rfl, rfl⟩
    | tuple ys => obtain ⟨_, _, e, _⟩ := h2; cases e
    | list ys => obtain ⟨_, _, _, e, _⟩ := h2; cases e
    | dict ys => obtain ⟨_, _, _, e, _⟩ := h2; cases e
    | inst c ys => obtain ⟨_, _, _, e, _⟩ := h2; cases e
    | bytes b => obtain ⟨_, e, _⟩ := h2; cases e
    | bytearray b => obtain ⟨_, e, _⟩ := h2; cases e
    | _ => obtain ⟨e, _⟩ := h2; cases e
  | .dict xs, t', _, _, h1, h2 => by
    obtain ⟨a, vs, bs, rfl, hc, h3, rfl⟩ := h1
    cases t' with
    | dict ys =>
      obtain ⟨a', vs', bs', e, hc', h3', rfl⟩ := h2
      cases e
      rw [hc] at hc'
      injection hc' with hc'
      injection hc' with hc'
      have : vs = vs' := by
        have := congrArg (List.map (fun kv : Val × Val => ((match kv.1 with | .str k => k | _ => [] : Str), kv.2))) hc'
        simpa [List.map_map, Function.comp_def] using this
      subst this
      obtain ⟨rfl, rfl⟩ := entries_unique h3 h3'
      exact ⟨rfl, rfl⟩
    | list ys => obtain ⟨a', vs', bs', e, hc', h3', rfl⟩ := h2; cases e; rw [hc] at hc'; cases hc'
    | inst c ys => obtain ⟨a', vs', bs', e, hc', h3', _⟩ := h2; cases e; rw [hc] at hc'; cases hc'
    | tuple ys => obtain ⟨_, _, e, _⟩ := h2; cases e
    | set ys => obtain ⟨_, _, e, _⟩ := h2; cases e
    | bytes b => obtain ⟨_, e, _⟩ := h2; cases e
    | bytearray b => obtain ⟨_, e, _⟩ := h2; cases e
    | _ => obtain ⟨e, _⟩ := h2; cases e
  | .inst c xs, t', _, _, h1, h2 => by
    obtain ⟨a, i, bs, rfl, hc, ho, h3, rfl⟩ := h1
    cases t' with
    | inst c' ys =>
      obtain ⟨a', i', bs', e, hc', ho', h3', rfl⟩ := h2
      cases e
      rw [hc] at hc'
      cases hc'
      obtain ⟨rfl, rfl⟩ := entries_unique h3 h3'
      have : c = c' := ho.cls.symm.trans ho'.cls
      subst this
      exact ⟨rfl, rfl⟩
    | list ys => obtain ⟨a', vs', bs', e, hc', h3', rfl⟩ := h2; cases e; rw [hc] at hc'; cases hc'
    | dict ys => obtain ⟨a', vs', bs', e, hc', h3', _⟩ := h2; cases e; rw [hc] at hc'; cases hc'
    | tuple ys => obtain ⟨_, _, e, _⟩ := h2; cases e
    | set ys => obtain ⟨_, _, e, _⟩ := h2; cases e
    | bytes b => obtain ⟨_, e, _⟩ := h2; cases e
    | bytearray b => obtain ⟨_, e, _⟩ := h2; cases e
    | _ => obtain ⟨e, _⟩ := h2; cases e
theorem are_unique {cls : Str → ClassInfo} {h : Heap} {vs : List Val} : ∀ {t t' : List Tree} {as as' : List Addr}, Are cls h vs t as → Are cls h vs t' as' → t = t' ∧ as = as'
  | [], [], _, _, h1, h2 => ⟨rfl, by rw [h1.2, h2.2]⟩
  | [], _ :: _, _, _, h1, h2 => by obtain ⟨_, _, _, _, e, _⟩ := h2; rw [h1.1] at e; cases e
  | _ :: _, [], _, _, h1, h2 => by obtain ⟨_, _, _, _, e, _⟩ := h1; rw [h2.1] at e; cases e
  | _ :: _, _ :: _, _, _, h1, h2 => by
    obtain ⟨v, vs1, bs, cs, rfl, g1, g2, rfl⟩ := h1
    obtain ⟨v', vs1', bs', cs', e, g1', g2', rfl⟩ := h2
    cases e
    obtain ⟨rfl, rfl⟩ := is_unique g1 g1'
    obtain ⟨rfl, rfl⟩ := are_unique g2 g2'
    exact ⟨rfl, rfl⟩
theorem entries_unique {cls : Str → ClassInfo} {h : Heap} {es : List (Str × Val)} : ∀ {t t' : List (Str × Tree)} {as as' : List Addr}, EntriesAre cls h es t as → EntriesAre cls h es t' as' →
    t = t' ∧ as = as'
  | [], [], _, _, h1, h2 => ⟨rfl, by rw [h1.2, h2.2]⟩
  | [], (_, _) :: _, _, _, h1, h2 => by obtain ⟨_, _, _, _, e, _⟩ := h2; rw [h1.1] at e; cases e
  | (_, _) :: _, [], _, _, h1, h2 => by obtain ⟨_, _, _, _, e, _⟩ := h1; rw [h2.1] at e; cases e
  | (_, _) :: _, (_, _) :: _, _, _, h1, h2 => by
    obtain ⟨v, vs1, bs, cs, rfl, g1, g2, rfl⟩ := h1
    obtain ⟨v', vs1', bs', cs', e, g1', g2', rfl⟩ := h2
    cases e
    obtain ⟨rfl, rfl⟩ := is_unique g1 g1'
    obtain ⟨rfl, rfl⟩ := entries_unique g2 g2'
    exact ⟨rfl, rfl⟩
end

/-! ### existence -/

theorem are_of {cls : Str → ClassInfo} {h : Heap} {p : Tree → Prop} : ∀ (vs : List Val), (∀ v ∈ vs, ∃ t as, Is cls h v t as ∧ p t) → ∃ ts as, Are cls h vs ts as ∧ ∀ t ∈ ts, p t
  | [], _ => ⟨[], [], ⟨rfl, rfl⟩, fun _ h => by cases h⟩
  | v :: vs, hv => by
    obtain ⟨t, as, h1, p1⟩ := hv v (.head _)
    obtain ⟨ts, bs, h2, p2⟩ := are_of vs (fun x hx => hv x (.tail _ hx))
    refine ⟨t :: ts, as ++ bs, ⟨v, vs, as, bs, rfl, h1, h2, rfl⟩, fun x hx => ?_⟩
    rcases List.mem_cons.1 hx with rfl | hx
    · exact p1
    · exact p2 x hx

theorem entries_of {cls : Str → ClassInfo} {h : Heap} {p : Tree → Prop} : ∀ (es : List (Str × Val)), (∀ kv ∈ es, ∃ t as, Is cls h kv.2 t as ∧ p t) →
    ∃ ts as, EntriesAre cls h es ts as ∧ (∀ kt ∈ ts, p kt.2) ∧ ts.map (·.1) = es.map (·.1)
  | [], _ => ⟨[], [], ⟨rfl, rfl⟩, (fun _ h => by cases h), rfl⟩
  | (k, v) :: es, hv => by
    obtain ⟨t, as, h1, p1⟩ := hv (k, v) (.head _)
    obtain ⟨ts, bs, h2, p2, e2⟩ := entries_of es (fun x hx => hv x (.tail _ hx))
    refine ⟨(k, t) :: ts, as ++ bs, ⟨v, es, as, bs, rfl, h1, h2, rfl⟩, fun x hx => ?_, by rw [List.map_cons, List.map_cons, e2]⟩
    rcases List.mem_cons.1 hx with rfl | hx
    · exact p1
    · exact p2 x hx

theorem okL_of {w : World} {env : UEnv} : ∀ {ts : List Tree}, (∀ t ∈ ts, t.Ok w env) → OkL w env ts
  | [], _ => trivial
  | _ :: _, h => ⟨h _ (.head _), okL_of (fun t ht => h t (.tail _ ht))⟩

theorem okKv_of {w : World} {env : UEnv} : ∀ {ts : List (Str × Tree)}, (∀ t ∈ ts, t.2.Ok w env) → OkKv w env ts
  | [], _ => trivial
  | (_, _) :: _, h => ⟨h _ (.head _), okKv_of (fun t ht => h t (.tail _ ht))⟩

theorem keys_of {q : Str → Prop} {es : List (Str × Val)} {ts : List (Str × Tree)} (e : ts.map (·.1) = es.map (·.1)) (h : ∀ kv ∈ es, q kv.1) : ∀ kv ∈ ts, q kv.1 := by
  intro kv hkv
  have : kv.1 ∈ ts.map (·.1) := List.mem_map_of_mem hkv
  rw [e] at this
  obtain ⟨x, hx, e⟩ := List.mem_map.1 this
  rw [← e]
  exact h x hx

mutual
/-- without the identity of bytes and tuples -/
def bare : Val → Val
  | .bytes _ b => .bytes 0 b
  | .tuple _ xs => .tuple 0 (bares xs)
  | v => v
def bares : List Val → List Val
  | [] => []
  | x :: xs => bare x :: bares xs
end

mutual
theorem pyEq_bare : ∀ (v w : Val), pyEq (bare v) (bare w) = pyEq v w
  | .tuple _ xs, w => by
    cases w <;> simp only [bare, pyEq]
    exact pyEqs_bare xs _
  | .none, w | .bool _, w | .int _, w | .float _, w | .str _, w | .bytes _ _, w | .bytearray _ _, w | .set _ _, w | .type _, w | .func _, w | .module _, w | .lambda _, w | .ref _, w => by
    cases w <;> simp only [bare, pyEq]
theorem pyEqs_bare : ∀ (vs ws : List Val), pyEqs (bares vs) (bares ws) = pyEqs vs ws
  | [], ws => by cases ws <;> simp only [bares, pyEqs]
  | v :: vs, [] => by simp only [bares, pyEqs]
  | v :: vs, w :: ws => by simp only [bares, pyEqs]; rw [pyEq_bare v w, pyEqs_bare vs ws]
end

mutual
theorem atom_is {cls : Str → ClassInfo} {h : Heap} : ∀ {t : Tree} {v k : Val} {as : List Addr}, Is cls h v t as → t.atom = some k → k = bare v ∧ hashable h v = true
  | .tuple xs, v, k, _, hs, hk => by
    obtain ⟨n, vs, rfl, h2⟩ := hs
    rw [Tree.atom, Option.map_eq_some_iff] at hk
    obtain ⟨ks, h3, rfl⟩ := hk
    obtain ⟨rfl, h4⟩ := atoms_are h2 h3
    exact ⟨rfl, h4⟩
  | .none, _, _, _, hs, hk => by obtain ⟨rfl, _⟩ := hs; rw [Tree.atom] at hk; cases hk; exact ⟨rfl, rfl⟩
  | .bool _, _, _, _, hs, hk => by obtain ⟨rfl, _⟩ := hs; rw [Tree.atom] at hk; cases hk; exact ⟨rfl, rfl⟩
  | .int _, _, _, _, hs, hk => by obtain ⟨rfl, _⟩ := hs; rw [Tree.atom] at hk; cases hk; exact ⟨rfl, rfl⟩
  | .float _, _, _, _, hs, hk => by obtain ⟨rfl, _⟩ := hs; rw [Tree.atom] at hk; cases hk; exact ⟨rfl, rfl⟩
  | .str _, _, _, _, hs, hk => by obtain ⟨rfl, _⟩ := hs; rw [Tree.atom] at hk; cases hk; exact ⟨rfl, rfl⟩
  | .type _, _, _, _, hs, hk => by obtain ⟨rfl, _⟩ := hs; rw [Tree.atom] at hk; cases hk; exact ⟨rfl, rfl⟩
  | .func _, _, _, _, hs, hk => by obtain ⟨rfl, _⟩ := hs; rw [Tree.atom] at hk; cases hk; exact ⟨rfl, rfl⟩
  | .module _, _, _, _, hs, hk => by obtain ⟨rfl, _⟩ := hs; rw [Tree.atom] at hk; cases hk; exact ⟨rfl, rfl⟩
  | .bytes _, _, _, _, hs, hk => by obtain ⟨_, rfl, _⟩ := hs; rw [Tree.atom] at hk; cases hk; exact ⟨rfl, rfl⟩
  | .bytearray _, _, _, _, _, hk | .list _, _, _, _, _, hk | .set _, _, _, _, _, hk | .dict _, _, _, _, _, hk | .inst _ _, _, _, _, _, hk => by simp [Tree.atom] at hk
theorem atoms_are {cls : Str → ClassInfo} {h : Heap} : ∀ {ts : List Tree} {vs ks : List Val} {as : List Addr}, Are cls h vs ts as → atomL ts = some ks → ks = bares vs ∧ hashables h vs = true
  | [], _, _, _, hs, hk => by
    rw [hs.1]
    rw [atomL] at hk
    cases hk
    exact ⟨rfl, rfl⟩
  | t :: ts, _, _, _, hs, hk => by
    obtain ⟨v, vs', bs, cs, rfl, h1, h2, _⟩ := hs
    rw [atomL] at hk
    split at hk
    · next k ks e1 e2 =>
      cases hk
      obtain ⟨rfl, g1⟩ := atom_is h1 e1
      obtain ⟨rfl, g2⟩ := atoms_are h2 e2
      exact ⟨rfl, by rw [hashables, g1, g2]; rfl⟩
    · cases hk
end

mutual
theorem atomic_is {cls : Str → ClassInfo} {h : Heap} : ∀ {t : Tree} {v : Val} {as : List Addr}, Is cls h v t as → Atomic v → t.atom ≠ none
  | .list _, _, _, hs, hv => by obtain ⟨_, _, _, rfl, _⟩ := hs; exact hv.elim
  | .set _, _, _, hs, hv => by obtain ⟨_, _, rfl, _⟩ := hs; exact hv.elim
  | .dict _, _, _, hs, hv => by obtain ⟨_, _, _, rfl, _⟩ := hs; exact hv.elim
  | .inst _ _, _, _, hs, hv => by obtain ⟨_, _, _, rfl, _⟩ := hs; exact hv.elim
  | .bytearray _, _, _, hs, hv => by obtain ⟨_, rfl, _⟩ := hs; exact hv.elim
  | .tuple xs, _, _, hs, hv => by
    obtain ⟨n, vs, rfl, h2⟩ := hs
    obtain ⟨ks, e⟩ := Option.ne_none_iff_exists'.1 (atomics_are h2 hv)
    rw [Tree.atom, e]
    exact fun h => by cases h
  | .none, _, _, _, _ | .bool _, _, _, _, _ | .int _, _, _, _, _ | .float _, _, _, _, _ | .str _, _, _, _, _ | .bytes _, _, _, _, _ | .type _, _, _, _, _ | .func _, _, _, _, _
  | .module _, _, _, _, _ => by simp [Tree.atom]
theorem atomics_are {cls : Str → ClassInfo} {h : Heap} : ∀ {ts : List Tree} {vs : List Val} {as : List Addr}, Are cls h vs ts as → AtomicL vs → atomL ts ≠ none
  | [], _, _, _, _ => by simp [atomL]
  | t :: ts, _, _, hs, hv => by
    obtain ⟨v, vs', bs, cs, rfl, h1, h2, _⟩ := hs
    obtain ⟨k, e1⟩ := Option.ne_none_iff_exists'.1 (atomic_is h1 hv.1)
    obtain ⟨ks, e2⟩ := Option.ne_none_iff_exists'.1 (atomics_are h2 hv.2)
    rw [atomL, e1, e2]
    exact fun h => by cases h
end

theorem are_mem {cls : Str → ClassInfo} {h : Heap} : ∀ {vs : List Val} {ts : List Tree} {as : List Addr}, Are cls h vs ts as → ∀ t ∈ ts, ∃ v ∈ vs, ∃ bs, Is cls h v t bs
  | _, _ :: _, _, hs, t, ht => by
    obtain ⟨v, vs', bs, cs, rfl, h1, h2, _⟩ := hs
    rcases List.mem_cons.1 ht with rfl | ht
    · exact ⟨v, .head _, bs, h1⟩
    · obtain ⟨x, hx, r⟩ := are_mem h2 t ht
      exact ⟨x, .tail _ hx, r⟩

theorem members_of {cls : Str → ClassInfo} {h : Heap} : ∀ {vs : List Val} {ts : List Tree} {as : List Addr}, Are cls h vs ts as → (∀ v ∈ vs, Atomic v) →
    vs.Pairwise (fun x y => pyEq x y = false) → Members ts
  | _, [], _, _, _, _ => ⟨(fun _ h => by cases h), .nil⟩
  | _, t :: ts, _, hs, ha, hp => by
    obtain ⟨v, vs', bs, cs, rfl, h1, h2, _⟩ := hs
    obtain ⟨p1, p2⟩ := List.pairwise_cons.1 hp
    obtain ⟨m1, m2⟩ := members_of h2 (fun x hx => ha x (.tail _ hx)) p2
    refine ⟨fun x hx => ?_, List.pairwise_cons.2 ⟨fun y hy k l hk hl => ?_, m2⟩⟩
    · rcases List.mem_cons.1 hx with rfl | hx
      · exact atomic_is h1 (ha _ (.head _))
      · exact m1 x hx
    · obtain ⟨w, hw, ds, h3⟩ := are_mem h2 y hy
      rw [(atom_is h1 hk).1, (atom_is h3 hl).1, pyEq_bare]
      exact p1 w hw

/-- a graph without cycles has an unfolding -/
theorem tree_of {w : World} {env : UEnv} {root : Val} (hs : ∀ x, Within w.heap root x → Seen w env x) : ∀ (n : Nat) (v : Val), Within w.heap root v → Below w.heap n v →
    ∃ t as, Is env.classInfo w.heap v t as ∧ t.Ok w env
  | 0, _, _, hb => hb.elim
  | n + 1, v, hv, hb => by
    have ih : ∀ x, Touches w.heap v x → ∃ t as, Is env.classInfo w.heap x t as ∧ t.Ok w env := fun x hx => tree_of hs n x (.step hv hx) (hb x hx)
    have h1 := hs v hv
    cases v with
    | none => exact ⟨.none, [], ⟨rfl, rfl⟩, trivial⟩
    | bool b => exact ⟨.bool b, [], ⟨rfl, rfl⟩, trivial⟩
    | int b => exact ⟨.int b, [], ⟨rfl, rfl⟩, trivial⟩
    | float b => exact ⟨.float b, [], ⟨rfl, rfl⟩, h1⟩
    | str b => exact ⟨.str b, [], ⟨rfl, rfl⟩, h1⟩
    | bytes i b => exact ⟨.bytes b, [], ⟨i, rfl, rfl⟩, trivial⟩
    | bytearray i b => exact ⟨.bytearray b, [], ⟨i, rfl, rfl⟩, trivial⟩
    | type b => exact ⟨.type b, [], ⟨rfl, rfl⟩, h1⟩
    | func b => exact ⟨.func b, [], ⟨rfl, rfl⟩, h1⟩
    | module b => exact ⟨.module b, [], ⟨rfl, rfl⟩, h1⟩
    | tuple i xs =>
      obtain ⟨ts, as, h2, h3⟩ := are_of xs (fun x hx => ih x (.tuple hx))
      exact ⟨.tuple ts, as, ⟨i, xs, rfl, h2⟩, okL_of h3⟩
    | set i xs =>
      obtain ⟨ts, as, h2, h3⟩ := are_of xs (fun x hx => ih x (.set hx))
      exact ⟨.set ts, as, ⟨i, xs, rfl, h2⟩, okL_of h3, members_of h2 h1.1 h1.2⟩
    | ref a =>
      obtain ⟨o, ho, h1⟩ := h1
      cases o with
      | list xs =>
        obtain ⟨ts, as, h2, h3⟩ := are_of xs (fun x hx => ih x (.list ho hx))
        exact ⟨.list ts, _, ⟨a, xs, as, rfl, ho, h2, rfl⟩, okL_of h3⟩
      | dict kvs =>
        obtain ⟨es, rfl, hn, hk⟩ := h1
        obtain ⟨ts, as, h2, h3, e⟩ := entries_of es (fun kv hkv => ih kv.2 (.dictVal (k := .str kv.1) ho (List.mem_map.2 ⟨kv, hkv, rfl⟩)))
        exact ⟨.dict ts, _, ⟨a, es, as, rfl, ho, h2, rfl⟩, by rw [e]; exact hn, keys_of (q := fun k => NameOk env.keys k ∧ StrOk k) e hk, okKv_of h3⟩
      | inst i =>
        obtain ⟨hc, hob, hn, hk⟩ := h1
        obtain ⟨ts, as, h2, h3, e⟩ := entries_of i.attrs (fun kv hkv => ih kv.2 (.inst ho (.attr (k := kv.1) hkv)))
        exact ⟨.inst i.cls ts, _, ⟨a, i, as, rfl, ho, hob, h2, rfl⟩, hc, by rw [e]; exact hn, keys_of e hk, okKv_of h3⟩
      | _ => exact h1.elim
    | _ => exact h1.elim

/-! ### isomorphism -/

mutual
theorem is_length {cls : Str → ClassInfo} {h h' : Heap} : ∀ {t : Tree} {v v' : Val} {as bs : List Addr}, Is cls h v t as → Is cls h' v' t bs → as.length = bs.length
  | .none, _, _, _, _, h1, h2 => by rw [h1.2, h2.2]
  | .bool _, _, _, _, _, h1, h2 => by rw [h1.2, h2.2]
  | .int _, _, _, _, _, h1, h2 => by rw [h1.2, h2.2]
  | .float _, _, _, _, _, h1, h2 => by rw [h1.2, h2.2]
  | .str _, _, _, _, _, h1, h2 => by rw [h1.2, h2.2]
  | .type _, _, _, _, _, h1, h2 => by rw [h1.2, h2.2]
  | .func _, _, _, _, _, h1, h2 => by rw [h1.2, h2.2]
  | .module _, _, _, _, _, h1, h2 => by rw [h1.2, h2.2]
  | .bytes _, _, _, _, _, h1, h2 => by obtain ⟨_, _, rfl⟩ := h1; obtain ⟨_, _, rfl⟩ := h2; rfl
  | .bytearray _, _, _, _, _, h1, h2 => by obtain ⟨_, _, rfl⟩ := h1; obtain ⟨_, _, rfl⟩ := h2; rfl
  | .list _, _, _, _, _, h1, h2 => by
    obtain ⟨_, _, _, _, _, g, rfl⟩ := h1
    obtain ⟨_, _, _, _, _, g', rfl⟩ := h2
    rw [List.length_cons, List.length_cons, are_length g g']
  | .tuple _, _, _, _, _, h1, h2 => by
    obtain ⟨_, _, _, g⟩ := h1
    obtain ⟨_, _, _, g'⟩ := h2
    exact are_length g g'
  | .set _, _, _, _, _, h1, h2 => by
    obtain ⟨_, _, _, g⟩ := h1
    obtain ⟨_, _, _, g'⟩ := h2
    exact are_length g g'
  | .dict _, _, _, _, _, h1, h2 => by
    obtain ⟨_, _, _, _, _, g, rfl⟩ := h1
    obtain ⟨_, _, _, _, _, g', rfl⟩ := h2
    rw [List.length_cons, List.length_cons, entries_length g g']
  | .inst _ _, _, _, _, _, h1, h2 => by
    obtain ⟨_, _, _, _, _, _, g, rfl⟩ := h1
    obtain ⟨_, _, _, _, _, _, g', rfl⟩ := h2
    rw [List.length_cons, List.length_cons, entries_length g g']
theorem are_length {cls : Str → ClassInfo} {h h' : Heap} : ∀ {t : List Tree} {vs vs' : List Val} {as bs : List Addr}, Are cls h vs t as → Are cls h' vs' t bs → as.length = bs.length
  | [], _, _, _, _, h1, h2 => by rw [h1.2, h2.2]
  | _ :: _, _, _, _, _, h1, h2 => by
    obtain ⟨_, _, _, _, _, g1, g2, rfl⟩ := h1
    obtain ⟨_, _, _, _, _, g1', g2', rfl⟩ := h2
    rw [List.length_append, List.length_append, is_length g1 g1', are_length g2 g2']
theorem entries_length {cls : Str → ClassInfo} {h h' : Heap} : ∀ {t : List (Str × Tree)} {vs vs' : List (Str × Val)} {as bs : List Addr}, EntriesAre cls h vs t as →
    EntriesAre cls h' vs' t bs → as.length = bs.length
  | [], _, _, _, _, h1, h2 => by rw [h1.2, h2.2]
  | (_, _) :: _, _, _, _, _, h1, h2 => by
    obtain ⟨_, _, _, _, _, g1, g2, rfl⟩ := h1
    obtain ⟨_, _, _, _, _, g1', g2', rfl⟩ := h2
    rw [List.length_append, List.length_append, is_length g1 g1', entries_length g2 g2']
end

def Cells (h h' : Heap) (R : Addr → Addr → Prop) (ps : List (Addr × Addr)) : Prop :=
  ∀ p ∈ ps, ∃ o o', h[p.1]? = some o ∧ h'[p.2]? = some o' ∧ SameObj id R o o'

theorem Cells.append {h h' : Heap} {R : Addr → Addr → Prop} {ps qs : List (Addr × Addr)} (h1 : Cells h h' R ps) (h2 : Cells h h' R qs) : Cells h h' R (ps ++ qs) := fun p hp =>
  (List.mem_append.1 hp).elim (h1 p) (h2 p)

theorem items_iso {R : Addr → Addr → Prop} : ∀ {es es' : List (Str × Val)}, FieldsIso R es es' →
    ItemsIso R (es.map (fun kv : Str × Val => (Val.str kv.1, kv.2))) (es'.map (fun kv : Str × Val => (Val.str kv.1, kv.2)))
  | [], [], _ => trivial
  | _ :: _, _ :: _, h => ⟨⟨h.1.1, h.1.2⟩, items_iso h.2⟩
  | [], _ :: _, h => h
  | _ :: _, [], h => h

theorem fields_of {R : Addr → Addr → Prop} : ∀ {es es' : List (Str × Val)}, ItemsIso R (es.map (fun kv : Str × Val => (Val.str kv.1, kv.2))) (es'.map (fun kv : Str × Val => (Val.str kv.1, kv.2))) →
    FieldsIso R es es'
  | [], [], _ => trivial
  | _ :: _, _ :: _, h => ⟨⟨h.1.1, h.1.2⟩, fields_of h.2⟩
  | [], _ :: _, h => h
  | _ :: _, [], h => h

mutual
theorem is_iso {cls : Str → ClassInfo} {h h' : Heap} {R : Addr → Addr → Prop} : ∀ {t : Tree} {v v' : Val} {as bs : List Addr}, Is cls h v t as → Is cls h' v' t bs →
    (∀ p ∈ as.zip bs, R p.1 p.2) → VIso R v v' ∧ Cells h h' R (as.zip bs)
  | .none, _, _, _, _, h1, h2, _ => by obtain ⟨rfl, rfl⟩ := h1; obtain ⟨rfl, rfl⟩ := h2; exact ⟨trivial, fun _ h => by cases h⟩
  | .bool _, _, _, _, _, h1, h2, _ => by obtain ⟨rfl, rfl⟩ := h1; obtain ⟨rfl, rfl⟩ := h2; exact ⟨rfl, fun _ h => by cases h⟩
  | .int _, _, _, _, _, h1, h2, _ => by obtain ⟨rfl, rfl⟩ := h1; obtain ⟨rfl, rfl⟩ := h2; exact ⟨rfl, fun _ h => by cases h⟩
  | .float _, _, _, _, _, h1, h2, _ => by obtain ⟨rfl, rfl⟩ := h1; obtain ⟨rfl, rfl⟩ := h2; exact ⟨rfl, fun _ h => by cases h⟩
  | .str _, _, _, _, _, h1, h2, _ => by obtain ⟨rfl, rfl⟩ := h1; obtain ⟨rfl, rfl⟩ := h2; exact ⟨rfl, fun _ h => by cases h⟩
  | .type _, _, _, _, _, h1, h2, _ => by obtain ⟨rfl, rfl⟩ := h1; obtain ⟨rfl, rfl⟩ := h2; exact ⟨rfl, fun _ h => by cases h⟩
  | .func _, _, _, _, _, h1, h2, _ => by obtain ⟨rfl, rfl⟩ := h1; obtain ⟨rfl, rfl⟩ := h2; exact ⟨rfl, fun _ h => by cases h⟩
  | .module _, _, _, _, _, h1, h2, _ => by obtain ⟨rfl, rfl⟩ := h1; obtain ⟨rfl, rfl⟩ := h2; exact ⟨rfl, fun _ h => by cases h⟩
  | .bytes _, _, _, _, _, h1, h2, _ => by obtain ⟨_, rfl, rfl⟩ := h1; obtain ⟨_, rfl, rfl⟩ := h2; exact ⟨rfl, fun _ h => by cases h⟩
  | .bytearray _, _, _, _, _, h1, h2, _ => by obtain ⟨_, rfl, rfl⟩ := h1; obtain ⟨_, rfl, rfl⟩ := h2; exact ⟨rfl, fun _ h => by cases h⟩
  | .list _, _, _, _, _, h1, h2, hr => by
    obtain ⟨a, vs, cs, rfl, hc, g, rfl⟩ := h1
    obtain ⟨a', vs', cs', rfl, hc', g', rfl⟩ := h2
    obtain ⟨i1, i2⟩ := are_iso g g' (fun p hp => hr p (.tail _ hp))
    refine ⟨hr (a, a') (.head _), fun p hp => ?_⟩
    rcases List.mem_cons.1 hp with rfl | hp
    · exact ⟨_, _, hc, hc', i1⟩
    · exact i2 p hp
  | .tuple _, _, _, _, _, h1, h2, hr => by
    obtain ⟨_, vs, rfl, g⟩ := h1
    obtain ⟨_, vs', rfl, g'⟩ := h2
    exact are_iso g g' hr
  | .set _, _, _, _, _, h1, h2, hr => by
    obtain ⟨_, vs, rfl, g⟩ := h1
    obtain ⟨_, vs', rfl, g'⟩ := h2
    exact are_iso g g' hr
  | .dict _, _, _, _, _, h1, h2, hr => by
    obtain ⟨a, vs, cs, rfl, hc, g, rfl⟩ := h1
    obtain ⟨a', vs', cs', rfl, hc', g', rfl⟩ := h2
    obtain ⟨i1, i2⟩ := entries_iso g g' (fun p hp => hr p (.tail _ hp))
    refine ⟨hr (a, a') (.head _), fun p hp => ?_⟩
    rcases List.mem_cons.1 hp with rfl | hp
    · exact ⟨_, _, hc, hc', items_iso i1⟩
    · exact i2 p hp
  | .inst _ _, _, _, _, _, h1, h2, hr => by
    obtain ⟨a, vs, cs, rfl, hc, ho, g, rfl⟩ := h1
    obtain ⟨a', vs', cs', rfl, hc', ho', g', rfl⟩ := h2
    obtain ⟨i1, i2⟩ := entries_iso g g' (fun p hp => hr p (.tail _ hp))
    refine ⟨hr (a, a') (.head _), fun p hp => ?_⟩
    rcases List.mem_cons.1 hp with rfl | hp
    · refine ⟨_, _, hc, hc', ho'.cls.trans ho.cls.symm, ho'.info.trans ho.info.symm, i1, ?_, ?_, ?_⟩
      · rw [ho.items, ho'.items]; trivial
      · rw [ho.elems, ho'.elems]; trivial
      · rw [ho.factory, ho'.factory]; trivial
    · exact i2 p hp
theorem are_iso {cls : Str → ClassInfo} {h h' : Heap} {R : Addr → Addr → Prop} : ∀ {t : List Tree} {vs vs' : List Val} {as bs : List Addr}, Are cls h vs t as → Are cls h' vs' t bs →
    (∀ p ∈ as.zip bs, R p.1 p.2) → VIsos R vs vs' ∧ Cells h h' R (as.zip bs)
  | [], _, _, _, _, h1, h2, _ => by obtain ⟨rfl, rfl⟩ := h1; obtain ⟨rfl, rfl⟩ := h2; exact ⟨trivial, fun _ h => by cases h⟩
  | _ :: _, _, _, _, _, h1, h2, hr => by
    obtain ⟨v, vs, bs, cs, rfl, g1, g2, rfl⟩ := h1
    obtain ⟨v', vs', bs', cs', rfl, g1', g2', rfl⟩ := h2
    rw [List.zip_append (is_length g1 g1')] at hr ⊢
    obtain ⟨i1, i2⟩ := is_iso g1 g1' (fun p hp => hr p (List.mem_append_left _ hp))
    obtain ⟨j1, j2⟩ := are_iso g2 g2' (fun p hp => hr p (List.mem_append_right _ hp))
    exact ⟨⟨i1, j1⟩, i2.append j2⟩
theorem entries_iso {cls : Str → ClassInfo} {h h' : Heap} {R : Addr → Addr → Prop} : ∀ {t : List (Str × Tree)} {es es' : List (Str × Val)} {as bs : List Addr}, EntriesAre cls h es t as →
    EntriesAre cls h' es' t bs → (∀ p ∈ as.zip bs, R p.1 p.2) → FieldsIso R es es' ∧ Cells h h' R (as.zip bs)
  | [], _, _, _, _, h1, h2, _ => by obtain ⟨rfl, rfl⟩ := h1; obtain ⟨rfl, rfl⟩ := h2; exact ⟨trivial, fun _ h => by cases h⟩
  | (_, _) :: _, _, _, _, _, h1, h2, hr => by
    obtain ⟨v, vs, bs, cs, rfl, g1, g2, rfl⟩ := h1
    obtain ⟨v', vs', bs', cs', rfl, g1', g2', rfl⟩ := h2
    rw [List.zip_append (is_length g1 g1')] at hr ⊢
    obtain ⟨i1, i2⟩ := is_iso g1 g1' (fun p hp => hr p (List.mem_append_left _ hp))
    obtain ⟨j1, j2⟩ := entries_iso g2 g2' (fun p hp => hr p (List.mem_append_right _ hp))
    exact ⟨⟨⟨rfl, i1⟩, j1⟩, i2.append j2⟩
end

mutual
theorem iso_is {cls : Str → ClassInfo} {h h' : Heap} {R : Addr → Addr → Prop} (hR : ∀ a b, R a b → ∃ o o', h[a]? = some o ∧ h'[b]? = some o' ∧ SameObj id R o o') :
    ∀ {t : Tree} {v v' : Val} {as bs : List Addr}, Is cls h v t as → Is cls h' v' t bs → VIso R v v' → ∀ p ∈ as.zip bs, R p.1 p.2
  | .none, _, _, _, _, h1, _, _ => by obtain ⟨rfl, rfl⟩ := h1; exact fun _ h => by cases h
  | .bool _, _, _, _, _, h1, _, _ => by obtain ⟨rfl, rfl⟩ := h1; exact fun _ h => by cases h
  | .int _, _, _, _, _, h1, _, _ => by obtain ⟨rfl, rfl⟩ := h1; exact fun _ h => by cases h
  | .float _, _, _, _, _, h1, _, _ => by obtain ⟨rfl, rfl⟩ := h1; exact fun _ h => by cases h
  | .str _, _, _, _, _, h1, _, _ => by obtain ⟨rfl, rfl⟩ := h1; exact fun _ h => by cases h
  | .type _, _, _, _, _, h1, _, _ => by obtain ⟨rfl, rfl⟩ := h1; exact fun _ h => by cases h
  | .func _, _, _, _, _, h1, _, _ => by obtain ⟨rfl, rfl⟩ := h1; exact fun _ h => by cases h
  | .module _, _, _, _, _, h1, _, _ => by obtain ⟨rfl, rfl⟩ := h1; exact fun _ h => by cases h
  | .bytes _, _, _, _, _, h1, _, _ => by obtain ⟨_, rfl, rfl⟩ := h1; exact fun _ h => by cases h
  | .bytearray _, _, _, _, _, h1, _, _ => by obtain ⟨_, rfl, rfl⟩ := h1; exact fun _ h => by cases h
  | .list _, _, _, _, _, h1, h2, hv => by
    obtain ⟨a, vs, cs, rfl, hc, g, rfl⟩ := h1
    obtain ⟨a', vs', cs', rfl, hc', g', rfl⟩ := h2
    obtain ⟨o, o', e, e', hs⟩ := hR a a' hv
    rw [hc] at e; cases e
    rw [hc'] at e'; cases e'
    intro p hp
    rcases List.mem_cons.1 hp with rfl | hp
    · exact hv
    · exact iso_are hR g g' hs p hp
  | .tuple _, _, _, _, _, h1, h2, hv => by
    obtain ⟨_, vs, rfl, g⟩ := h1
    obtain ⟨_, vs', rfl, g'⟩ := h2
    exact iso_are hR g g' hv
  | .set _, _, _, _, _, h1, h2, hv => by
    obtain ⟨_, vs, rfl, g⟩ := h1
    obtain ⟨_, vs', rfl, g'⟩ := h2
    exact iso_are hR g g' hv
  | .dict _, _, _, _, _, h1, h2, hv => by
    obtain ⟨a, vs, cs, rfl, hc, g, rfl⟩ := h1
    obtain ⟨a', vs', cs', rfl, hc', g', rfl⟩ := h2
    obtain ⟨o, o', e, e', hs⟩ := hR a a' hv
    rw [hc] at e; cases e
    rw [hc'] at e'; cases e'
    intro p hp
    rcases List.mem_cons.1 hp with rfl | hp
    · exact hv
    · exact iso_entries hR g g' (fields_of hs) p hp
  | .inst _ _, _, _, _, _, h1, h2, hv => by
    obtain ⟨a, vs, cs, rfl, hc, _, g, rfl⟩ := h1
    obtain ⟨a', vs', cs', rfl, hc', _, g', rfl⟩ := h2
    obtain ⟨o, o', e, e', hs⟩ := hR a a' hv
    rw [hc] at e; cases e
    rw [hc'] at e'; cases e'
    intro p hp
    rcases List.mem_cons.1 hp with rfl | hp
    · exact hv
    · exact iso_entries hR g g' hs.2.2.1 p hp
theorem iso_are {cls : Str → ClassInfo} {h h' : Heap} {R : Addr → Addr → Prop} (hR : ∀ a b, R a b → ∃ o o', h[a]? = some o ∧ h'[b]? = some o' ∧ SameObj id R o o') :
    ∀ {t : List Tree} {vs vs' : List Val} {as bs : List Addr}, Are cls h vs t as → Are cls h' vs' t bs → VIsos R vs vs' → ∀ p ∈ as.zip bs, R p.1 p.2
  | [], _, _, _, _, h1, _, _ => by obtain ⟨rfl, rfl⟩ := h1; exact fun _ h => by cases h
  | _ :: _, _, _, _, _, h1, h2, hv => by
    obtain ⟨v, vs, bs, cs, rfl, g1, g2, rfl⟩ := h1
    obtain ⟨v', vs', bs', cs', rfl, g1', g2', rfl⟩ := h2
    rw [List.zip_append (is_length g1 g1')]
    exact fun p hp => (List.mem_append.1 hp).elim (iso_is hR g1 g1' hv.1 p) (iso_are hR g2 g2' hv.2 p)
theorem iso_entries {cls : Str → ClassInfo} {h h' : Heap} {R : Addr → Addr → Prop} (hR : ∀ a b, R a b → ∃ o o', h[a]? = some o ∧ h'[b]? = some o' ∧ SameObj id R o o') :
    ∀ {t : List (Str × Tree)} {es es' : List (Str × Val)} {as bs : List Addr}, EntriesAre cls h es t as → EntriesAre cls h' es' t bs → FieldsIso R es es' → ∀ p ∈ as.zip bs, R p.1 p.2
  | [], _, _, _, _, h1, _, _ => by obtain ⟨rfl, rfl⟩ := h1; exact fun _ h => by cases h
  | (_, _) :: _, _, _, _, _, h1, h2, hv => by
    obtain ⟨v, vs, bs, cs, rfl, g1, g2, rfl⟩ := h1
    obtain ⟨v', vs', bs', cs', rfl, g1', g2', rfl⟩ := h2
    rw [List.zip_append (is_length g1 g1')]
    exact fun p hp => (List.mem_append.1 hp).elim (iso_is hR g1 g1' hv.1.2 p) (iso_entries hR g2 g2' hv.2 p)
end

theorem nodup_zip : ∀ {as bs : List Addr} {R : Addr → Addr → Prop}, (∀ a b b', R a b → R a b' → b = b') → as.length = bs.length → (∀ p ∈ as.zip bs, R p.1 p.2) → bs.Nodup → as.Nodup
  | [], _, _, _, _, _, _ => List.nodup_nil
  | a :: as, b :: bs, R, hf, hl, hr, hn => by
    have hl' : as.length = bs.length := by simpa using hl
    refine List.nodup_cons.2 ⟨fun hm => ?_, nodup_zip hf hl' (fun p hp => hr p (.tail _ hp)) (List.nodup_cons.1 hn).2⟩
    obtain ⟨i, hi, e⟩ := List.getElem_of_mem hm
    have h1 : (as[i], bs[i]'(hl' ▸ hi)) ∈ as.zip bs := by
      rw [List.mem_iff_getElem]
      exact ⟨i, by rw [List.length_zip, ← hl']; omega, by simp⟩
    have h2 := hr _ (.tail _ h1)
    have h3 := hr (a, b) (.head _)
    simp only [e] at h2
    have := hf a b _ h3 h2
    exact (List.nodup_cons.1 hn).1 (this ▸ List.getElem_mem _)

theorem zip_functional : ∀ {as bs : List Addr}, as.Nodup → ∀ {a b b'}, (a, b) ∈ as.zip bs → (a, b') ∈ as.zip bs → b = b'
  | a :: as, b :: bs, hn, x, y, y', h1, h2 => by
    obtain ⟨hn1, hn2⟩ := List.nodup_cons.1 hn
    have key : ∀ {z}, (x, z) ∈ as.zip bs → x ≠ a := fun hz e => hn1 (e ▸ (List.of_mem_zip hz).1)
    rcases List.mem_cons.1 h1 with e1 | h1 <;> rcases List.mem_cons.1 h2 with e2 | h2
    · cases e1; cases e2; rfl
    · cases e1; exact absurd rfl (key h2)
    · cases e2; exact absurd rfl (key h1)
    · exact zip_functional hn2 h1 h2

theorem zip_injective : ∀ {as bs : List Addr}, bs.Nodup → ∀ {a a' b}, (a, b) ∈ as.zip bs → (a', b) ∈ as.zip bs → a = a'
  | a :: as, b :: bs, hn, x, y, y', h1, h2 => by
    obtain ⟨hn1, hn2⟩ := List.nodup_cons.1 hn
    have key : ∀ {z}, (z, y') ∈ as.zip bs → y' ≠ b := fun hz e => hn1 (e ▸ (List.of_mem_zip hz).2)
    rcases List.mem_cons.1 h1 with e1 | h1 <;> rcases List.mem_cons.1 h2 with e2 | h2
    · cases e1; cases e2; rfl
    · cases e1; exact absurd rfl (key h2)
    · cases e2; exact absurd rfl (key h1)
    · exact zip_injective hn2 h1 h2

/-- a graph with the same unfolding in which nothing is met twice is isomorphic exactly if nothing is met twice in the first one -/
theorem sameData_iff {cls : Str → ClassInfo} {h h' : Heap} {t : Tree} {v v' : Val} {as bs : List Addr} (h1 : Is cls h v t as) (h2 : Is cls h' v' t bs) (hn : bs.Nodup) :
    SameData id h v h' v' ↔ as.Nodup := by
  constructor
  · rintro ⟨R, hf, _, hv, hR⟩
    exact nodup_zip hf (is_length h1 h2) (iso_is hR h1 h2 hv) hn
  · intro hn'
    obtain ⟨i1, i2⟩ := is_iso (R := fun a b => (a, b) ∈ as.zip bs) h1 h2 (fun _ hp => hp)
    exact ⟨fun a b => (a, b) ∈ as.zip bs, fun a b b' g1 g2 => zip_functional hn' g1 g2, fun a a' b g1 g2 => zip_injective hn g1 g2, i1, fun a b g => i2 (a, b) g⟩

end JP.Unfold
