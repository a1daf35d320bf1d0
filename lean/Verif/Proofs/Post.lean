import Verif.Proofs.PLogic
/-!
# What the encoder writes, whatever the recursive call returns

Postconditions of single encoder functions; nothing is assumed about `fl`.
-/
namespace JP
open PyM

/-- every normal result satisfies `Q` -/
def Post {σ α : Type} (x : PyM σ α) (Q : α → Prop) : Prop := ∀ s a s', x s = some (.ok a, s') → Q a

namespace Post
variable {σ α β : Type} {Q : α → Prop} {R : β → Prop}

theorem pure {a : α} (h : Q a) : Post (Pure.pure a : PyM σ α) Q := by
  intro s b s' hr
  cases hr
  exact h

theorem any (x : PyM σ α) : Post x (fun _ => True) := fun _ _ _ _ => trivial

theorem bind {x : PyM σ α} {f : α → PyM σ β} (hx : Post x Q) (hf : ∀ a, Q a → Post (f a) R) : Post (x >>= f) R := by
  intro s b s' h
  obtain ⟨a, s1, h1, h2⟩ := bind_eq_ok.1 h
  exact hf a (hx _ _ _ h1) _ _ _ h2

/-- nothing is known about the first part -/
theorem seq {x : PyM σ α} {f : α → PyM σ β} (hf : ∀ a, Post (f a) R) : Post (x >>= f) R :=
  (any x).bind (fun a _ => hf a)

theorem throw {e : Exc} : Post (PyM.throw e : PyM σ α) Q := by
  intro s b s' h; cases h

theorem ofExcept {r : Except Exc α} (h : ∀ a, r = .ok a → Q a) : Post (PyM.ofExcept r : PyM σ α) Q := by
  intro s b s' hr
  cases hr
  exact h b rfl

theorem conseq {Q' : α → Prop} {x : PyM σ α} (h : Post x Q) (hq : ∀ a, Q a → Q' a) : Post x Q' :=
  fun s a s' hr => hq a (h s a s' hr)

theorem foldM {γ : Type} {f : α → γ → PyM σ α} : ∀ (xs : List γ) {a : α}, Q a → (∀ b x, x ∈ xs → Q b → Post (f b x) Q) →
    Post (PyM.foldM f a xs) Q
  | [], _, ha, _ => Post.pure ha
  | x :: xs, a, ha, hf => (hf a x (by simp) ha).bind (fun b hb => foldM xs hb (fun b y hy => hf b y (by simp [hy])))

theorem tryCatch {x : PyM σ α} {p : Exc → Bool} {h : Exc → PyM σ α} (hx : Post x Q) (hh : ∀ e, Post (h e) Q) :
    Post (PyM.tryCatch x p h) Q := by
  intro s a s' hr
  unfold PyM.tryCatch at hr
  split at hr
  · split at hr
    · exact hh _ _ _ _ hr
    · cases hr
  · exact hx _ _ _ hr

end Post

namespace Pickler
variable {w : World} {cfg : PCfg} {fl : Val → P Json}

/-- all keys satisfy `K` -/
def KeysP (K : Str → Prop) (d : List (Str × Json)) : Prop := ∀ k ∈ d.map (·.1), K k

theorem KeysP.dset {K : Str → Prop} {d : List (Str × Json)} {k : Str} {j : Json} (h : KeysP K d) (hk : K k) : KeysP K (dset k j d) := by
  intro k' hk'
  obtain ⟨kv, h1, rfl⟩ := List.mem_map.1 hk'
  rcases Logic.mem_dset h1 with e | e
  · rw [e]; exact hk
  · exact h _ (List.mem_map.2 ⟨kv, e, rfl⟩)

/-- the keys under which one entry `k: v` can be written -/
structure KeyP (w : World) (cfg : PCfg) (K : Str → Prop) (k : Val) : Prop where
  str : ∀ s, k = .str s → Tags.isReserved s = false → (cfg.keys = true → needsEscape s = false) → K s
  repr : cfg.keys = false → (∀ s, k ≠ .str s) → ∀ s, reprKey w k = .ok s → K s
  esc : cfg.keys = true → ∀ t, K (Tags.JSON_KEY ++ t)

theorem picklable_str {s : Str} {v : Val} (h : isPicklable (.str s) v = true) : Tags.isReserved s = false := by
  simp only [isPicklable, Bool.and_eq_true, Bool.not_eq_true'] at h
  exact h.1

/-- writing an entry keeps `A` -/
def Grows (K : Str → Prop) (A : List (Str × Json) → Prop) : Prop := ∀ {d k j}, A d → K k → A (dset k j d)

theorem KeysP.grows {K : Str → Prop} : Grows K (KeysP K) := fun h hk => h.dset hk

theorem post_pair {K : Str → Prop} {A : List (Str × Json) → Prop} (hA : Grows K A) {k v : Val} {d : List (Str × Json)} (hk : KeyP w cfg K k) (hc : cfg.keys = false) (hd : A d) :
    Post (flattenKeyValuePair w fl k v d) (A) := by
  unfold flattenKeyValuePair
  split
  · next hp =>
    refine Post.bind (Q := K) (Post.ofExcept ?_) (fun a ha => Post.seq (fun j => Post.pure (hA hd ha)))
    intro a ha
    by_cases hs : ∃ s, k = .str s
    · obtain ⟨s, rfl⟩ := hs
      cases ha
      exact hk.str _ rfl (picklable_str hp) (fun h => by rw [hc] at h; cases h)
    · exact hk.repr hc (fun s e => hs ⟨s, e⟩) _ ha
  · exact Post.pure hd

theorem post_nonString {K : Str → Prop} {A : List (Str × Json) → Prop} (hA : Grows K A) {k v : Val} {d : List (Str × Json)} (hk : KeyP w cfg K k) (hd : A d) :
    Post (flattenNonString w cfg fl k v d) (A) := by
  unfold flattenNonString
  split
  · split
    · exact Post.pure hd
    · split
      · next hc =>
        refine Post.bind (Q := K) ?_ (fun a ha => Post.seq (fun j => Post.pure (hA hd ha)))
        exact Post.seq (fun j => Post.pure (hk.esc hc _))
      · exact Post.pure hd
  · exact Post.pure hd

theorem post_string {K : Str → Prop} {A : List (Str × Json) → Prop} (hA : Grows K A) {k v : Val} {d : List (Str × Json)} (hk : KeyP w cfg K k) (hc : cfg.keys = true) (hd : A d) :
    Post (flattenString w cfg fl k v d) (A) := by
  have tail : (∀ s, k = .str s → needsEscape s = false) → Post (flattenStringTail w cfg fl k v d) (A) := by
    intro hne
    unfold flattenStringTail
    split
    · next hp =>
      split
      · exact Post.seq (fun j => Post.pure (hA hd (hk.str _ rfl (picklable_str hp) (fun _ => hne _ rfl))))
      · exact Post.pure hd
    · exact Post.pure hd
  unfold flattenString
  split
  · next s =>
    split
    · refine Post.seq (fun j => Post.bind (Q := K) ?_ (fun a ha => Post.pure (hA hd ha)))
      exact Post.seq (fun j => Post.pure (hk.esc hc _))
    · next hn =>
      refine tail (fun s' e => ?_)
      cases e
      simpa [hc] using hn
  · next hn => exact tail (fun s e => absurd e (hn s))

theorem post_entries {K : Str → Prop} {A : List (Str × Json) → Prop} (hA : Grows K A) {kvs : List (Val × Val)} {excl : List Str} {d : List (Str × Json)}
    (hk : ∀ kv ∈ itemsExcl excl kvs, KeyP w cfg K kv.1) (hd : A d) : Post (flattenEntries w cfg fl kvs excl d) (A) := by
  unfold flattenEntries
  simp only
  split
  · next hc =>
    refine Post.bind (Post.foldM _ hd (fun b kv hkv hb => post_string hA (hk kv hkv) hc hb)) (fun d1 hd1 => ?_)
    exact Post.foldM _ hd1 (fun b kv hkv hb => post_nonString hA (hk kv hkv) hb)
  · next hc =>
    exact Post.foldM _ hd (fun b kv hkv hb => post_pair hA (hk kv hkv) (by simpa using hc) hb)

theorem post_objAttrs {K : Str → Prop} {A : List (Str × Json) → Prop} (hA : Grows K A) {i : Inst} {lookup : List (Str × Val)} {names : List Str} {d : List (Str × Json)}
    (hk : ∀ k ∈ names, k ∉ i.exclude → Tags.isReserved k = false → K k) (hd : A d) :
    Post (flattenObjAttrs w fl i lookup names d) (fun r => A r.2) := by
  unfold flattenObjAttrs
  refine Post.foldM _ hd (fun b k hkn hb => ?_)
  split
  · exact Post.pure hb
  · next hx =>
    refine Post.tryCatch ?_ (fun e => Post.pure hb)
    refine Post.seq (fun v => Post.bind (Q := A) ?_ (fun d' hd' => Post.pure hd'))
    unfold flattenKeyValuePair
    split
    · next hp =>
      refine Post.bind (Q := K) (Post.ofExcept ?_) (fun a ha => Post.seq (fun j => Post.pure (hA hb ha)))
      intro a ha
      cases ha
      exact hk _ hkn (by simpa using hx) (picklable_str hp)
    · exact Post.pure hb

end Pickler
end JP
