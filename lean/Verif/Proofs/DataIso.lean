import Verif.Proofs.PIso
import Verif.Proofs.UMade
import Verif.Proofs.RoundTrip
import Verif.Props.C37
/-!
# Data graphs: rebuilt graphs, and the text of isomorphic graphs
-/
namespace JP.PIso
open JP PyM Pickler Unpickler

variable {R : Addr → Addr → Prop}

/-! ### correspondences -/

mutual
/-- only the cells that are named in the two values matter -/
theorem restrict {P Q : Addr → Prop} : ∀ {x y : Val}, VIso R x y → (∀ a, Mentions x a → P a) → (∀ b, Mentions y b → Q b) →
    VIso (fun a b => R a b ∧ P a ∧ Q b) x y
  | .ref a, y, h, hp, hq => by
    cases y <;> simp only [VIso] at h ⊢
    exact ⟨h, hp a (.self a), hq _ (.self _)⟩
  | .tuple _ xs, y, h, hp, hq => by
    cases y <;> simp only [VIso] at h ⊢
    exact restricts h (fun a x hx hm => hp a (.tuple hx hm)) (fun b x hx hm => hq b (.tuple hx hm))
  | .set _ xs, y, h, hp, hq => by
    cases y <;> simp only [VIso] at h ⊢
    exact restricts h (fun a x hx hm => hp a (.set hx hm)) (fun b x hx hm => hq b (.set hx hm))
  | .none, y, h, _, _ => by cases y <;> simp only [VIso] at h ⊢
  | .bool _, y, h, _, _ => by cases y <;> simp only [VIso] at h ⊢; exact h
  | .int _, y, h, _, _ => by cases y <;> simp only [VIso] at h ⊢; exact h
  | .float _, y, h, _, _ => by cases y <;> simp only [VIso] at h ⊢; exact h
  | .str _, y, h, _, _ => by cases y <;> simp only [VIso] at h ⊢; exact h
  | .bytes _ _, y, h, _, _ => by cases y <;> simp only [VIso] at h ⊢; exact h
  | .bytearray _ _, y, h, _, _ => by cases y <;> simp only [VIso] at h ⊢; exact h
  | .type _, y, h, _, _ => by cases y <;> simp only [VIso] at h ⊢; exact h
  | .func _, y, h, _, _ => by cases y <;> simp only [VIso] at h ⊢; exact h
  | .module _, y, h, _, _ => by cases y <;> simp only [VIso] at h ⊢; exact h
  | .lambda _, y, h, _, _ => by cases y <;> simp only [VIso] at h
theorem restricts {P Q : Addr → Prop} : ∀ {xs ys : List Val}, VIsos R xs ys → (∀ a, ∀ x ∈ xs, Mentions x a → P a) → (∀ b, ∀ y ∈ ys, Mentions y b → Q b) →
    VIsos (fun a b => R a b ∧ P a ∧ Q b) xs ys
  | [], ys, h, _, _ => by cases ys <;> simp only [VIsos] at h ⊢
  | x :: xs, ys, h, hp, hq => by
    cases ys <;> simp only [VIsos] at h ⊢
    exact ⟨restrict h.1 (fun a => hp a x List.mem_cons_self) (fun b => hq b _ List.mem_cons_self),
      restricts h.2 (fun a x hx => hp a x (List.mem_cons_of_mem _ hx)) (fun b y hy => hq b y (List.mem_cons_of_mem _ hy))⟩
end

theorem All2.restrict {α β : Type} {p q : α → β → Prop} : ∀ {xs : List α} {ys : List β}, All2 p xs ys →
    (∀ x ∈ xs, ∀ y ∈ ys, p x y → q x y) → All2 q xs ys
  | [], [], _, _ => trivial
  | [], _ :: _, h, _ => h.elim
  | _ :: _, [], h, _ => h.elim
  | _ :: _, _ :: _, h, hq => ⟨hq _ List.mem_cons_self _ List.mem_cons_self h.1,
      All2.restrict h.2 (fun x hx y hy => hq x (List.mem_cons_of_mem _ hx) y (List.mem_cons_of_mem _ hy))⟩

theorem All2.symm {α β : Type} {p : α → β → Prop} {q : β → α → Prop} (h : ∀ x y, p x y → q y x) : ∀ {xs : List α} {ys : List β}, All2 p xs ys → All2 q ys xs
  | [], [], _ => trivial
  | [], _ :: _, h => h.elim
  | _ :: _, [], h => h.elim
  | _ :: _, _ :: _, k => ⟨h _ _ k.1, All2.symm h k.2⟩

theorem All2.trans {α β γ : Type} {p : α → β → Prop} {q : β → γ → Prop} {r : α → γ → Prop} (h : ∀ x y z, p x y → q y z → r x z) :
    ∀ {xs : List α} {ys : List β} {zs : List γ}, All2 p xs ys → All2 q ys zs → All2 r xs zs
  | [], [], [], _, _ => trivial
  | [], [], _ :: _, _, h => h.elim
  | [], _ :: _, _, h, _ => h.elim
  | _ :: _, [], _, h, _ => h.elim
  | _ :: _, _ :: _, [], _, h => h.elim
  | _ :: _, _ :: _, _ :: _, k, l => ⟨h _ _ _ k.1 l.1, All2.trans h k.2 l.2⟩

mutual
theorem VIso.symm : ∀ {x y : Val}, VIso R x y → VIso (fun a b => R b a) y x
  | .ref a, y, h => by cases y <;> simp only [VIso] at h ⊢; exact h
  | .tuple _ xs, y, h => by cases y <;> simp only [VIso] at h ⊢; exact VIsos.symm h
  | .set _ xs, y, h => by cases y <;> simp only [VIso] at h ⊢; exact VIsos.symm h
  | .none, y, h => by cases y <;> simp only [VIso] at h ⊢
  | .bool _, y, h => by cases y <;> simp only [VIso] at h ⊢; exact h.symm
  | .int _, y, h => by cases y <;> simp only [VIso] at h ⊢; exact h.symm
  | .float _, y, h => by cases y <;> simp only [VIso] at h ⊢; exact h.symm
  | .str _, y, h => by cases y <;> simp only [VIso] at h ⊢; exact h.symm
  | .bytes _ _, y, h => by cases y <;> simp only [VIso] at h ⊢; exact h.symm
  | .bytearray _ _, y, h => by cases y <;> simp only [VIso] at h ⊢; exact h.symm
  | .type _, y, h => by cases y <;> simp only [VIso] at h ⊢; exact h.symm
  | .func _, y, h => by cases y <;> simp only [VIso] at h ⊢; exact h.symm
  | .module _, y, h => by cases y <;> simp only [VIso] at h ⊢; exact h.symm
  | .lambda _, y, h => by cases y <;> simp only [VIso] at h
theorem VIsos.symm : ∀ {xs ys : List Val}, VIsos R xs ys → VIsos (fun a b => R b a) ys xs
  | [], ys, h => by cases ys <;> simp only [VIsos] at h ⊢
  | x :: xs, ys, h => by
    cases ys <;> simp only [VIsos] at h ⊢
    exact ⟨VIso.symm h.1, VIsos.symm h.2⟩
end

mutual
theorem VIso.trans {S : Addr → Addr → Prop} : ∀ {x y z : Val}, VIso R x y → VIso S y z → VIso (fun a c => ∃ b, R a b ∧ S b c) x z
  | .ref a, y, z, h, k => by
    cases y <;> simp only [VIso] at h
    cases z <;> simp only [VIso] at k ⊢
    exact ⟨_, h, k⟩
  | .tuple _ xs, y, z, h, k => by
    cases y <;> simp only [VIso] at h
    cases z <;> simp only [VIso] at k ⊢
    exact VIsos.trans h k
  | .set _ xs, y, z, h, k => by
    cases y <;> simp only [VIso] at h
    cases z <;> simp only [VIso] at k ⊢
    exact VIsos.trans h k
  | .none, y, z, h, k => by cases y <;> simp only [VIso] at h; cases z <;> simp only [VIso] at k ⊢
  | .bool _, y, z, h, k => by cases y <;> simp only [VIso] at h; cases z <;> simp only [VIso] at k ⊢; exact h.trans k
  | .int _, y, z, h, k => by cases y <;> simp only [VIso] at h; cases z <;> simp only [VIso] at k ⊢; exact h.trans k
  | .float _, y, z, h, k => by cases y <;> simp only [VIso] at h; cases z <;> simp only [VIso] at k ⊢; exact h.trans k
  | .str _, y, z, h, k => by cases y <;> simp only [VIso] at h; cases z <;> simp only [VIso] at k ⊢; exact h.trans k
  | .bytes _ _, y, z, h, k => by cases y <;> simp only [VIso] at h; cases z <;> simp only [VIso] at k ⊢; exact h.trans k
  | .bytearray _ _, y, z, h, k => by cases y <;> simp only [VIso] at h; cases z <;> simp only [VIso] at k ⊢; exact h.trans k
  | .type _, y, z, h, k => by cases y <;> simp only [VIso] at h; cases z <;> simp only [VIso] at k ⊢; exact h.trans k
  | .func _, y, z, h, k => by cases y <;> simp only [VIso] at h; cases z <;> simp only [VIso] at k ⊢; exact h.trans k
  | .module _, y, z, h, k => by cases y <;> simp only [VIso] at h; cases z <;> simp only [VIso] at k ⊢; exact h.trans k
  | .lambda _, y, z, h, k => by cases y <;> simp only [VIso] at h
theorem VIsos.trans {S : Addr → Addr → Prop} : ∀ {xs ys zs : List Val}, VIsos R xs ys → VIsos S ys zs → VIsos (fun a c => ∃ b, R a b ∧ S b c) xs zs
  | [], ys, zs, h, k => by cases ys <;> simp only [VIsos] at h; cases zs <;> simp only [VIsos] at k ⊢
  | x :: xs, ys, zs, h, k => by
    cases ys <;> simp only [VIsos] at h
    cases zs <;> simp only [VIsos] at k ⊢
    exact ⟨VIso.trans h.1 k.1, VIsos.trans h.2 k.2⟩
end

theorem SameObj.symm {order : List (Val × Val) → List (Val × Val)} {o o' : Obj} (h : SameObj order R o o') : SameObj order (fun a b => R b a) o' o := by
  cases o <;> cases o' <;> simp only [SameObj] at h ⊢
  · exact VIsos.symm h
  · exact All2.symm (fun x y k => ⟨VIso.symm k.1, VIso.symm k.2⟩) h
  · obtain ⟨h1, h2, h3, h4, h5, h6⟩ := h
    refine ⟨h1.symm, h2.symm, All2.symm (fun x y k => ⟨k.1.symm, VIso.symm k.2⟩) h3, All2.symm (fun x y k => ⟨VIso.symm k.1, VIso.symm k.2⟩) h4,
      VIsos.symm h5, ?_⟩
    rename_i i i'
    cases e : i.factory <;> cases e' : i'.factory <;> simp only [e, e'] at h6 ⊢
    exact VIso.symm h6

theorem SameObj.trans {order : List (Val × Val) → List (Val × Val)} {S : Addr → Addr → Prop} {o o' o'' : Obj} (h : SameObj order R o o')
    (k : SameObj order S o' o'') : SameObj order (fun a c => ∃ b, R a b ∧ S b c) o o'' := by
  cases o <;> cases o' <;> simp only [SameObj] at h <;> cases o'' <;> simp only [SameObj] at k ⊢
  · exact VIsos.trans h k
  · exact All2.trans (fun x y z p q => ⟨VIso.trans p.1 q.1, VIso.trans p.2 q.2⟩) h k
  · obtain ⟨h1, h2, h3, h4, h5, h6⟩ := h
    obtain ⟨k1, k2, k3, k4, k5, k6⟩ := k
    refine ⟨k1.trans h1, k2.trans h2, All2.trans (fun x y z p q => ⟨p.1.trans q.1, VIso.trans p.2 q.2⟩) h3 k3,
      All2.trans (fun x y z p q => ⟨VIso.trans p.1 q.1, VIso.trans p.2 q.2⟩) h4 k4, VIsos.trans h5 k5, ?_⟩
    rename_i i i' i''
    cases e : i.factory <;> cases e' : i'.factory <;> simp only [e, e'] at h6 <;> cases e'' : i''.factory <;> simp only [e', e''] at k6 ⊢
    exact VIso.trans h6 k6

theorem SameData.symm {order : List (Val × Val) → List (Val × Val)} {h h' : Heap} {v v' : Val} (s : SameData order h v h' v') : SameData order h' v' h v := by
  obtain ⟨R, f, g, hv, hc⟩ := s
  refine ⟨fun a b => R b a, fun a b b' p q => g _ _ _ p q, fun a a' b p q => f _ _ _ p q, VIso.symm hv, fun a b p => ?_⟩
  obtain ⟨o, o', e1, e2, e3⟩ := hc b a p
  exact ⟨o', o, e2, e1, SameObj.symm e3⟩

theorem SameData.trans {order : List (Val × Val) → List (Val × Val)} {h h' h'' : Heap} {v v' v'' : Val} (s : SameData order h v h' v')
    (t : SameData order h' v' h'' v'') : SameData order h v h'' v'' := by
  obtain ⟨R, f, g, hv, hc⟩ := s
  obtain ⟨S, f', g', hv', hc'⟩ := t
  refine ⟨fun a c => ∃ b, R a b ∧ S b c, ?_, ?_, VIso.trans hv hv', ?_⟩
  · rintro a c c' ⟨b, p, q⟩ ⟨b', p', q'⟩
    cases f _ _ _ p p'
    exact f' _ _ _ q q'
  · rintro a a' c ⟨b, p, q⟩ ⟨b', p', q'⟩
    cases g' _ _ _ q q'
    exact g _ _ _ p p'
  · rintro a c ⟨b, p, q⟩
    obtain ⟨o, o', e1, e2, e3⟩ := hc a b p
    obtain ⟨o1, o'', k1, k2, k3⟩ := hc' b c q
    rw [e2] at k1
    cases k1
    exact ⟨o, o'', e1, k2, SameObj.trans e3 k3⟩

/-! ### reachable objects -/

theorem Mentions.reach {h : Heap} {x : Val} {a : Addr} (m : Mentions x a) : Reach h x a := by
  induction m with
  | self a => exact .self a
  | tuple hx _ ih => exact .tuple hx ih
  | set hx _ ih => exact .set hx ih

theorem Reach.trans {h : Heap} {v x : Val} {a b : Addr} {o : Obj} (hr : Reach h v a) (ho : h[a]? = some o) (hx : x ∈ o.parts) (hb : Reach h x b) : Reach h v b := by
  induction hr with
  | self a => exact .cell ho hx hb
  | cell h1 h2 _ ih => exact .cell h1 h2 (ih ho)
  | tuple h1 _ ih => exact .tuple h1 (ih ho)
  | set h1 _ ih => exact .set h1 (ih ho)

/-- the parts that `SameObj` compares -/
inductive Part : Obj → Val → Prop
  | list {xs x} : x ∈ xs → Part (.list xs) x
  | key {kvs kv} : kv ∈ kvs → Part (.dict kvs) kv.1
  | val {kvs kv} : kv ∈ kvs → Part (.dict kvs) kv.2
  | attr {i kv} : kv ∈ i.attrs → Part (.inst i) kv.2
  | itemKey {i kv} : kv ∈ i.items → Part (.inst i) kv.1
  | itemVal {i kv} : kv ∈ i.items → Part (.inst i) kv.2
  | elem {i x} : x ∈ i.elems → Part (.inst i) x
  | factory {i f} : i.factory = some f → Part (.inst i) f

theorem Part.parts {o : Obj} {x : Val} (h : Part o x) : x ∈ o.parts := by
  cases h with
  | list h => exact h
  | key h => exact List.mem_append_left _ (List.mem_map_of_mem (f := fun kv : Val × Val => kv.1) h)
  | val h => exact List.mem_append_right _ (List.mem_map_of_mem (f := fun kv : Val × Val => kv.2) h)
  | attr h => have := List.mem_map_of_mem (f := fun kv : Str × Val => kv.2) h; simp only [Obj.parts, Inst.parts, List.mem_append, this, true_or]
  | itemKey h => have := List.mem_map_of_mem (f := fun kv : Val × Val => kv.1) h; simp only [Obj.parts, Inst.parts, List.mem_append, this, true_or, or_true]
  | itemVal h => have := List.mem_map_of_mem (f := fun kv : Val × Val => kv.2) h; simp only [Obj.parts, Inst.parts, List.mem_append, this, true_or, or_true]
  | elem h => simp only [Obj.parts, Inst.parts, List.mem_append, h, true_or, or_true]
  | factory h => simp only [Obj.parts, Inst.parts, List.mem_append, h, Option.toList, List.mem_singleton, true_or, or_true]

theorem Part.touches {h : Heap} {a : Addr} {o : Obj} {x : Val} (ho : h[a]? = some o) (hp : Part o x) : Touches h (.ref a) x := by
  cases hp with
  | list hx => exact .list ho hx
  | key hx => exact .dictKey ho hx
  | val hx => exact .dictVal ho hx
  | attr hx => exact .inst ho (.attr hx)
  | itemKey hx => exact .inst ho (.itemKey hx)
  | itemVal hx => exact .inst ho (.itemVal hx)
  | elem hx => exact .inst ho (.elem hx)
  | factory hx => exact .inst ho (.factory hx)

theorem Within.mentions {h : Heap} {v x : Val} {a : Addr} (hm : Mentions x a) (hw : Within h v x) : Within h v (.ref a) := by
  induction hm with
  | self a => exact hw
  | tuple hx _ ih => exact ih (.step hw (.tuple hx))
  | set hx _ ih => exact ih (.step hw (.set hx))

theorem mem_writeOrder {keys : Bool} {kvs : List (Val × Val)} {kv : Val × Val} (h : kv ∈ writeOrder keys kvs) : kv ∈ kvs := by
  cases keys
  · exact h
  · simp only [writeOrder, if_true, stringsFirst, List.mem_append, List.mem_filter] at h
    rcases h with h | h <;> exact h.1

theorem SameObj.restrict {keys : Bool} {P Q : Addr → Prop} {o o' : Obj} (h : SameObj (writeOrder keys) R o o')
    (hp : ∀ x a, Part o x → Mentions x a → P a) (hq : ∀ x b, Part o' x → Mentions x b → Q b) :
    SameObj (writeOrder keys) (fun a b => R a b ∧ P a ∧ Q b) o o' := by
  cases o <;> cases o' <;> simp only [SameObj] at h ⊢
  · exact restricts h (fun a x hx => hp x a (.list hx)) (fun b x hx => hq x b (.list hx))
  · exact All2.restrict h (fun x hx y hy k => ⟨PIso.restrict k.1 (fun a => hp _ a (.key (mem_writeOrder hx))) (fun b => hq _ b (.key (mem_writeOrder hy))),
      PIso.restrict k.2 (fun a => hp _ a (.val (mem_writeOrder hx))) (fun b => hq _ b (.val (mem_writeOrder hy)))⟩)
  · obtain ⟨h1, h2, h3, h4, h5, h6⟩ := h
    refine ⟨h1, h2, All2.restrict h3 (fun x hx y hy k => ⟨k.1, PIso.restrict k.2 (fun a => hp _ a (.attr hx)) (fun b => hq _ b (.attr hy))⟩),
      All2.restrict h4 (fun x hx y hy k => ⟨PIso.restrict k.1 (fun a => hp _ a (.itemKey (mem_writeOrder hx))) (fun b => hq _ b (.itemKey (mem_writeOrder hy))),
      PIso.restrict k.2 (fun a => hp _ a (.itemVal (mem_writeOrder hx))) (fun b => hq _ b (.itemVal (mem_writeOrder hy)))⟩),
      restricts h5 (fun a x hx => hp x a (.elem hx)) (fun b x hx => hq x b (.elem hx)), ?_⟩
    rename_i i i'
    cases e : i.factory <;> cases e' : i'.factory <;> simp only [e, e'] at h6 ⊢
    exact PIso.restrict h6 (fun a => hp _ a (.factory e)) (fun b => hq _ b (.factory e'))

/-! ### the text -/

theorem encodes_twin {w w' : World} {cfg : PCfg} {v v' : Val} {t : Str} (T : Twin w w' cfg R) (hv : VIso R v v') (he : Encodes w cfg v t) :
    Encodes w' cfg v' t := by
  obtain ⟨n, s1, he⟩ := he
  have h0 := he n {} (Nat.le_refl n)
  unfold Api.encode flattenTop at h0
  simp only [if_true] at h0
  obtain ⟨j, s2, h1, h2⟩ := bind_eq_ok.1 h0
  obtain ⟨_, s3, h3, h4⟩ := bind_eq_ok.1 h1
  cases h3
  rcases agree_flatten T n v v' hv {} {} ⟨trivial, rfl⟩ with ⟨h5, _⟩ | ⟨j', t1, t2, h5, h6, _⟩
  · rw [h5] at h4; cases h4
  · rw [h5] at h4
    cases h4
    refine ⟨n, t2, fun m s hm => ?_⟩
    have h7 := flatten_mono hm h6
    unfold Api.encode flattenTop
    simp only [if_true]
    have : (Pickler.reset >>= fun _ => flatten w' cfg m v') s = some (.ok j, t2) := (bind_ok (x := Pickler.reset) (a := ()) (s' := {}) rfl).trans h7
    rw [bind_ok this]
    cases h2
    rw [← T.dumps]
    rfl

/-- isomorphic data graphs -/
theorem encodes_same {w w' : World} {cfg : PCfg} {v v' : Val} {t : Str} (hu : cfg.unpicklable = true) (hm : cfg.makeRefs = true) (hd : cfg.maxDepth = none)
    (ed : w'.dumps = w.dumps) (eh : w'.handler = w.handler) (g : DataGraph cfg.keys (hasHandler w) w.heap v)
    (g' : DataGraph cfg.keys (hasHandler w) w'.heap v') (hs : SameData (writeOrder cfg.keys) w.heap v w'.heap v') (he : Encodes w cfg v t) :
    Encodes w' cfg v' t := by
  obtain ⟨R, f, i, hv, hc⟩ := hs
  refine encodes_twin (R := fun a b => R a b ∧ Reach w.heap v a ∧ Reach w'.heap v' b) ?_ (restrict hv (fun a m => Mentions.reach m) (fun b m => Mentions.reach m)) he
  refine ⟨⟨fun a b b' p q => f _ _ _ p.1 q.1, fun a a' b p q => i _ _ _ p.1 q.1⟩, ed, fun c => by rw [eh], hu, hm, hd, fun a b ⟨p, ra, rb⟩ => ?_⟩
  obtain ⟨o, o', e1, e2, e3⟩ := hc a b p
  obtain ⟨o1, k1, d⟩ := g a ra
  obtain ⟨o2, k2, d'⟩ := g' b rb
  rw [e1] at k1
  rw [e2] at k2
  cases k1
  cases k2
  refine ⟨o, o', e1, e2, SameObj.restrict e3 (fun x c hx hm => Reach.trans ra e1 hx.parts (Mentions.reach hm))
    (fun x c hx hm => Reach.trans rb e2 hx.parts (Mentions.reach hm)), d, ?_⟩
  rintro i' rfl
  exact ⟨d'.2.1.exclude, d'.2.1.dictCell⟩

/-! ### the rebuilt graph -/

theorem stringsFirst_iso {kvs kvs' : List (Val × Val)} (h : ItemsIso R (stringsFirst kvs) kvs') : stringsFirst kvs' = kvs' := by
  have key : ∀ {l1 l2 r : List (Val × Val)}, ItemsIso R (l1 ++ l2) r → (∀ kv ∈ l1, isStrV kv.1 = true) → (∀ kv ∈ l2, isStrV kv.1 = false) →
      ∃ r1 r2, r = r1 ++ r2 ∧ (∀ kv ∈ r1, isStrV kv.1 = true) ∧ (∀ kv ∈ r2, isStrV kv.1 = false) := by
    intro l1
    induction l1 with
    | nil =>
      intro l2 r h _ h2
      refine ⟨[], r, rfl, (fun _ hkv => by cases hkv), ?_⟩
      intro kv hkv
      have h : All2 _ l2 r := h
      obtain ⟨n, hn⟩ := List.getElem?_of_mem hkv
      obtain ⟨x, hx, hxy⟩ := All2.get' h hn
      rw [← nonstr_iso hxy.1]
      exact h2 x (List.mem_of_getElem? hx)
    | cons x l1 ih =>
      intro l2 r h h1 h2
      cases r with
      | nil => exact h.elim
      | cons y r =>
        obtain ⟨r1, r2, e, p, q⟩ := ih (l2 := l2) (r := r) h.2 (fun kv hkv => h1 kv (List.mem_cons_of_mem _ hkv)) h2
        refine ⟨y :: r1, r2, by rw [e]; rfl, ?_, q⟩
        intro kv hkv
        rcases List.mem_cons.1 hkv with rfl | hkv
        · rw [← nonstr_iso h.1.1]; exact h1 x List.mem_cons_self
        · exact p kv hkv
  obtain ⟨r1, r2, e, p, q⟩ := key h (fun kv hkv => (List.mem_filter.1 hkv).2) (fun kv hkv => by simpa using (List.mem_filter.1 hkv).2)
  subst e
  unfold stringsFirst
  have a1 : r2.filter (fun kv => isStrV kv.1) = [] := List.filter_eq_nil_iff.2 (fun kv hkv => by rw [q kv hkv]; decide)
  have a2 : r1.filter (fun kv => !isStrV kv.1) = [] := List.filter_eq_nil_iff.2 (fun kv hkv => by rw [p kv hkv]; decide)
  rw [List.filter_append, List.filter_append, a1, a2, List.filter_eq_self.2 p, List.filter_eq_self.2 (fun kv hkv => by rw [q kv hkv]; rfl)]
  simp

theorem writeOrder_iso {keys : Bool} {kvs kvs' : List (Val × Val)} (h : ItemsIso R (writeOrder keys kvs) kvs') :
    ItemsIso R (writeOrder keys kvs) (writeOrder keys kvs') := by
  cases keys
  · exact h
  · have h : ItemsIso R (stringsFirst kvs) kvs' := h
    show ItemsIso R (stringsFirst kvs) (stringsFirst kvs')
    rw [stringsFirst_iso h]
    exact h

theorem keyOk_str {env : UEnv} (hk : env.keys = false) {k : Val} (h : KeyOk env k) : isStrV k = true := by
  cases k <;> first
    | rfl
    | (have h := h.1; rw [hk] at h; cases h)

theorem covered_data {w : World} {cfg : PCfg} {env : UEnv} {v : Val} (hc : Covered w cfg env v) (hd : DataClasses w v) :
    DataGraph cfg.keys (hasHandler w) w.heap v := by
  intro a ha
  obtain ⟨o, e, ok, hk0⟩ := hc.supported.1.2 a ha
  clear hk0
  refine ⟨o, e, ?_⟩
  cases ok with
  | list _ => trivial
  | dict h => exact fun hk kv hkv => keyOk_str (hc.matching.keys ▸ hk) (h.1 kv hkv).1
  | handled h =>
    rename_i i
    have := (hd a i ha e).1
    unfold hasHandler at this
    rw [hc.matching.handler] at this
    rcases h.handler with q | q | q
    · rw [q] at this; cases this
    · rw [q.1] at this; cases this
    · rw [q.handler] at this; cases this
  | reduced h =>
    rename_i i
    have := (hd a i ha e).2.1.reduces
    rw [h.reduces] at this
    cases this
  | inst h =>
    rename_i i
    obtain ⟨d1, d2, d3⟩ := hd a i ha e
    refine ⟨d1, ⟨d2, h.tidy.exclude, h.tidy.dictCell, fun hb => ?_, fun hb hh hs => ?_⟩, fun hk kv hkv => ?_⟩
    · cases h.body with
      | dict _ _ _ _ _ hf =>
        cases ef : i.factory with
        | none => exact Or.inl rfl
        | some f =>
          obtain ⟨n, e, _⟩ := hf f ef
          exact Or.inr ⟨n, by rw [e]⟩
      | state _ hg => rw [d2.ownGetstate] at hg; cases hg
      | attrs q => rw [q] at hb; cases hb
      | empty q => rw [q] at hb; cases hb
      | slots q => rw [q] at hb; cases hb
      | list q => rw [q] at hb; cases hb
      | set q => rw [q] at hb; cases hb
      | tuple q => rw [q] at hb; cases hb
      | stateDict q => rw [q] at hb; cases hb
    · cases h.body with
      | slots _ _ _ _ _ _ hne _ hund hnames =>
        refine ⟨hund, ?_⟩
        cases ea : i.attrs with
        | nil => exact absurd ea hne
        | cons kv r =>
          have : kv.1 ∈ i.attrs.map (·.1) := by rw [ea]; exact List.mem_cons_self
          rw [hnames] at this
          refine ⟨kv.1, (List.mem_filter.1 this).1, ?_⟩
          rw [dget_cons, if_pos rfl]
          exact fun h => by cases h
      | attrs _ _ q => rw [hh] at q; cases q
      | empty _ _ _ q => rw [hs] at q; cases q
      | state _ hg => rw [d2.ownGetstate] at hg; cases hg
      | dict q => rw [q] at hb; cases hb
      | list q => rw [q] at hb; cases hb
      | set q => rw [q] at hb; cases hb
      | tuple q => rw [q] at hb; cases hb
      | stateDict _ _ hg => rw [d2.ownGetstate] at hg; cases hg
    · by_cases hb : i.info.base = .dict
      · cases h.body with
        | dict _ _ he => exact keyOk_str (hc.matching.keys ▸ hk) (he.1 kv hkv).1
        | state _ hg => rw [d2.ownGetstate] at hg; cases hg
        | attrs q => rw [q] at hb; cases hb
        | empty q => rw [q] at hb; cases hb
        | slots q => rw [q] at hb; cases hb
        | list q => rw [q] at hb; cases hb
        | set q => rw [q] at hb; cases hb
        | tuple q => rw [q] at hb; cases hb
        | stateDict q => rw [q] at hb; cases hb
      · rw [h.tidy.items hb] at hkv; cases hkv

/-- decoding makes the instances of the result from the information about their classes -/
theorem decoded_made {env : UEnv} {text : Str} {u u' : UState} {x : Val} (hd : Decodes env text u x u') : MadeFrom env u.heap.length u'.heap := by
  obtain ⟨n, hd⟩ := hd
  have h := hd n (Nat.le_refl n)
  have hm : Makes env u.heap.length (Api.decode env n text true true) := by
    unfold Api.decode
    split
    · exact Makes.throw _
    · exact Makes.bind (mk_restoreTop _ _ _) (fun x => Makes.bind Makes.reset (fun _ => Makes.pure _))
  refine hm u _ u' h (fun a i ha hi => ?_)
  rw [List.getElem?_eq_none ha] at hi
  cases hi

/-- the rebuilt graph, object by object -/
theorem rebuilt {w : World} {cfg : PCfg} {env : UEnv} {v x : Val} {text : Str} {u u' : UState} (hc : Covered w cfg env v) (hd : DataClasses w v)
    (g : env.Globals) (he : Encodes w cfg v text) (hx : Decodes env text u x u') :
    ∃ R : Addr → Addr → Prop, OneToOne R ∧ VIso R v x ∧
      ∀ a b, R a b → ∃ o o', w.heap[a]? = some o ∧ u'.heap[b]? = some o' ∧ CellTwin w cfg R o o' := by
  obtain ⟨R, f, i, hv, hR⟩ := hc.graph he hx
  have hdata := covered_data hc hd
  have hmade := decoded_made hx
  obtain ⟨n, hxn⟩ := hx
  have hfresh := (C37.fresh env g n text true u u' x (hxn n (Nat.le_refl n))).2.1
  refine ⟨fun a b => R a b ∧ Reach w.heap v a ∧ Within u'.heap x (.ref b), ⟨fun a b b' p q => f _ _ _ p.1 q.1, fun a a' b p q => i _ _ _ p.1 q.1⟩,
    restrict hv (fun a m => Mentions.reach m) (fun b m => Within.mentions m .self), fun a b ⟨p, ra, rb⟩ => ?_⟩
  obtain ⟨o, o', e1, e2, e3⟩ := hR a b p
  obtain ⟨o1, k1, d⟩ := hdata a ra
  rw [e1] at k1
  cases k1
  have main : SameObj (writeOrder cfg.keys) R o o' ∧ ∀ i', o' = .inst i' → i'.exclude = [] ∧ i'.dictCell = none := by
    cases o <;> cases o' <;> simp only [SameCell] at e3
    · exact ⟨e3, fun _ h => by cases h⟩
    · exact ⟨writeOrder_iso e3, fun _ h => by cases h⟩
    · rename_i i1 i2
      obtain ⟨d1, d2, d3⟩ := hd a i1 ra e1
      obtain ⟨-, dd, -⟩ := d
      have hns : savedState w.heap i1 = none := by unfold savedState; rw [d2.ownGetstate]; rfl
      have hm := hmade b i2 (hfresh b rb) e2
      obtain ⟨o2, k2, ok, -⟩ := hc.supported.1.2 a ra
      rw [e1] at k2
      cases k2
      have hi : env.classInfo i1.cls = i1.info := by
        cases ok with
        | inst h => exact h.info
        | handled h => exact h.info
        | reduced h => have := h.reduces; rw [d2.reduces] at this; cases this
      cases e3 with
      | handled q => rw [d1] at q; cases q
      | reduced _ q => rw [d2.reduces] at q; cases q
      | state _ _ _ _ q => rw [hns] at q; cases q
      | stateAttrs _ _ _ _ q => rw [hns] at q; cases q
      | fields _ _ hcls _ _ hat hit hel hfa _ =>
        have hinfo : i2.info = i1.info := by
          rcases hm.info with q | ⟨q, _⟩
          · rw [q, hcls]; exact hi
          · exact absurd (hcls.symm.trans q) d3
        have hcell : i2.dictCell = none := by
          refine hm.dictCell ?_
          rw [hinfo]
          by_cases hb : i1.info.base = .dict
          · exact Or.inl (d2.dict hb)
          · exact Or.inr hb
        refine ⟨⟨hcls, hinfo, ?_, writeOrder_iso hit, hel, hfa⟩, fun i' h => by cases h; exact ⟨hm.exclude, hcell⟩⟩
        unfold instAttrs at hat
        rw [dd.dictCell, hcell] at hat
        exact asItems_iso hat
  refine ⟨o, o', e1, e2, SameObj.restrict main.1 (fun y c hy hm => Reach.trans ra e1 hy.parts (Mentions.reach hm))
    (fun y c hy hm => Within.mentions hm (.step rb (Part.touches e2 hy))), d, main.2⟩

end JP.PIso
