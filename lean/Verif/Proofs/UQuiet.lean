import Verif.Proofs.UV1
import Verif.Rename
/-!
# Documents without references leave no placeholders

`Keeps s x Q`: if no list, dict or instance holds a placeholder, then this is still so after `x`, nothing was noted for replacement, and the result
has `Q`.  Established for decoding a document without references (`Free`): what it returns is not a placeholder.
-/
namespace JP.Unpickler.Quiet
open JP PyM
open V1 (Kind kindOf kindAt Free)

def Kept (h h' : Heap) : Prop := ∀ a k, kindAt h a = some k → kindAt h' a = some k

theorem Kept.refl (h : Heap) : Kept h h := fun _ _ e => e
theorem Kept.trans {h1 h2 h3 : Heap} (a : Kept h1 h2) (b : Kept h2 h3) : Kept h1 h3 := fun x k e => b x k (a x k e)
theorem Kept.set {h : Heap} {a : Addr} {o : Obj} (e : kindAt h a = some (kindOf o)) : Kept h (h.set a o) := (V1.Sim.Calm.set e).keep

theorem Kept.append (h : Heap) (o : Obj) : Kept h (h ++ [o]) := fun b k hb => by
  rw [V1.Sim.kindAt_append, if_neg (by have := V1.Sim.kindAt_lt hb; omega)]
  exact hb

/-- not a placeholder -/
def Sol (h : Heap) (v : Val) : Prop := ∀ a, v = .ref a → ∃ k, kindAt h a = some k ∧ k ≠ .proxy ∧ k ≠ .idproxy

theorem Sol.kept {h h' : Heap} {v : Val} (s : Sol h v) (k : Kept h h') : Sol h' v := fun a e => by
  obtain ⟨q, h1, h2⟩ := s a e
  exact ⟨q, k a q h1, h2⟩

theorem noref {h : Heap} {v : Val} (hv : ∀ a, v ≠ .ref a) : Sol h v := fun p hp => absurd hp (hv p)

theorem kind_get {h : Heap} {a : Addr} {o : Obj} (e : h[a]? = some o) : kindAt h a = some (kindOf o) := by unfold kindAt; rw [e]; rfl

theorem sol_kind {h : Heap} {a : Addr} {k : Kind} (e : kindAt h a = some k) (h1 : k ≠ .proxy) (h2 : k ≠ .idproxy) : Sol h (.ref a) := fun b hb => by
  cases hb
  exact ⟨k, e, h1, h2⟩

theorem global_sol {h : Heap} {v : Val} (g : v.Global) : Sol h v := by
  cases v with
  | ref a => exact g.elim
  | _ => exact noref (fun a e => by cases e)

theorem Sol.proxyAddr {h : Heap} {v : Val} (s : Sol h v) : proxyAddr h v = none := by
  cases v with
  | ref a =>
    obtain ⟨k, e, h1, h2⟩ := s a rfl
    simp only [Unpickler.proxyAddr]
    unfold kindAt at e
    cases hq : h[a]? with
    | none => rfl
    | some o =>
      rw [hq] at e
      cases o with
      | proxy w => cases e; exact absurd rfl h1
      | idproxy n => cases e; exact absurd rfl h2
      | _ => rfl
  | _ => rfl

def CellQ (h : Heap) : Obj → Prop
  | .list vs => ∀ v ∈ vs, Sol h v
  | .dict es => ∀ k v, (k, v) ∈ es → Sol h v
  | .inst i => (∀ k v, (k, v) ∈ i.items → Sol h v) ∧ (∀ k v, dget k i.attrs = some v → Sol h v) ∧ ∀ v, i.factory = some v → Sol h v
  | _ => True

theorem CellQ.kept {h h' : Heap} (k : Kept h h') {o : Obj} (c : CellQ h o) : CellQ h' o := by
  cases o with
  | list vs => exact fun v hv => (c v hv).kept k
  | dict es => exact fun l v hv => (c l v hv).kept k
  | inst i => exact ⟨fun l v hv => (c.1 l v hv).kept k, fun l v hv => (c.2.1 l v hv).kept k, fun v hv => (c.2.2 v hv).kept k⟩
  | _ => trivial

/-- no list, dict or instance holds a placeholder -/
def Cells (h : Heap) : Prop := ∀ (a : Addr) (o : Obj), h[a]? = some o → CellQ h o

theorem Cells.set {h : Heap} (c : Cells h) {a : Addr} {o : Obj} (e : kindAt h a = some (kindOf o)) (q : CellQ (h.set a o) o) : Cells (h.set a o) := by
  intro b x hx
  rw [List.getElem?_set] at hx
  split at hx
  · split at hx
    · cases hx; exact q
    · cases hx
  · exact (c b x hx).kept (Kept.set e)

theorem Cells.append {h : Heap} (c : Cells h) {o : Obj} (q : CellQ (h ++ [o]) o) : Cells (h ++ [o]) := by
  intro b x hx
  rw [List.getElem?_append] at hx
  split at hx
  · exact (c b x hx).kept (Kept.append _ _)
  · cases hb : b - h.length with
    | zero => rw [hb] at hx; cases hx; exact q
    | succ n => rw [hb] at hx; cases hx

def Keeps {α : Type} (s : UState) (x : U α) (Q : Heap → α → Prop) : Prop :=
  Cells s.heap → ∀ r s', x s = some (r, s') → Cells s'.heap ∧ Kept s.heap s'.heap ∧ s'.proxies = s.proxies ∧ ∀ a, r = .ok a → Q s'.heap a

namespace Keeps
variable {α β : Type} {s : UState}

theorem bind {x : U α} {f : α → U β} {Q : Heap → α → Prop} {R : Heap → β → Prop} (hx : Keeps s x Q)
    (hf : ∀ a s1, Kept s.heap s1.heap → Q s1.heap a → Keeps s1 (f a) R) : Keeps s (x >>= f) R := by
  intro hi r s' h
  rw [bind_run] at h
  cases hr : x s with
  | none => rw [hr] at h; cases h
  | some p =>
    obtain ⟨r1, s1⟩ := p
    obtain ⟨h1, h2, h3, h4⟩ := hx hi r1 s1 hr
    rw [hr] at h
    cases r1 with
    | error e => cases h; exact ⟨h1, h2, h3, fun a ha => by cases ha⟩
    | ok a =>
      obtain ⟨h5, h6, h7, h8⟩ := hf a s1 h2 (h4 a rfl) h1 r s' h
      exact ⟨h5, h2.trans h6, h7.trans h3, h8⟩

theorem pure {a : α} {Q : Heap → α → Prop} (hq : Q s.heap a) : Keeps s (Pure.pure a : U α) Q := by
  intro hi r s' h
  cases h
  exact ⟨hi, Kept.refl _, rfl, fun b hb => by cases hb; exact hq⟩

theorem throw {e : Exc} {Q : Heap → α → Prop} : Keeps s (PyM.throw e : U α) Q := by
  intro hi r s' h
  cases h
  exact ⟨hi, Kept.refl _, rfl, fun b hb => by cases hb⟩

theorem ofExcept {x : Except Exc α} : Keeps s (PyM.ofExcept x : U α) (fun _ a => x = .ok a) := by
  intro hi r s' h
  cases h
  exact ⟨hi, Kept.refl _, rfl, fun b hb => hb⟩

theorem get {f : UState → U β} {R : Heap → β → Prop} (hf : Cells s.heap → Keeps s (f s) R) : Keeps s (PyM.get >>= f) R := by
  intro hi r s' h
  rw [bind_run, get_run] at h
  exact hf hi hi r s' h

theorem same {x : U α} {Q : Heap → α → Prop} (h : ∀ r s', x s = some (r, s') → s'.heap = s.heap ∧ s'.proxies = s.proxies ∧ ∀ a, r = .ok a → Q s.heap a) : Keeps s x Q := by
  intro hi r s' hr
  obtain ⟨h1, h2, h3⟩ := h r s' hr
  rw [h1]
  exact ⟨hi, Kept.refl _, h2, h3⟩

theorem fresh : Keeps s fresh (fun _ _ => True) := same (fun r s' h => by cases h; exact ⟨rfl, rfl, fun _ _ => trivial⟩)
theorem emit (e : Event) : Keeps s (emit e) (fun _ _ => True) := same (fun r s' h => by cases h; exact ⟨rfl, rfl, fun _ _ => trivial⟩)

theorem imp {x : U α} {Q R : Heap → α → Prop} (h : ∀ s a, Q s a → R s a) (hx : Keeps s x Q) : Keeps s x R := by
  intro hi r s' h'
  obtain ⟨h1, h2, h3, h4⟩ := hx hi r s' h'
  exact ⟨h1, h2, h3, fun a ha => h _ _ (h4 a ha)⟩

theorem tryCatch {x : U α} {c : Exc → Bool} {f : Exc → U α} {Q : Heap → α → Prop} (hx : Keeps s x Q) (hf : ∀ e s1, Kept s.heap s1.heap → Keeps s1 (f e) Q) :
    Keeps s (PyM.tryCatch x c f) Q := by
  intro hi r s' h
  unfold PyM.tryCatch at h
  cases hr : x s with
  | none => rw [hr] at h; cases h
  | some p =>
    obtain ⟨r1, s1⟩ := p
    obtain ⟨h1, h2, h3, h4⟩ := hx hi r1 s1 hr
    rw [hr] at h
    cases r1 with
    | ok a => cases h; exact ⟨h1, h2, h3, h4⟩
    | error e =>
      simp only at h
      split at h
      · obtain ⟨h5, h6, h7, h8⟩ := hf e s1 h2 h1 r s' h
        exact ⟨h5, h2.trans h6, h7.trans h3, h8⟩
      · cases h; exact ⟨h1, h2, h3, h4⟩

theorem ite {c : Prop} [Decidable c] {x y : U α} {Q} (hx : c → Keeps s x Q) (hy : ¬ c → Keeps s y Q) : Keeps s (if c then x else y) Q := by
  by_cases h : c
  · rw [if_pos h]; exact hx h
  · rw [if_neg h]; exact hy h

theorem alloc {o : Obj} (hc : CellQ (s.heap ++ [o]) o) : Keeps s (Unpickler.alloc o) (fun h a => kindAt h a = some (kindOf o)) := by
  intro hi r s' h
  cases h
  exact ⟨hi.append hc, Kept.append _ _, rfl, fun b hb => by cases hb; exact (V1.Sim.kindAt_append.trans (if_pos rfl))⟩

theorem mkref {v : Val} : Keeps s (mkref v) (fun _ w => w = v) := by
  refine same (fun r s' h => ?_)
  unfold Unpickler.mkref at h
  split at h
  · cases h; exact ⟨rfl, rfl, fun a ha => by cases ha; rfl⟩
  · cases h; exact ⟨rfl, rfl, fun a ha => by cases ha; rfl⟩

theorem swapref {p : Addr} {v : Val} : Keeps s (swapref p v) (fun _ _ => True) := by
  refine same (fun r s' h => ?_)
  unfold Unpickler.swapref at h
  split at h
  · cases h; exact ⟨rfl, rfl, fun a ha => trivial⟩
  · cases h; exact ⟨rfl, rfl, fun a ha => trivial⟩

theorem setCell {a : Addr} {o : Obj} (e : kindAt s.heap a = some (kindOf o)) (q : CellQ s.heap o) : Keeps s (setCell a o) (fun _ _ => True) := by
  intro hi r s' h
  cases h
  exact ⟨hi.set e (q.kept (Kept.set e)), Kept.set e, rfl, fun _ _ => trivial⟩

theorem noteProxy {a : Addr} {sl : Slot} {v : Val} (hv : Sol s.heap v) : Keeps s (noteProxy a sl v) (fun _ _ => True) := by
  refine same (fun r s' h => ?_)
  unfold Unpickler.noteProxy at h
  rw [modify_run, hv.proxyAddr] at h
  cases h
  exact ⟨rfl, rfl, fun _ _ => trivial⟩

theorem noteList {a : Addr} : ∀ (vs : List Val) (n : Nat) (s : UState), (∀ v ∈ vs, Sol s.heap v) → Keeps s (noteList a n vs) (fun _ _ => True)
  | [], _, _, _ => pure trivial
  | v :: vs, n, s, h => by
    unfold Unpickler.noteList
    exact bind (noteProxy (h v (.head _))) (fun _ s1 k1 _ => noteList vs (n + 1) s1 (fun w hw => (h w (.tail _ hw)).kept k1))

theorem modInst (a : Addr) {f : Inst → Inst} (hf : ∀ i, (f i).items = i.items ∧ (f i).attrs = i.attrs ∧ (f i).factory = i.factory) :
    Keeps s (modInst a f) (fun _ _ => True) := by
  intro hi r s' h
  unfold Unpickler.modInst at h
  rw [modify_run] at h
  cases h
  split
  · next i ha =>
    have e : kindAt s.heap a = some (kindOf (.inst (f i))) := V1.Sim.kindAt_inst ha
    refine ⟨hi.set e ?_, Kept.set e, rfl, fun _ _ => trivial⟩
    have c := (hi a _ ha).kept (Kept.set e)
    obtain ⟨h1, h2, h3⟩ := hf i
    exact ⟨by rw [h1]; exact c.1, by rw [h2]; exact c.2.1, by rw [h3]; exact c.2.2⟩
  · exact ⟨hi, Kept.refl _, rfl, fun _ _ => trivial⟩

theorem mapM {f : α → U β} {P : Heap → β → Prop} (hP : ∀ h h' b, Kept h h' → P h b → P h' b) : ∀ (xs : List α) (s : UState), (∀ x ∈ xs, ∀ s1, Kept s.heap s1.heap → Keeps s1 (f x) P) →
    Keeps s (PyM.mapM f xs) (fun s' vs => ∀ v ∈ vs, P s' v)
  | [], s, _ => pure (fun _ h => by cases h)
  | x :: xs, s, h => by
    rw [mapM_cons]
    refine bind (h x (.head _) s (Kept.refl _)) (fun v s1 k1 hv => ?_)
    refine bind (mapM hP xs s1 (fun y hy s2 k2 => h y (.tail _ hy) s2 (k1.trans k2))) (fun vs s2 k2 hvs => ?_)
    refine pure (fun w hw => ?_)
    rcases List.mem_cons.1 hw with rfl | hw
    · exact hP _ _ _ k2 hv
    · exact hvs w hw

theorem mapU {f : α → U β} (xs : List α) (s : UState) (h : ∀ x ∈ xs, ∀ s1, Kept s.heap s1.heap → Keeps s1 (f x) (fun _ _ => True)) : Keeps s (PyM.mapM f xs) (fun _ _ => True) :=
  imp (fun _ _ _ => trivial) (mapM (P := fun _ _ => True) (fun _ _ _ _ h => h) xs s h)

theorem foldM {f : List Val → α → U (List Val)} : ∀ (xs : List α) (s : UState) (b : List Val), (∀ b, ∀ x ∈ xs, ∀ s, Keeps s (f b x) (fun _ _ => True)) →
    Keeps s (PyM.foldM f b xs) (fun _ _ => True)
  | [], s, b, _ => pure trivial
  | x :: xs, s, b, h => by
    rw [foldM_cons]
    exact bind (h b x (.head _) s) (fun v s1 _ hv => foldM xs s1 v (fun b y hy => h b y (.tail _ hy)))

end Keeps

/-! ### storing -/

theorem mem_vset {k w l v : Val} : ∀ {es : List (Val × Val)}, (l, v) ∈ vset k w es → v = w ∨ (l, v) ∈ es
  | [], h => by
    simp only [vset, List.mem_singleton] at h
    exact .inl (Prod.mk.inj h).2
  | e :: es, h => by
    unfold vset at h
    split at h
    · rcases List.mem_cons.1 h with h | h
      · exact .inl (Prod.mk.inj h).2
      · exact .inr (.tail _ h)
    · rcases List.mem_cons.1 h with h | h
      · exact .inr (h ▸ .head _)
      · exact (mem_vset h).imp id (.tail _)

theorem dget_dset {k l : Str} {v w : Val} : ∀ {d : List (Str × Val)}, dget l (dset k w d) = some v → v = w ∨ dget l d = some v
  | [], h => by
    simp only [dset, dget] at h
    split at h
    · cases h; exact .inl rfl
    · cases h
  | e :: d, h => by
    unfold dset at h
    split at h
    · next he =>
      simp only [dget] at h ⊢
      split at h
      · cases h; exact .inl rfl
      · next hn => exact .inr (by rw [if_neg (he ▸ hn)]; exact h)
    · simp only [dget] at h ⊢
      split at h
      · next hq => exact .inr (by rw [if_pos hq]; exact h)
      · next hq =>
        rcases dget_dset h with q | q
        · exact .inl q
        · exact .inr (by rw [if_neg hq]; exact q)

/-- one step that writes at most one cell -/
def Put (s : UState) (v : Val) (p : Option (Except Exc Unit × UState)) : Prop :=
  ∃ r t, p = some (r, t) ∧ t.proxies = s.proxies ∧ (Cells s.heap → Sol s.heap v → Cells t.heap ∧ Kept s.heap t.heap)

theorem Put.stay {s : UState} {v : Val} {r : Except Exc Unit} : Put s v (some (r, s)) := ⟨r, s, rfl, rfl, fun c _ => ⟨c, Kept.refl _⟩⟩

theorem Put.write {s : UState} {v : Val} {r : Except Exc Unit} {a : Addr} {o : Obj} (e : kindAt s.heap a = some (kindOf o))
    (q : Cells s.heap → Sol s.heap v → CellQ s.heap o) : Put s v (some (r, { s with heap := s.heap.set a o })) :=
  ⟨r, _, rfl, rfl, fun c hv => ⟨c.set e ((q c hv).kept (Kept.set e)), Kept.set e⟩⟩

theorem Put.keeps {s : UState} {v : Val} {x : U Unit} (p : Put s v (x s)) (hv : Sol s.heap v) : Keeps s x (fun _ _ => True) := by
  intro hi r s' h
  obtain ⟨r1, t, e, h1, h2⟩ := p
  rw [e] at h
  cases h
  obtain ⟨h3, h4⟩ := h2 hi hv
  exact ⟨h3, h4, h1, fun _ _ => trivial⟩

theorem put_setattr (s : UState) (a : Addr) (k : Str) (v : Val) : Put s v (setattr a k v s) := by
  unfold setattr
  split
  · next i ha =>
    split
    · split
      · refine Put.write (o := .inst { i with attrs := dset k v i.attrs }) (V1.Sim.kindAt_inst ha) (fun c hv => ?_)
        have ci := c a _ ha
        exact ⟨ci.1, fun l w hw => (dget_dset hw).elim (fun e => e ▸ hv) (ci.2.1 l w), ci.2.2⟩
      · next d _ =>
        split
        · next kvs hd =>
          refine Put.write (o := .dict (vset (.str k) v kvs)) (V1.Sim.kindAt_dict hd) (fun c hv => ?_)
          exact fun l w hw => (mem_vset hw).elim (fun e => e ▸ hv) (c d _ hd l w)
        · exact Put.stay
    · exact Put.stay
  · exact Put.stay

theorem put_dictSet (s : UState) (a : Addr) (k v : Val) : Put s v (dictSet a k v s) := by
  unfold dictSet
  split
  · split
    · next kvs hd =>
      refine Put.write (o := .dict (vset k v kvs)) (V1.Sim.kindAt_dict hd) (fun c hv => ?_)
      exact fun l w hw => (mem_vset hw).elim (fun e => e ▸ hv) (c a _ hd l w)
    · exact Put.stay
  · exact Put.stay

theorem put_setItem (s : UState) (a : Addr) (k v : Val) : Put s v (setItem a k v s) := by
  unfold setItem
  cases ha : s.heap[a]? with
  | none => exact Put.stay
  | some o => cases o with
    | inst i =>
      have wr : ∀ r, Put s v (some (r, { s with heap := s.heap.set a (.inst { i with items := vset k v i.items }) })) := fun r =>
        Put.write (o := .inst { i with items := vset k v i.items }) (V1.Sim.kindAt_inst ha) (fun c hv =>
          ⟨fun l w hw => (mem_vset hw).elim (fun e => e ▸ hv) ((c a _ ha).1 l w), (c a _ ha).2.1, (c a _ ha).2.2⟩)
      dsimp only
      split
      · split
        · split
          · split
            · split
              · exact Put.write (V1.Sim.kindAt_inst ha) (fun c hv => ⟨(c a _ ha).1, (fun l w hw => by cases hw), (c a _ ha).2.2⟩)
              · exact Put.stay
            · exact Put.stay
          · exact Put.stay
        · exact wr _
      · split
        · exact wr _
        · exact Put.stay
    | _ => exact Put.stay

theorem put_setAttrMangled (s : UState) (a : Addr) (k v : Val) : Put s v (setAttrMangled a k v s) := by
  unfold setAttrMangled
  cases k with
  | str t =>
    dsimp only
    split
    · split
      · exact put_setattr _ _ _ _
      · exact Put.stay
    · exact put_setattr _ _ _ _
  | _ => exact Put.stay

theorem keeps_storeEntry {s : UState} {a : Addr} {k v : Val} (hv : Sol s.heap v) : Keeps s (storeEntry a k v) (fun _ _ => True) := by
  unfold storeEntry
  refine Keeps.bind (Q := fun _ _ => True) (Put.keeps (v := v) ?_ hv) (fun _ s1 k1 _ => ?_)
  · unfold storeRaw
    split
    · exact put_setItem _ _ _ _
    · exact put_setAttrMangled _ _ _ _
  · intro hi r s' h
    unfold noteEntry at h
    split at h
    · cases h; exact ⟨hi, Kept.refl _, rfl, fun _ _ => trivial⟩
    · exact Keeps.noteProxy (hv.kept k1) hi r s' h

theorem keeps_fixFactory {s : UState} (v : Val) : Keeps s (fixFactory v) (fun _ _ => True) := by
  intro hi r s' h
  have : s' = s := by
    unfold fixFactory at h
    rw [modify_run] at h
    have h := (Prod.mk.inj (Option.some.inj h)).2
    rw [← h]
    cases v with
    | ref a =>
      dsimp only
      cases ha : s.heap[a]? with
      | none => rfl
      | some o => cases o with
        | inst i =>
          dsimp only
          split
          · next f hf =>
            have : Sol s.heap f := by
              cases hq : i.factory with
              | some g => rw [hq] at hf; cases hf; exact (hi a _ ha).2.2 _ hq
              | none => rw [hq] at hf; exact (hi a _ ha).2.1 _ _ hf
            rw [this.proxyAddr]
          · rfl
        | _ => rfl
    | _ => rfl
  subst this
  exact ⟨hi, Kept.refl _, rfl, fun _ _ => trivial⟩

end JP.Unpickler.Quiet
