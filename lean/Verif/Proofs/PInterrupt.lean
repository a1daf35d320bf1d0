import Verif.Api
import Verif.UserSpec
import Verif.Proofs.PLogic
import Verif.Proofs.SimRun
/-!
# Runs of the encoder that differ only where user code raises a given exception

`Until e x x'`: wherever it starts, `x` does the same as `x'`, or raises `e`.
-/
namespace JP.Pickler
open PyM

def Until {α : Type} (e : Exc) (x x' : P α) : Prop := ∀ s, x s = x' s ∨ ∃ s1, x s = some (.error e, s1)

theorem cells {e : Exc} : ∀ {h h' : Heap}, All2 (CellUntil e) h h' → ∀ a : Nat,
    (∃ o o', h[a]? = some o ∧ h'[a]? = some o' ∧ CellUntil e o o') ∨ h[a]? = none ∧ h'[a]? = none
  | [], [], _, _ => .inr ⟨rfl, rfl⟩
  | [], _ :: _, h, _ => h.elim
  | _ :: _, [], h, _ => h.elim
  | o :: _, o' :: _, h, 0 => .inl ⟨o, o', rfl, rfl, h.1⟩
  | _ :: _, _ :: _, h, a + 1 => cells h.2 a

namespace Until
variable {α β γ : Type} {e : Exc}

theorem refl {x : P α} : Until e x x := fun _ => .inl rfl

theorem bind {x x' : P α} {f f' : α → P β} (h : Until e x x') (hf : ∀ a, Until e (f a) (f' a)) : Until e (x >>= f) (x' >>= f') := by
  intro s
  rcases h s with h | ⟨s1, h⟩
  · simp only [bind_run, h]
    cases x' s with
    | none => exact .inl rfl
    | some r =>
      obtain ⟨r, s1⟩ := r
      cases r with
      | error _ => exact .inl rfl
      | ok a => exact hf a s1
  · exact .inr ⟨s1, by simp only [bind_run, h]⟩

theorem ofExcept {r r' : Except Exc α} (h : Outcome e r r') : Until e (PyM.ofExcept r) (PyM.ofExcept r') := by
  intro s
  rcases h with h | h
  · exact .inl (by rw [h])
  · exact .inr ⟨s, by rw [h]; rfl⟩

theorem tryCatch {x x' : P α} {p : Exc → Bool} {h h' : Exc → P α} (hx : Until e x x') (hp : p e = false) 
    (hh' : ∀ e', Until e (h e') (h' e')) : Until e (PyM.tryCatch x p h) (PyM.tryCatch x' p h') := by
  intro s
  rcases hx s with hx | ⟨s1, hx⟩
  · simp only [PyM.tryCatch, hx]
    cases x' s with
    | none => exact .inl rfl
    | some r =>
      obtain ⟨r, s1⟩ := r
      cases r with
      | error e' =>
        simp only []
        split
        · exact hh' e' s1
        · exact .inl rfl
      | ok a => exact .inl rfl
  · exact .inr ⟨s1, by simp only [PyM.tryCatch, hx, hp]; rfl⟩

theorem mapM {f f' : α → P β} (h : ∀ a, Until e (f a) (f' a)) : ∀ xs, Until e (PyM.mapM f xs) (PyM.mapM f' xs)
  | [] => refl
  | x :: xs => bind (h x) (fun _ => bind (mapM h xs) (fun _ => refl))

theorem foldM {f f' : β → α → P β} (h : ∀ b a, Until e (f b a) (f' b a)) : ∀ xs b, Until e (PyM.foldM f b xs) (PyM.foldM f' b xs)
  | [], _ => refl
  | x :: xs, b => bind (h b x) (fun b' => foldM h xs b')

/-- the first stops with `e` where the second goes on with further elements -/
theorem mapM_stop {f f' : α → P β} (h : ∀ a, Until e (f a) (f' a)) (ys : List α) : ∀ (xs : List α) (g g' : List β → P γ), (∀ l s, g l s = some (.error e, s)) →
    Until e (PyM.mapM f xs >>= g) (PyM.mapM f' (xs ++ ys) >>= g')
  | [], g, _, hg => fun s => .inr ⟨s, hg [] s⟩
  | x :: xs, g, g', hg => by
    have e1 : (PyM.mapM f (x :: xs) >>= g) = (f x >>= fun b => PyM.mapM f xs >>= fun bs => g (b :: bs)) := by
      simp only [PyM.mapM, bind_assoc']; rfl
    have e2 : (PyM.mapM f' (x :: xs ++ ys) >>= g') = (f' x >>= fun b => PyM.mapM f' (xs ++ ys) >>= fun bs => g' (b :: bs)) := by
      simp only [List.cons_append, PyM.mapM, bind_assoc']; rfl
    rw [e1, e2]
    exact bind (h x) (fun b => mapM_stop h ys xs _ _ (fun l s => hg _ s))

theorem foldM_stop {f f' : β → α → P β} (h : ∀ b a, Until e (f b a) (f' b a)) (ys : List α) : ∀ (xs : List α) (b : β) (g g' : β → P γ), (∀ l s, g l s = some (.error e, s)) →
    Until e (PyM.foldM f b xs >>= g) (PyM.foldM f' b (xs ++ ys) >>= g')
  | [], b, g, _, hg => fun s => .inr ⟨s, hg b s⟩
  | x :: xs, b, g, g', hg => by
    have e1 : (PyM.foldM f b (x :: xs) >>= g) = (f b x >>= fun b => PyM.foldM f b xs >>= g) := by
      simp only [PyM.foldM, bind_assoc']
    have e2 : (PyM.foldM f' b (x :: xs ++ ys) >>= g') = (f' b x >>= fun b => PyM.foldM f' b (xs ++ ys) >>= g') := by
      simp only [List.cons_append, PyM.foldM, bind_assoc']
    rw [e1, e2]
    exact bind (h b x) (fun b => foldM_stop h ys xs b _ _ hg)

theorem stop {x x' : P α} (h : ∀ s, x s = some (.error e, s)) : Until e x x' := fun s => .inr ⟨s, h s⟩

end Until

namespace UntilRun
variable {e : Exc} {w w' : World} {cfg : PCfg} {fs : Option (Exc → Except Exc Json)} {fl fl' : Val → P Json}

theorem _root_.JP.InstUntil.refl (e : Exc) (i : Inst) : InstUntil e i i :=
  ⟨rfl, .inl rfl, .inl rfl, .inl rfl, .inl rfl, .inl rfl, .inl rfl, .inl ⟨rfl, rfl⟩, .inl ⟨rfl, rfl⟩⟩

theorem fields {i i' : Inst} (h : InstUntil e i i') : (i'.cls = i.cls ∧ i'.info = i.info ∧ i'.attrs = i.attrs ∧ i'.dictCell = i.dictCell) ∧
    i'.items = i.items ∧ i'.exclude = i.exclude ∧ i'.factory = i.factory ∧ i'.dirAttrs = i.dirAttrs ∧ i'.eqOwnDict = i.eqOwnDict := by
  rw [h.others]
  exact ⟨⟨rfl, rfl, rfl, rfl⟩, rfl, rfl, rfl, rfl, rfl⟩

theorem truthy_eq (hw : WorldUntil e w w') (v : Val) : truthy w'.heap v = truthy w.heap v := by
  cases v <;> simp only [truthy]
  case ref a =>
    rcases cells hw.cell a with ⟨o, o', h1, h2, h3⟩ | ⟨h1, h2⟩
    · rw [h1, h2]
      cases h3 with
      | same => rfl
      | inst i i' h =>
        obtain ⟨⟨_, hi, _, _⟩, hit, _⟩ := fields h
        simp only [hi, hit]
        rcases h.iter with ⟨_, h⟩ | ⟨h, _⟩
        · rw [h]
        · simp only [h]
    · rw [h1, h2]

theorem dictItems_eq (hw : WorldUntil e w w') {i i' : Inst} (hi : InstUntil e i i') : dictItems w' i' = dictItems w i := by
  obtain ⟨⟨_, _, f1, f2⟩, _⟩ := fields hi
  unfold dictItems
  rw [f1, f2]
  cases i.dictCell with
  | none => rfl
  | some d =>
    simp only []
    rcases cells hw.cell d with ⟨o, o', h1, h2, h3⟩ | ⟨h1, h2⟩
    · rw [h1, h2]
      cases h3 <;> rfl
    · rw [h1, h2]

theorem isEnumV_eq (hw : WorldUntil e w w') (v : Val) : isEnumV w' v = isEnumV w v := by
  unfold isEnumV
  cases v <;> try rfl
  case ref a =>
    simp only []
    rcases cells hw.cell a with ⟨o, o', h1, h2, h3⟩ | ⟨h1, h2⟩
    · rw [h1, h2]
      cases h3 with
      | same => rfl
      | inst i i' h => simp only [(fields h).1.2.1]
    · rw [h1, h2]

theorem reprKey_until (hw : WorldUntil e w w') (hx : Passes e cfg w w') (k : Val) : Outcome e (reprKey w k) (reprKey w' k) := by
  have key : Outcome e (match w.repr k with
      | .ok s => .ok s
      | .error e => if e.isException then w.pystr k else .error e) (match w'.repr k with
      | .ok s => .ok s
      | .error e => if e.isException then w'.pystr k else .error e) := by
    have hk : w.repr k = w'.repr k ∨ w.repr k = .error e ∧ e.isException = false := by
      rcases hx.rest with h | h
      · rcases hw.repr k with h' | h'
        · exact .inl h'
        · exact .inr ⟨h', h⟩
      · exact .inl (by rw [h.2])
    rcases hk with h | ⟨h, h'⟩
    · rw [h]
      cases w'.repr k with
      | ok s => exact .inl rfl
      | error e' =>
        simp only []
        split
        · exact hw.pystr k
        · exact .inl rfl
    · rw [h]
      simp only [h']
      exact .inr rfl
  unfold reprKey
  cases k <;> first | exact .inl rfl | exact key

variable (hw : WorldUntil e w w') (hx : Passes e cfg w w') (hfl : ∀ v, Until e (fl v) (fl' v))
include hw hx hfl

theorem u_pair (k v : Val) (d : List (Str × Json)) : Until e (flattenKeyValuePair w fl k v d) (flattenKeyValuePair w' fl' k v d) := by
  unfold flattenKeyValuePair
  split
  · exact .bind (.ofExcept (reprKey_until hw hx k)) (fun _ => .bind (hfl v) (fun _ => .refl))
  · exact .refl

omit hx in
theorem u_escape (k : Val) : Until e (escapeKey w fl k) (escapeKey w' fl' k) := by
  unfold escapeKey
  rw [hw.dumps]
  exact .bind (hfl k) (fun _ => .refl)

omit hx in
theorem u_nonString (k v : Val) (d : List (Str × Json)) : Until e (flattenNonString w cfg fl k v d) (flattenNonString w' cfg fl' k v d) := by
  unfold flattenNonString
  split
  · split
    · exact .refl
    · split
      · exact .bind (u_escape hw hfl _) (fun _ => .bind (hfl v) (fun _ => .refl))
      · exact .refl
  · exact .refl

theorem u_stringTail (k v : Val) (d : List (Str × Json)) : Until e (flattenStringTail w cfg fl k v d) (flattenStringTail w' cfg fl' k v d) := by
  unfold flattenStringTail
  split
  · split
    · split
      · exact .bind (hfl v) (fun _ => .refl)
      · exact .refl
    · exact .bind (.ofExcept (reprKey_until hw hx k)) (fun _ => .bind (hfl v) (fun _ => .refl))
  · exact .refl

theorem u_string (k v : Val) (d : List (Str × Json)) : Until e (flattenString w cfg fl k v d) (flattenString w' cfg fl' k v d) := by
  unfold flattenString
  split
  · split
    · exact .bind (hfl v) (fun _ => .bind (u_escape hw hfl _) (fun _ => .refl))
    · exact u_stringTail hw hx hfl _ _ _
  · exact u_stringTail hw hx hfl _ _ _

theorem u_entries (kvs : List (Val × Val)) (ex : List Str) (d : List (Str × Json)) :
    Until e (flattenEntries w cfg fl kvs ex d) (flattenEntries w' cfg fl' kvs ex d) := by
  unfold flattenEntries
  simp only []
  split
  · exact .bind (.foldM (fun _ _ => u_string hw hx hfl _ _ _) _ _) (fun _ => .foldM (fun _ _ => u_nonString hw hfl _ _ _) _ _)
  · exact .foldM (fun _ _ => u_pair hw hx hfl _ _ _) _ _

theorem u_factory (f : Val) {x x' : Except Exc Val} (h : Outcome e x x') : Until e (flattenFactory w cfg fl f x) (flattenFactory w' cfg fl' f x') := by
  have h : ∀ x, Until e (flattenClone w cfg fl x) (flattenClone w' cfg fl' x) := by
    intro x
    unfold flattenClone
    exact .bind (u_entries hw hx hfl _ _ _) (fun _ => .refl)
  unfold flattenFactory
  split
  · exact .refl
  · refine .bind .refl (fun new => ?_)
    split
    · exact .bind (.ofExcept (by assumption)) h
    · exact .refl

theorem u_dictSub (a : Addr) {i i' : Inst} (hi : InstUntil e i i') (d : List (Str × Json)) : Until e (flattenDictSub w cfg fl a i d) (flattenDictSub w' cfg fl' a i' d) := by
  obtain ⟨⟨f1, f2, f3, f4⟩, f5, f6, f7, f8, f9⟩ := fields hi
  unfold flattenDictSub
  rw [f5, f6, f7]
  refine .bind (u_entries hw hx hfl _ _ _) (fun _ => .bind ?_ (fun _ => ?_))
  · unfold flattenDefault
    split
    · exact .refl
    · exact .bind (u_factory hw hx hfl _ hi.factory) (fun _ => .refl)
  · unfold flattenOwnDict dictIdent
    rw [dictItems_eq hw hi, f2, f9, f4]
    split
    · refine .bind .refl (fun new => ?_)
      split
      · exact .bind (u_entries hw hx hfl _ _ _) (fun _ => .refl)
      · exact .refl
    · exact .refl

theorem u_objAttrs {i i' : Inst} (hi : InstUntil e i i') (l : List (Str × Val)) (ns : List Str) (d : List (Str × Json)) :
    Until e (flattenObjAttrs w fl i l ns d) (flattenObjAttrs w' fl' i' l ns d) := by
  obtain ⟨⟨f1, f2, f3, f4⟩, f5, f6, f7, f8, f9⟩ := fields hi
  unfold flattenObjAttrs
  rw [f2, f6]
  refine .foldM (fun acc k => ?_) _ _
  split
  · exact .refl
  · refine .tryCatch (.bind .refl (fun v => .bind (u_pair hw hx hfl _ _ _) (fun _ => .refl))) ?_ (fun _ => .refl)
    exact beq_eq_false_iff_ne.2 hx.attributeError

theorem u_slots {i i' : Inst} (hi : InstUntil e i i') (d : List (Str × Json)) : Until e (flattenSlots w fl i d) (flattenSlots w' fl' i' d) := by
  obtain ⟨⟨f1, f2, f3, f4⟩, f5, f6, f7, f8, f9⟩ := fields hi
  unfold flattenSlots
  rw [f2, f3, f8]
  refine .bind (u_objAttrs hw hx hfl hi _ _ _) (fun r => ?_)
  split
  · exact .refl
  · exact .bind (u_objAttrs hw hx hfl hi _ _ _) (fun _ => .refl)

theorem u_sequence {i i' : Inst} (hi : InstUntil e i i') (hb : i.info.base ≠ .plain) (d : List (Str × Json)) : Until e (flattenSequence w cfg fl i d) (flattenSequence w' cfg fl' i' d) := by
  obtain ⟨⟨f1, f2, f3, f4⟩, f5, f6, f7, f8, f9⟩ := fields hi
  have he : i'.elems = i.elems := by
    rcases hi.iter with ⟨_, h⟩ | ⟨h, _⟩
    · exact h.symm
    · exact absurd h hb
  unfold flattenSequence flattenSeqAttrs
  rw [dictItems_eq hw hi, f2, he]
  refine .bind ?_ (fun _ => .bind (.mapM hfl _) (fun _ => .refl))
  split
  · exact u_entries hw hx hfl _ _ _
  · exact .refl

omit hx hw in
theorem u_iterator {i i' : Inst} (hi : InstUntil e i i') (g : List Json → P Json) :
    Until e (do let js ← PyM.mapM fl (iterated cfg i); PyM.ofExcept (outcome (iterErr cfg i) ()); g js)
      (do let js ← PyM.mapM fl' (iterated cfg i'); PyM.ofExcept (outcome (iterErr cfg i') ()); g js) := by
  unfold iterated iterErr
  rcases hi.iter with ⟨h1, h2⟩ | ⟨_, h1, _, more, h2⟩
  · rw [h1, h2]
    exact .bind (.mapM hfl _) (fun _ => .refl)
  · rw [h1, h2]
    cases cfg.maxIter with
    | none => exact .mapM_stop hfl more _ _ _ (fun l s => rfl)
    | some n =>
      by_cases hn : n ≤ i.elems.length
      · simp only [hn, List.take_append_of_le_length hn, if_true, List.length_append]
        rw [if_pos (by omega)]
        exact .bind (.mapM hfl _) (fun _ => .refl)
      · simp only [hn, if_false]
        rw [List.take_of_length_le (by omega), List.take_append, List.take_of_length_le (by omega)]
        exact .mapM_stop hfl _ _ _ _ (fun l s => rfl)

theorem u_rest (a : Addr) {i i' : Inst} (hi : InstUntil e i i') (d : List (Str × Json)) : Until e (flattenRest w cfg fl a i d) (flattenRest w' cfg fl' a i' d) := by
  have hne : (e == Exc.typeError) = false := beq_eq_false_iff_ne.2 hx.typeError
  obtain ⟨⟨f1, f2, f3, f4⟩, f5, f6, f7, f8, f9⟩ := fields hi
  unfold flattenRest
  simp only [truthy_eq hw, dictItems_eq hw hi, f2, f6]
  split
  · exact .bind (u_dictSub hw hx hfl _ hi _) (fun _ => .refl)
  · next h => exact u_sequence hw hx hfl hi (by rw [h]; decide) _
  · next h => exact u_sequence hw hx hfl hi (by rw [h]; decide) _
  · next h => exact u_sequence hw hx hfl hi (by rw [h]; decide) _
  · split
    · exact u_iterator hfl hi _
    · split
      · exact .bind (u_entries hw hx hfl _ _ _) (fun _ => .refl)
      · split
        · exact u_slots hw hx hfl hi _
        · split
          · exact .refl
          · split
            · exact .refl
            · rcases hi.reduce with hr | hr
              · rw [hr]
                split
                · split
                  · exact hfl _
                  · split
                    · exact hfl _
                    · exact .refl
                · exact .refl
                · exact .refl
              · rw [hr]
                by_cases hrd : i.info.reduces = true
                · simp only [hrd, if_true, hne]
                  exact .stop (fun s => rfl)
                · simp only [hrd]
                  exact .refl

omit hfl hw in
theorem u_objWith (hs : SafeUntil e cfg.failSafe fs) {v : Val} {id : Ident} {en : Bool} {r r' : Except Exc Str} {x x' : P Json} (hr : Outcome e r r')
    (h : Until e x x') : Until e (flattenObjWith cfg v id en r x) (flattenObjWith { cfg with failSafe := fs } v id en r' x') := by
  unfold flattenObjWith
  have hsome : fs.isSome = cfg.failSafe.isSome := by
    cases hc : cfg.failSafe <;> cases hf : fs <;> rw [hc, hf] at hs <;> first | rfl | exact hs.elim
  refine .bind .refl (fun _ => .bind .refl (fun mx => ?_))
  simp only [hsome]
  refine .tryCatch (.bind .refl (fun cyc => ?_)) (by rcases hx.rest with h | ⟨h, _⟩ <;> simp [h]) (fun e' => ?_)
  · split
    · exact .bind (.ofExcept hr) (fun _ => .refl)
    · exact h
  · cases hc : cfg.failSafe <;> cases hf : fs <;> rw [hc, hf] at hs <;> first | exact .refl | exact hs.elim | exact .ofExcept (hs e')

omit hfl hw hx in
theorem u_cached {i : Ident} {x x' : P Json} (h : Until e x x') : Until e (cached cfg i x) (cached { cfg with failSafe := fs } i x') := by
  unfold cached
  simp only []
  split
  · exact h
  · refine .bind .refl (fun s => ?_)
    split
    · exact .refl
    · exact .bind h (fun _ => .refl)

theorem u_getstate (hs : SafeUntil e cfg.failSafe fs) (a : Addr) {i i' : Inst} (hi : InstUntil e i i') (d : List (Str × Json)) :
    Until e (flattenGetstate w cfg fl a i d) (flattenGetstate w' { cfg with failSafe := fs } fl' a i' d) := by
  have hne : (e == Exc.typeError) = false := beq_eq_false_iff_ne.2 hx.typeError
  obtain ⟨⟨f1, f2, f3, f4⟩, f5, f6, f7, f8, f9⟩ := fields hi
  by_cases hraise : i.info.ownGetstate = true ∧ i.state = .error e
  · refine .stop (fun s => ?_)
    unfold flattenGetstate
    simp only [hraise.1, hraise.2, hne, if_true, Bool.false_eq_true, if_false]
    rfl
  have hstate : i.info.ownGetstate = true → i'.state = i.state := by
    intro h
    rcases hi.state with h' | h'
    · exact h'.symm
    · exact absurd ⟨h, h'⟩ hraise
  unfold flattenGetstate
  simp only [truthy_eq hw, f2, f6]
  split
  · next hg =>
    rw [hstate hg]
    split
    · exact .refl
    · next st _ =>
      have hA : ∀ kvs, Until e
          (if (itemsExcl i.exclude kvs).isEmpty then flattenRest w cfg fl a i d
            else do
              let j ← flattenFilteredState w cfg fl a kvs i.exclude
              pure (putState cfg j d))
          (if (itemsExcl i.exclude kvs).isEmpty then flattenRest w' { cfg with failSafe := fs } fl' a i' d
            else do
              let j ← flattenFilteredState w' { cfg with failSafe := fs } fl' a kvs i.exclude
              pure (putState { cfg with failSafe := fs } j d)) := by
        intro kvs
        split
        · exact u_rest (cfg := cfg) hw hx hfl _ hi _
        · refine .bind ?_ (fun _ => .refl)
          unfold flattenFilteredState
          refine u_cached (.bind .refl (fun _ => .bind (u_objWith hx hs (hw.repr _) (.bind .refl (fun new => ?_))) (fun _ => .refl)))
          split
          · exact .bind (u_entries hw hx hfl _ _ _) (fun _ => .refl)
          · exact .refl
      have hB : Until e
          (if truthy w.heap st then do
              let j ← fl st
              pure (putState cfg j d)
            else flattenRest w cfg fl a i d)
          (if truthy w.heap st then do
              let j ← fl' st
              pure (putState { cfg with failSafe := fs } j d)
            else flattenRest w' { cfg with failSafe := fs } fl' a i' d) := by
        split
        · exact .bind (hfl _) (fun _ => .refl)
        · exact u_rest (cfg := cfg) hw hx hfl _ hi _
      cases st <;> try exact hB
      case ref b _ =>
        rcases cells hw.cell b with ⟨o, o', h1, h2, h3⟩ | ⟨h1, h2⟩
        · simp only [h1, h2]
          cases h3 with
          | inst => exact hB
          | same =>
            cases o <;> try exact hB
            by_cases hex : i.exclude.isEmpty = true
            · simp only [if_pos hex]
              exact hB
            · simp only [if_neg hex]
              exact hA _
        · simp only [h1, h2]
          exact hB
  · exact u_rest (cfg := cfg) hw hx hfl _ hi _

theorem u_body (hs : SafeUntil e cfg.failSafe fs) (a : Addr) {i i' : Inst} (hi : InstUntil e i i') :
    Until e (flattenBody w cfg fl a i) (flattenBody w' { cfg with failSafe := fs } fl' a i') := by
  obtain ⟨⟨f1, f2, f3, f4⟩, _⟩ := fields hi
  have h5 : objTag { cfg with failSafe := fs } i' = objTag cfg i := by unfold objTag; rw [f1]
  unfold flattenBody
  rw [h5]
  refine .bind ?_ (fun _ => .bind ?_ (fun _ => u_getstate hw hx hfl hs _ hi _))
  · unfold flattenNewargs
    rw [f2]
    split
    · exact .bind (.ofExcept hi.newargsEx) (fun _ => .bind (hfl _) (fun _ => .bind (hfl _) (fun _ => .refl)))
    · split
      · exact .bind (.ofExcept hi.newargs) (fun _ => .bind (hfl _) (fun _ => .refl))
      · exact .refl
  · unfold flattenInitargs
    rw [f2]
    split
    · exact .bind (.ofExcept hi.initargs) (fun _ => .bind (hfl _) (fun _ => .refl))
    · exact .refl

theorem u_reduce (hs : SafeUntil e cfg.failSafe fs) (a : Addr) {i i' : Inst} (hi : InstUntil e i i') :
    Until e (flattenReduce w cfg fl a i) (flattenReduce w' { cfg with failSafe := fs } fl' a i') := by
  have hne : (e == Exc.typeError) = false := beq_eq_false_iff_ne.2 hx.typeError
  obtain ⟨⟨f1, f2, f3, f4⟩, _⟩ := fields hi
  have hb := u_body hw hx hfl hs a hi
  have hsane : ∀ xs, reduceSane w' i' xs = reduceSane w i xs := by
    intro xs
    unfold reduceSane
    rw [truthy_eq hw, f2]
  unfold flattenReduce
  rw [f2]
  rcases hi.reduce with hr | hr
  · rw [hr]
    have key : ∀ rv : ReduceVal, Until e (match rv with
        | .nothing => flattenBody w cfg fl a i
        | .raise e => if e == .typeError then flattenBody w cfg fl a i else PyM.throw e
        | .str none => flattenBody w cfg fl a i
        | .str (some v) => PyM.tryCatch (fl v) (· == .keyError) (fun _ => flattenBody w cfg fl a i)
        | .tup xs =>
          if xs.isEmpty then flattenBody w cfg fl a i
          else if reduceSane w i xs then do
            let js ← PyM.mapM fl (newobjMark (padReduce xs))
            pure (.obj [(Tags.REDUCE, .arr (trimReduce js))])
          else flattenBody w cfg fl a i)
        (match rv with
        | .nothing => flattenBody w' { cfg with failSafe := fs } fl' a i'
        | .raise e => if e == .typeError then flattenBody w' { cfg with failSafe := fs } fl' a i' else PyM.throw e
        | .str none => flattenBody w' { cfg with failSafe := fs } fl' a i'
        | .str (some v) => PyM.tryCatch (fl' v) (· == .keyError) (fun _ => flattenBody w' { cfg with failSafe := fs } fl' a i')
        | .tup xs =>
          if xs.isEmpty then flattenBody w' { cfg with failSafe := fs } fl' a i'
          else if reduceSane w' i' xs then do
            let js ← PyM.mapM fl' (newobjMark (padReduce xs))
            pure (.obj [(Tags.REDUCE, .arr (trimReduce js))])
          else flattenBody w' { cfg with failSafe := fs } fl' a i') := by
      intro rv
      cases rv with
      | nothing => exact hb
      | raise e' =>
        simp only []
        split
        · exact hb
        · exact .refl
      | str v =>
        cases v with
        | none => exact hb
        | some v => exact .tryCatch (hfl _) (beq_eq_false_iff_ne.2 hx.keyError) (fun _ => hb)
      | tup xs =>
        simp only [hsane]
        split
        · exact hb
        · split
          · exact .bind (.mapM hfl _) (fun _ => .refl)
          · exact hb
    exact key _
  · rw [hr]
    by_cases hc : (cfg.unpicklable && i.info.reduces) = true
    · simp only [hc, if_true, hne]
      exact .stop (fun s => rfl)
    · simp only [hc]
      exact hb

theorem u_date (a : Addr) {i i' : Inst} (hi : InstUntil e i i') :
    Until e (flattenDate w cfg fl a i) (flattenDate w' { cfg with failSafe := fs } fl' a i') := by
  obtain ⟨⟨f1, f2, f3, f4⟩, _⟩ := fields hi
  have h5 : objTag { cfg with failSafe := fs } i' = objTag cfg i := by unfold objTag; rw [f1]
  unfold flattenDate
  rw [h5]
  split
  · rcases hi.handler with ⟨h1, h2⟩ | ⟨h1, more, h2⟩
    · rw [h1, h2]
      exact .bind (.mapM hfl _) (fun _ => .refl)
    · rw [h1]
      have ht : ∃ ys, i'.hfields.tail.map (·.2) = i.hfields.tail.map (·.2) ++ ys := by
        rw [h2]
        cases i.hfields with
        | nil => exact ⟨more.tail.map (·.2), rfl⟩
        | cons x xs => exact ⟨more.map (·.2), by simp⟩
      obtain ⟨ys, ht⟩ := ht
      rw [ht]
      exact .mapM_stop hfl ys _ _ _ (fun l s => rfl)
  · refine .bind (.ofExcept (hw.pystr _)) (fun _ => .bind (.ofExcept ?_) (fun _ => .refl))
    rcases hi.handler with ⟨h, _⟩ | ⟨h, _⟩
    · rw [h]; exact .inl rfl
    · rw [h]; exact .inr rfl

theorem u_inst (hs : SafeUntil e cfg.failSafe fs) (a : Addr) {i i' : Inst} (hi : InstUntil e i i') :
    Until e (flattenInst w cfg fl a i) (flattenInst w' { cfg with failSafe := fs } fl' a i') := by
  obtain ⟨⟨f1, f2, f3, f4⟩, _⟩ := fields hi
  have h5 : objTag { cfg with failSafe := fs } i' = objTag cfg i := by unfold objTag; rw [f1]
  have herr : Outcome e (outcome i.errs.handler ()) (outcome i'.errs.handler ()) := by
    rcases hi.handler with ⟨h, _⟩ | ⟨h, _⟩
    · rw [h]; exact .inl rfl
    · rw [h]; exact .inr rfl
  unfold flattenInst
  rw [hw.handler, f1, h5]
  split
  · rcases hi.handler with ⟨h1, h2⟩ | ⟨h1, more, h2⟩
    · rw [h1, h2]
      exact .bind (.foldM (fun _ _ => .bind (hfl _) (fun _ => .refl)) _ _) (fun _ => .refl)
    · rw [h1, h2]
      exact .foldM_stop (fun _ _ => .bind (hfl _) (fun _ => .refl)) _ _ _ _ _ (fun l s => rfl)
  · exact u_date hw hx hfl a hi
  · exact .bind (.ofExcept herr) (fun _ => .refl)
  · exact .bind (.ofExcept herr) (fun _ => .refl)
  · exact u_reduce hw hx hfl hs a hi

theorem u_ref {id : Ident} {en : Bool} {x x' : P Json} (h : Until e x x') :
    Until e (refObjInstance cfg id en x) (refObjInstance { cfg with failSafe := fs } id en x') := by
  unfold refObjInstance
  simp only []
  split
  · refine .bind .refl (fun new => ?_)
    split
    · exact h
    · exact .refl
  · refine .bind .refl (fun mx => .bind .refl (fun cyc => ?_))
    split
    · exact .refl
    · exact .bind .refl (fun _ => h)

theorem u_by (hs : SafeUntil e cfg.failSafe fs) (v : Val) : Until e (flattenBy w cfg fl v) (flattenBy w' { cfg with failSafe := fs } fl' v) := by
  unfold flattenBy
  cases v <;> try exact .refl
  case tuple => exact .bind (.mapM hfl _) (fun _ => .refl)
  case set => exact .bind (.mapM hfl _) (fun _ => .refl)
  case module n =>
    refine u_ref hw hx hfl ?_
    unfold flattenModule
    simp only []
    split
    · exact .refl
    · exact .bind (.ofExcept (hw.pystr _)) (fun _ => .refl)
  case ref a =>
    simp only []
    rcases cells hw.cell a with ⟨o, o', h1, h2, h3⟩ | ⟨h1, h2⟩
    · rw [h1, h2]
      cases o with
      | list xs =>
        cases h3
        refine .bind .refl (fun new => ?_)
        split
        · exact .bind (.mapM hfl _) (fun _ => .refl)
        · exact .refl
      | dict kvs =>
        cases h3
        refine .bind .refl (fun new => ?_)
        split
        · exact .bind (u_entries hw hx hfl _ _ _) (fun _ => .refl)
        · exact .refl
      | inst i =>
        have : ∃ i', o' = .inst i' ∧ InstUntil e i i' := by
          cases h3 with
          | same => exact ⟨_, rfl, .refl e i⟩
          | inst _ i' h => exact ⟨_, rfl, h⟩
        obtain ⟨i', rfl, hi⟩ := this
        simp only [(fields hi).1.2.1]
        exact u_ref hw hx hfl (u_inst hw hx hfl hs a hi)
      | _ => cases h3; exact .refl
    · rw [h1, h2]
      exact .refl

theorem u_step (hs : SafeUntil e cfg.failSafe fs) (v : Val) : Until e (flattenStep w cfg fl v) (flattenStep w' { cfg with failSafe := fs } fl' v) := by
  have hi : Until e (flattenImpl w cfg fl v) (flattenImpl w' { cfg with failSafe := fs } fl' v) := by
    have ho : Until e (do push; let j ← flattenObj w cfg fl v; pop j) (do push; let j ← flattenObj w' { cfg with failSafe := fs } fl' v; pop j) := by
      refine .bind .refl (fun _ => .bind ?_ (fun _ => .refl))
      unfold flattenObj
      rw [isEnumV_eq hw]
      exact u_objWith hx hs (hw.repr v) (u_by hw hx hfl hs v)
    cases v <;> first | exact .refl | exact ho
  unfold flattenStep
  cases v <;> first | exact hi | exact u_cached hi

omit hfl in
theorem u_flatten (hs : SafeUntil e cfg.failSafe fs) : ∀ n v, Until e (flatten w cfg n v) (flatten w' { cfg with failSafe := fs } n v)
  | 0, _ => .refl
  | n + 1, v => u_step hw hx (u_flatten hs n) hs v

omit hfl in
theorem u_encode (hs : SafeUntil e cfg.failSafe fs) (n : Nat) (v : Val) (reset : Bool) :
    Until e (Api.encode w cfg n v reset) (Api.encode w' { cfg with failSafe := fs } n v reset) := by
  unfold Api.encode flattenTop
  rw [hw.dumps]
  refine .bind ?_ (fun _ => .refl)
  split
  · exact .bind .refl (fun _ => u_flatten hw hx hs n v)
  · exact u_flatten hw hx hs n v

end UntilRun
end JP.Pickler
