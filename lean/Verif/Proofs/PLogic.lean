import Verif.Pickler
import Verif.Touch
import Verif.Proofs.Base64
/-!
# A program logic for the encoder

`Logic w cfg` packages a judgement `T d x x' Post` about two runs of (usually the same) encoder
computation at nesting depth `d`, together with the rules that the judgement must satisfy.
`Logic.flatten` then lifts it to the whole encoder: one traversal of the model serves every property of
the form "all results of `flatten` satisfy ...", and every comparison of two runs.
-/
namespace JP.Pickler
open JP PyM

variable (w : World) (cfg : PCfg)

/-- `_flatten` of a container: cache, push, `_flatten_obj`, pop. -/
def level (seenV : Val) (id : Ident) (isEnum : Bool) (rep : Except Exc Str) (body : P Json) : P Json :=
  cached cfg id (do
    push
    let j ← flattenObjWith cfg seenV id isEnum rep body
    pop j)

/-- The object catches exceptions of nested calls while it is flattened (slots, pickler.py:518-526;
a `__reduce__` string, pickler.py:650-663). -/
def Catches (w : World) (V : Val → Prop) : Prop :=
  ∃ (a : Addr) (i : Inst), V (.ref a) ∧ w.heap[a]? = some (.inst i) ∧
    ((i.info.base = .plain ∧ i.info.isIterator = false ∧ i.info.hasDict = false ∧ i.info.hasSlots = true) ∨
     (i.info.reduces = true ∧ ∃ v, i.reduce = .str (some v)))

/-- neither `None` nor a string -/
def Boxed (v : Val) : Prop := v ≠ .none ∧ ∀ s, v ≠ .str s

/-- One of the values considered is an enum member. -/
def HasEnum (w : World) (V : Val → Prop) : Prop :=
  ∃ (a : Addr) (i : Inst), V (.ref a) ∧ w.heap[a]? = some (.inst i) ∧ i.info.isEnum = true

theorem hasEnum_of {w : World} {V : Val → Prop} {v : Val} (hv : V v) (h : isEnumV w v = true) : HasEnum w V := by
  unfold isEnumV at h
  split at h
  · split at h
    · next i hi => exact ⟨_, i, hv, hi, h⟩
    · cases h
  · cases h

/-- Where the encoder is: the nesting depth and the containers that are open, innermost first. -/
structure Idx where
  depth : Int
  stack : List Val

def Idx.child (d : Idx) (v : Val) : Idx := ⟨d.depth + 1, v :: d.stack⟩

/-- The identities registered on behalf of `v`: its own, and for an instance those of its `__dict__`, of
its default factory and of the filtered copy of its state. -/
def Own (w : World) (v : Val) (i : Ident) : Prop :=
  i = v.ident ∨ ∃ a o, v = .ref a ∧ w.heap[a]? = some (.inst o) ∧
    (i = .stateOf a ∨ i = dictIdent a o ∨ ∃ f, o.factory = some f ∧ i = f.ident)

def Idx.Owns (w : World) (d : Idx) (i : Ident) : Prop := ∃ v c, d.stack = v :: c ∧ Own w v i

structure Logic where
  T : Idx → {α : Type} → P α → P α → (α → Prop) → Prop
  /-- results of `_flatten` at depth `d` (depth of the caller's body) -/
  JC : Idx → Json → Prop
  /-- values stored in the dict of an object body at depth `d` -/
  JD : Idx → Json → Prop
  /-- results of the body at depth `d` -/
  JB : Idx → Json → Prop
  /-- allowed keys -/
  K : Str → Prop
  RefOk : Prop
  /-- the values considered -/
  V : Val → Prop
  /-- the values the recursive call is made on -/
  R : Val → Prop
  rv : ∀ {v}, R v → V v
  /-- allowed strings -/
  S : Str → Prop
  pure : ∀ {d} {α : Type} {Q : α → Prop} {a : α}, Q a → T d (Pure.pure a) (Pure.pure a) Q
  bind : ∀ {d} {α β : Type} {x x' : P α} {f f' : α → P β} {Q : α → Prop} {R : β → Prop},
    T d x x' Q → (∀ a, Q a → T d (f a) (f' a) R) → T d (x >>= f) (x' >>= f') R
  ofExcept : ∀ {d} {α : Type} {r : Except Exc α} {Q : α → Prop},
    (∀ a, r = .ok a → Q a) → T d (PyM.ofExcept r) (PyM.ofExcept r) Q
  tryCatch : Catches w V → ∀ {d} {α : Type} {x x' : P α} {p : Exc → Bool} {h h' : Exc → P α} {Q : α → Prop},
    T d x x' Q → (∀ e, T d (h e) (h' e) Q) → T d (PyM.tryCatch x p h) (PyM.tryCatch x' p h') Q
  mkref : ∀ {d : Idx} {i : Ident}, d.Owns w i → T d (mkref cfg i) (mkref cfg i) (fun b => b = true ∨ RefOk)
  /-- register, and either go on or write a reference -/
  refOr : ∀ {d : Idx} {i : Ident} {α : Type} {x x' : P α} {g g' : Json → P α} {Q : α → Prop}, d.Owns w i → T d x x' Q →
    (∀ j, JB d j ∧ JD d j → T d (g j) (g' j) Q) →
    T d (Pickler.mkref cfg i >>= fun new => if new then x else getref i >>= g) (Pickler.mkref cfg i >>= fun new => if new then x' else getref i >>= g') Q
  maxReached : ∀ {d}, T d (maxReached cfg) (maxReached cfg) (fun _ => True)
  inCycle : ∀ {d} {i : Ident} {e m r : Bool}, T d (inCycle i e m r) (inCycle i e m r) (fun _ => True)
  level : ∀ {d : Idx} {v : Val} {id : Ident} {e : Bool} {rep : Except Exc Str} {body body' : P Json},
    V v ∧ Boxed v → (e = true → HasEnum w V) → (∀ s, rep = .ok s → S s) → Own w v id → T (d.child v) body body' (JB (d.child v)) →
    T d (level cfg v id e rep body) (level cfg v id e rep body') (JC d)
  leafBytes : ∀ {d} {i b}, T d (cached cfg (.inl i) (Pure.pure (flattenBytestring cfg b)))
    (cached cfg (.inl i) (Pure.pure (flattenBytestring cfg b))) (JC d)
  leafBytearray : ∀ {d} {i b},
    T d (cached cfg (.inl i) (Pure.pure (.obj [(Tags.BYTEARRAY, flattenBytestring cfg b)])))
    (cached cfg (.inl i) (Pure.pure (.obj [(Tags.BYTEARRAY, flattenBytestring cfg b)]))) (JC d)
  jNull : ∀ {d}, JC d .null
  jBool : ∀ {d b}, JC d (.bool b)
  jInt : ∀ {d i}, JC d (.int i)
  jFloat : ∀ {d f}, V (.float f) → JC d (.float f)
  jStr : ∀ {d s}, S s → JC d (.str s)
  jCD : ∀ {d j}, JC d j → JD d j
  jCB : ∀ {d j}, JC d j → JB d j
  jArrD : ∀ {d js}, (∀ j ∈ js, JC d j) → JD d (.arr js)
  jArrB : ∀ {d js}, (∀ j ∈ js, JC d j) → JB d (.arr js)
  jObjD : ∀ {d kvs}, (kvs.map (·.1)).Nodup → (∀ kv ∈ kvs, K kv.1 ∧ JC d kv.2) → JD d (.obj kvs)
  jObjB : ∀ {d kvs}, (kvs.map (·.1)).Nodup → (∀ kv ∈ kvs, K kv.1 ∧ JD d kv.2) → JB d (.obj kvs)
  jDate : ∀ {d c kvs p c' js}, w.handler c = some .datetime → (∀ x ∈ p, x < 128) → (kvs.map (·.1)).Nodup → (∀ kv ∈ kvs, K kv.1 ∧ JD d kv.2) → JC d c' →
    (∀ j ∈ js, JC d j) → JB d (.obj (dset p!"__reduce__" (.arr [c', .arr (.str p :: js)]) kvs))
  vNone : R .none
  vNewobj : R (.str Tags.NEWOBJ)
  sVal : ∀ {s}, V (.str s) → S s
  sType : ∀ {n}, V (.type n) → S n
  sFunc : ∀ {n}, V (.func n) → S n
  sModule : ∀ {n}, V (.module n) → S (n ++ 47 :: n)
  sClass : ∀ {a : Addr} {i : Inst}, V (.ref a) → w.heap[a]? = some (.inst i) → S i.cls
  sClone : S CLONE
  sRepr : ∀ {v s}, V v → w.repr v = .ok s → S s
  sPystr : ∀ {v s}, V v → w.pystr v = .ok s → S s
  kUser : ∀ {s}, S s → Tags.isReserved s = false → K s
  kName : ∀ s ∈ [p!"exemplar", p!"default_factory", p!"__dict__", p!"__reduce__"], K s
  kRepr : ∀ {v s}, V v → (∀ t, v ≠ .str t) → reprKey w v = .ok s → K s
  kEsc : ∀ {d j}, JC d j → K (Tags.JSON_KEY ++ w.dumps j)
  kField : ∀ {a : Addr} {i : Inst} {kv : Str × Val}, V (.ref a) → w.heap[a]? = some (.inst i) → kv ∈ i.hfields → K kv.1
  kObject : cfg.unpicklable = true → K Tags.OBJECT
  kFunction : cfg.unpicklable = true → K Tags.FUNCTION
  kModule : cfg.unpicklable = true → K Tags.MODULE
  kReduce : cfg.unpicklable = true → K Tags.REDUCE
  kSeq : cfg.unpicklable = true → K Tags.SEQ
  kSet : cfg.unpicklable = true → K Tags.SET
  kTuple : cfg.unpicklable = true → K Tags.TUPLE
  kState : cfg.unpicklable = true → K Tags.STATE
  kType : K Tags.TYPE
  kNewargs : K Tags.NEWARGS
  kNewargsex : K Tags.NEWARGSEX
  kInitargs : K Tags.INITARGS
  kIterator : K Tags.ITERATOR
  kDefault : K Tags.DEFAULT_FACTORY

theorem dateText_ascii (fs : List (Str × Val)) : ∀ x ∈ dateText fs, x < 128 := by
  unfold dateText
  split
  · exact b64encode_ascii _
  · intro x hx; cases hx

namespace Logic
variable {w cfg} (L : Logic w cfg) {fl fl' : Val → P Json} {d : Idx}

theorem bind_pure_self {α} (x : P α) : (x >>= Pure.pure) = x := by
  funext s
  rw [bind_run]
  match x s with
  | none => rfl
  | some (.error e, s') => rfl
  | some (.ok a, s') => rfl

theorem conseq {α : Type} {x x' : P α} {Q R : α → Prop} (h : L.T d x x' Q) (hqr : ∀ a, Q a → R a) :
    L.T d x x' R := by
  have := L.bind (R := R) h (fun a ha => L.pure (hqr a ha))
  rwa [bind_pure_self, bind_pure_self] at this

/-- register, and either go on or return a reference -/
theorem refOr' {i : Ident} {x x' : P Json} {Q : Json → Prop} (ho : d.Owns w i) (hx : L.T d x x' Q) (hq : ∀ j, L.JB d j ∧ L.JD d j → Q j) :
    L.T d (Pickler.mkref cfg i >>= fun new => if new then x else getref i) (Pickler.mkref cfg i >>= fun new => if new then x' else getref i) Q := by
  have := L.refOr (g := Pure.pure) (g' := Pure.pure) ho hx (fun j hj => L.pure (hq j hj))
  simpa only [bind_pure_self] using this

theorem throw {α : Type} {e : Exc} {Q : α → Prop} : L.T d (PyM.throw e) (PyM.throw e) Q :=
  L.ofExcept (r := .error e) (fun a h => by cases h)

/-- all entries satisfy the key and value predicates -/
def D (d : Idx) (kvs : List (Str × Json)) : Prop := (kvs.map (·.1)).Nodup ∧ ∀ kv ∈ kvs, L.K kv.1 ∧ L.JD d kv.2

theorem mem_dset {k : Str} {j : Json} {l : List (Str × Json)} {kv} (h : kv ∈ dset k j l) :
    kv = (k, j) ∨ kv ∈ l := by
  induction l with
  | nil => simp [dset] at h; exact .inl h
  | cons x r ih =>
    obtain ⟨k', v'⟩ := x
    simp only [dset] at h
    split at h
    · next e =>
      subst e
      rcases List.mem_cons.mp h with h | h
      · exact .inl h
      · exact .inr (List.mem_cons_of_mem _ h)
    · rcases List.mem_cons.mp h with h | h
      · exact .inr (h ▸ List.mem_cons_self)
      · rcases ih h with h | h
        · exact .inl h
        · exact .inr (List.mem_cons_of_mem _ h)

theorem nodup_dset {k : Str} {j : Json} {l : List (Str × Json)} (h : (l.map (·.1)).Nodup) : ((dset k j l).map (·.1)).Nodup := by
  rw [dset_keys]
  split
  · exact h
  · next hk => exact List.nodup_append.2 ⟨h, by simp, fun a ha b hb => by simp at hb; subst hb; rintro rfl; exact hk ha⟩

theorem D_dset {k : Str} {j : Json} {l} (hl : L.D d l) (hk : L.K k) (hj : L.JD d j) :
    L.D d (dset k j l) := by
  refine ⟨nodup_dset hl.1, ?_⟩
  intro kv h
  rcases mem_dset h with h | h
  · subst h; exact ⟨hk, hj⟩
  · exact hl.2 kv h

theorem D_nil : L.D d [] := ⟨List.nodup_nil, by intro kv h; simp at h⟩

/-- same for entries that are results of `_flatten` -/
def E (d : Idx) (kvs : List (Str × Json)) : Prop := (kvs.map (·.1)).Nodup ∧ ∀ kv ∈ kvs, L.K kv.1 ∧ L.JC d kv.2

theorem E_dset {k : Str} {j : Json} {l} (hl : L.E d l) (hk : L.K k) (hj : L.JC d j) :
    L.E d (dset k j l) := by
  refine ⟨nodup_dset hl.1, ?_⟩
  intro kv h
  rcases mem_dset h with h | h
  · subst h; exact ⟨hk, hj⟩
  · exact hl.2 kv h

theorem E_nil : L.E d [] := ⟨List.nodup_nil, by intro kv h; simp at h⟩

/-- A class of accumulators closed under adding a flattened value. -/
structure Acc (A : List (Str × Json) → Prop) : Prop where
  set : ∀ {k j l}, A l → L.K k → L.JC d j → A (dset k j l)

theorem accD : Acc L (d := d) (L.D d) := ⟨fun hl hk hj => L.D_dset hl hk (L.jCD hj)⟩
theorem accE : Acc L (d := d) (L.E d) := ⟨fun hl hk hj => L.E_dset hl hk hj⟩

theorem mapM {α β : Type} {f f' : α → P β} {Q : β → Prop} : ∀ (xs : List α),
    (∀ x ∈ xs, L.T d (f x) (f' x) Q) →
    L.T d (PyM.mapM f xs) (PyM.mapM f' xs) (fun ys => ∀ y ∈ ys, Q y)
  | [], _ => L.pure (by intro y h; simp at h)
  | x :: xs, h => by
    rw [mapM_cons, mapM_cons]
    refine L.bind (h x (by simp)) (fun y hy => L.bind (mapM xs (fun z hz => h z (by simp [hz]))) ?_)
    intro ys hys
    refine L.pure ?_
    intro z hz
    rcases List.mem_cons.mp hz with e | hz
    · exact e ▸ hy
    · exact hys z hz

theorem foldM {α β : Type} {f f' : β → α → P β} {Q : β → Prop} : ∀ (xs : List α) (b : β), Q b →
    (∀ b, Q b → ∀ x ∈ xs, L.T d (f b x) (f' b x) Q) →
    L.T d (PyM.foldM f b xs) (PyM.foldM f' b xs) Q
  | [], b, hb, _ => L.pure hb
  | x :: xs, b, hb, h => by
    rw [foldM_cons, foldM_cons]
    exact L.bind (h b hb x (by simp)) (fun b' hb' =>
      foldM xs b' hb' (fun c hc z hz => h c hc z (by simp [hz])))

variable (hfl : ∀ d v, L.R v → L.T d (fl v) (fl' v) (L.JC d))
include hfl

omit hfl in
theorem kReprKey {k : Val} {s : Str} (hv : L.V k) (hp : ∀ t, k = .str t → Tags.isReserved t = false)
    (h : reprKey w k = .ok s) : L.K s := by
  by_cases hk : ∃ t, k = .str t
  · obtain ⟨t, rfl⟩ := hk
    cases h
    exact L.kUser (L.sVal hv) (hp _ rfl)
  · exact L.kRepr hv (fun t e => hk ⟨t, e⟩) h

omit hfl in
theorem picklable_key {k v : Val} (h : isPicklable k v = true) :
    ∀ t, k = .str t → Tags.isReserved t = false := by
  rintro t rfl
  simp only [isPicklable, Bool.and_eq_true] at h
  simpa using h.1

theorem keyValuePair {A} (hA : Acc L (d := d) A) {k v : Val} {data} (hk : L.R k) (hv : L.R v) (hd : A data) :
    L.T d (flattenKeyValuePair w fl k v data) (flattenKeyValuePair w fl' k v data) A := by
  unfold flattenKeyValuePair
  split
  · next h =>
    refine L.bind (L.ofExcept (Q := L.K) (fun s hs => L.kReprKey (L.rv hk) (picklable_key h) hs)) ?_
    intro k' hk'
    exact L.bind (hfl d v hv) (fun j hj => L.pure (hA.set hd hk' hj))
  · exact L.pure hd

theorem escape {k : Val} (hk : L.R k) : L.T d (escapeKey w fl k) (escapeKey w fl' k) L.K := by
  unfold escapeKey
  exact L.bind (hfl d k hk) (fun j hj => L.pure (L.kEsc hj))

theorem nonString {A} (hA : Acc L (d := d) A) {k v : Val} {data} (hk : L.R k) (hv : L.R v) (hd : A data) :
    L.T d (flattenNonString w cfg fl k v data) (flattenNonString w cfg fl' k v data) A := by
  unfold flattenNonString
  split
  · split
    · exact L.pure hd
    · split
      · exact L.bind (L.escape hfl hk) (fun k' hk => L.bind (hfl d v hv) (fun j hj => L.pure (hA.set hd hk hj)))
      · exact L.pure hd
  · exact L.pure hd

theorem stringTail {A} (hA : Acc L (d := d) A) {k v : Val} {data} (hk : L.R k) (hv : L.R v) (hd : A data) :
    L.T d (flattenStringTail w cfg fl k v data) (flattenStringTail w cfg fl' k v data) A := by
  unfold flattenStringTail
  split
  · next h =>
    split
    · split
      · exact L.bind (hfl d v hv) (fun j hj => L.pure (hA.set hd (L.kUser (L.sVal (L.rv hk)) (picklable_key h _ rfl)) hj))
      · exact L.pure hd
    · refine L.bind (L.ofExcept (Q := L.K) (fun s hs => L.kReprKey (L.rv hk) (picklable_key h) hs)) ?_
      intro k' hk'
      exact L.bind (hfl d v hv) (fun j hj => L.pure (hA.set hd hk' hj))
  · exact L.pure hd

theorem string {A} (hA : Acc L (d := d) A) {k v : Val} {data} (hk : L.R k) (hv : L.R v) (hd : A data) :
    L.T d (flattenString w cfg fl k v data) (flattenString w cfg fl' k v data) A := by
  unfold flattenString
  split
  · split
    · exact L.bind (hfl d v hv) (fun j hj => L.bind (L.escape hfl hk) (fun k hk => L.pure (hA.set hd hk hj)))
    · exact L.stringTail hfl hA hk hv hd
  · exact L.stringTail hfl hA hk hv hd

/-- all keys and values are considered -/
def VItems (kvs : List (Val × Val)) : Prop := ∀ k v, (k, v) ∈ kvs → L.R k ∧ L.R v

theorem entries {A} (hA : Acc L (d := d) A) {kvs excl data} (hv : L.VItems kvs) (hd : A data) :
    L.T d (flattenEntries w cfg fl kvs excl data) (flattenEntries w cfg fl' kvs excl data) A := by
  unfold flattenEntries
  simp only
  have hx : ∀ x ∈ itemsExcl excl kvs, L.R x.1 ∧ L.R x.2 := fun x hx => hv x.1 x.2 ((List.mem_filter.1 hx).1)
  split
  · exact L.bind (L.foldM _ _ hd (fun b hb x hm => L.string hfl hA (hx x hm).1 (hx x hm).2 hb))
      (fun b hb => L.foldM _ _ hb (fun c hc x hm => L.nonString hfl hA (hx x hm).1 (hx x hm).2 hc))
  · exact L.foldM _ _ hd (fun b hb x hm => L.keyValuePair hfl hA (hx x hm).1 (hx x hm).2 hb)

omit hfl in
theorem D_single {k : Str} {j : Json} (hk : L.K k) (hj : L.JD d j) : L.D d [(k, j)] :=
  ⟨by simp, by intro kv hkv; simp only [List.mem_singleton] at hkv; subst hkv; exact ⟨hk, hj⟩⟩

omit hfl in
theorem E_single {k : Str} {j : Json} (hk : L.K k) (hj : L.JC d j) : L.E d [(k, j)] :=
  ⟨by simp, by intro kv hkv; simp only [List.mem_singleton] at hkv; subst hkv; exact ⟨hk, hj⟩⟩

omit hfl in
theorem jObjB' {kvs} (h : L.D d kvs) : L.JB d (.obj kvs) := L.jObjB h.1 h.2

omit hfl in
theorem jObjD' {kvs} (h : L.E d kvs) : L.JD d (.obj kvs) := L.jObjD h.1 h.2

theorem clone {v : Val} (hv : L.R v) : L.T d (flattenClone w cfg fl v) (flattenClone w cfg fl' v) (L.JD d) := by
  have hd : L.E d (if cfg.unpicklable then [(Tags.OBJECT, Json.str CLONE)] else []) := by
    split
    · next h => exact L.E_single (L.kObject h) (L.jStr L.sClone)
    · exact L.E_nil
  have e : ∀ (g : Val → P Json) (data : List (Str × Json)), flattenEntries w cfg g [(.str p!"exemplar", v)] [] data =
      (if isPicklable (.str p!"exemplar") v then g v >>= fun j => Pure.pure (dset p!"exemplar" j data) else Pure.pure data) := by
    intro g data
    unfold flattenEntries
    have e1 : itemsExcl [] [(Val.str p!"exemplar", v)] = [(Val.str p!"exemplar", v)] := rfl
    rw [e1]
    simp only
    split
    · next hk =>
      have h2 : ∀ d', PyM.foldM (fun d (kv : Val × Val) => flattenNonString w cfg g kv.1 kv.2 d) d' [(Val.str p!"exemplar", v)] = (Pure.pure d' : P _) := by
        intro d'
        rw [foldM_cons]
        simp only [flattenNonString]
        split <;> rfl
      have h1 : flattenString w cfg g (.str p!"exemplar") v data =
          (if isPicklable (.str p!"exemplar") v then g v >>= fun j => Pure.pure (dset p!"exemplar" j data) else Pure.pure data) := by
        have : needsEscape p!"exemplar" = false := by decide
        simp only [flattenString, this, Bool.false_and, Bool.false_eq_true, if_false, flattenStringTail, hk, if_true]
      funext s
      rw [bind_run, foldM_cons]
      simp only [h1]
      cases isPicklable (.str p!"exemplar") v with
      | false => simp [bind_run, h2]
      | true =>
        cases hg : g v s with
        | none => simp [bind_run, hg]
        | some p =>
          obtain ⟨r, s1⟩ := p
          cases r with
          | error e => simp [bind_run, hg]
          | ok j => simp [bind_run, hg, h2]
    · funext s
      simp only [foldM_cons, foldM_nil, flattenKeyValuePair, reprKey]
      cases isPicklable (.str p!"exemplar") v with
      | false => simp [bind_run]
      | true =>
        cases hg : g v s with
        | none => simp [bind_run, hg]
        | some p =>
          obtain ⟨r, s1⟩ := p
          cases r with
          | error e => simp [bind_run, hg]
          | ok j => simp [bind_run, hg]
  unfold flattenClone
  simp only [e]
  refine L.bind (Q := L.E d) ?_ (fun b hb => L.pure (L.jObjD' hb))
  split
  · exact L.bind (hfl d v hv) (fun j hj => L.pure (L.E_dset hd (L.kName _ (by simp)) hj))
  · exact L.pure hd

omit hfl in
theorem kOf {s : Str} (hs : L.S s) (h : Tags.isReserved s = false) : L.K s := L.kUser hs h

omit hfl in
theorem typeref {n : Str} (hn : L.S n) : L.JD d (mktyperef n) :=
  L.jObjD' (L.E_single L.kType (L.jStr hn))

omit hfl in
theorem typerefB {n : Str} (hn : L.S n) : L.JB d (mktyperef n) :=
  L.jObjB' (L.D_single L.kType (L.jCD (L.jStr hn)))

omit hfl in
theorem user {α : Type} {e : Option Exc} {v : α} {Q : α → Prop} (h : Q v) : L.T d (PyM.ofExcept (outcome e v)) (PyM.ofExcept (outcome e v)) Q :=
  L.ofExcept (fun a ha => by
    cases e with
    | none => cases ha; exact h
    | some e => cases ha)

theorem factory {f : Val} {e : Except Exc Val} (hf : L.R f) (he : ∀ x, e = .ok x → L.R x) (ho : d.Owns w f.ident) : L.T d (flattenFactory w cfg fl f e) (flattenFactory w cfg fl' f e) (L.JD d) := by
  unfold flattenFactory
  split
  · exact L.pure (L.typeref (L.sType (L.rv hf)))
  · exact L.refOr' ho (L.bind (L.ofExcept (Q := L.R) he) (fun x hx => L.clone hfl hx)) (fun j hj => hj.2)

theorem default {f : Option Val} {e : Except Exc Val} {data} (hf : ∀ g, f = some g → L.R g) (he : ∀ x, e = .ok x → L.R x) (ho : ∀ g, f = some g → d.Owns w g.ident) (hd : L.D d data) :
    L.T d (flattenDefault w cfg fl f e data) (flattenDefault w cfg fl' f e data) (L.D d) := by
  unfold flattenDefault
  split
  · exact L.pure hd
  · refine L.bind (L.factory hfl (hf _ rfl) he (ho _ rfl)) (fun j hj => L.pure (L.D_dset hd ?_ hj))
    split
    · exact L.kDefault
    · exact L.kName _ (by simp)

theorem ownDict {a i excl data} (hv : L.VItems (dictItems w i)) (ho : d.Owns w (dictIdent a i)) (hd : L.D d data) :
    L.T d (flattenOwnDict w cfg fl a i excl data) (flattenOwnDict w cfg fl' a i excl data) (L.D d) := by
  have hk : L.K p!"__dict__" := L.kName _ (by simp)
  unfold flattenOwnDict
  split
  · exact L.refOr ho (L.bind (L.entries hfl (L.accE) hv L.E_nil) (fun dd hdd => L.pure (L.D_dset hd hk (L.jObjD' hdd))))
      (fun r hr => L.pure (L.D_dset hd hk hr.2))
  · exact L.pure hd

/-- everything the instance refers to is considered -/
def VInst (i : Inst) : Prop := ∀ x, Holds w.heap i x → L.R x

omit hfl in
theorem VInst.dict {L : Logic w cfg} {i : Inst} (h : L.VInst i) : L.VItems (dictItems w i) := by
  intro k v hm
  unfold dictItems at hm
  split at hm
  · simp only [asItems, List.mem_map] at hm
    obtain ⟨kv, hkv, e⟩ := hm
    injection e with e1 e2
    subst e1 e2
    exact ⟨h _ (.attrName hkv), h _ (.attr hkv)⟩
  · next d hd =>
    split at hm
    · next kvs hk => exact ⟨h _ (.dictKey hd hk hm), h _ (.dictVal hd hk hm)⟩
    · cases hm

omit hfl in
theorem VInst.items {L : Logic w cfg} {i : Inst} (h : L.VInst i) : L.VItems i.items :=
  fun _ _ hm => ⟨h _ (.itemKey hm), h _ (.itemVal hm)⟩

theorem dictSub {a i data c} (hi : L.VInst i) (hs : d.stack = .ref a :: c) (ha : w.heap[a]? = some (.inst i)) (hd : L.D d data) :
    L.T d (flattenDictSub w cfg fl a i data) (flattenDictSub w cfg fl' a i data) (L.D d) := by
  unfold flattenDictSub
  exact L.bind (L.entries hfl (L.accD) hi.items hd) (fun d1 h1 => L.bind
    (L.default hfl (fun g hg => hi _ (.factory hg)) (fun x hx => by
        cases he : i.errs.factory with
        | none => rw [he] at hx; cases hx; exact hi _ .exemplar
        | some e => rw [he] at hx; cases hx) (fun g hg => ⟨_, _, hs, .inr ⟨a, i, rfl, ha, .inr (.inr ⟨g, hg, rfl⟩)⟩⟩) h1)
    (fun d2 h2 => L.ownDict hfl hi.dict ⟨_, _, hs, .inr ⟨a, i, rfl, ha, .inr (.inl rfl)⟩⟩ h2))

theorem objAttrs (hc : Catches w L.V) {i lookup names data} (hn : ∀ k ∈ names, L.R (.str k)) (hv : ∀ k v, (k, v) ∈ lookup → L.R v)
    (hd : L.D d data) :
    L.T d (flattenObjAttrs w fl i lookup names data) (flattenObjAttrs w fl' i lookup names data)
      (fun r => L.D d r.2) := by
  unfold flattenObjAttrs
  refine L.foldM (Q := fun (r : Bool × List (Str × Json)) => L.D d r.2) _ _ hd (fun acc hacc k hk => ?_)
  simp only
  split
  · exact L.pure hacc
  · refine L.tryCatch hc ?_ (fun e => L.pure hacc)
    refine L.bind (L.ofExcept (Q := L.R) (fun v e => ?_)) (fun v hvv => ?_)
    · split at e
      · next hg => cases e; exact hv _ _ (dget_mem hg)
      · cases e
    · exact L.bind (L.keyValuePair hfl (L.accD) (hn k hk) hvv hacc) (fun r hr => L.pure hr)

theorem slots (hc : Catches w L.V) {i data} (hi : L.VInst i) (hd : L.D d data) :
    L.T d (flattenSlots w fl i data) (flattenSlots w fl' i data) (L.JB d) := by
  unfold flattenSlots
  refine L.bind (L.objAttrs hfl hc (fun k hk => hi _ (.slotName hk)) (fun k v hm => hi _ (.attr hm)) hd) (fun r hr => ?_)
  split
  · exact L.pure (L.jObjB' hr)
  · refine L.bind (L.objAttrs hfl hc (fun k hk => ?_) (fun k v hm => hi _ (.dirAttr hm)) hr) (fun r hr => L.pure (L.jObjB' hr))
    obtain ⟨kv, hkv, rfl⟩ := List.mem_map.1 hk
    exact hi _ (.dirName hkv)

theorem sequence {i data} (hi : L.VInst i) (hd : L.D d data) :
    L.T d (flattenSequence w cfg fl i data) (flattenSequence w cfg fl' i data) (L.JB d) := by
  unfold flattenSequence
  have h1 : L.T d (flattenSeqAttrs w cfg fl i data) (flattenSeqAttrs w cfg fl' i data) (L.D d) := by
    unfold flattenSeqAttrs
    split
    · exact L.entries hfl (L.accD) hi.dict hd
    · exact L.pure hd
  refine L.bind h1 (fun data hd => L.bind (L.mapM _ (fun x hx => hfl d x (hi _ (.elem hx)))) (fun js hjs => ?_))
  split
  · next h => exact L.pure (L.jObjB' (L.D_dset hd (L.kSeq h) (L.jArrD hjs)))
  · exact L.pure (L.jArrB hjs)

theorem filteredState {a kvs excl} {i : Inst} (ha : L.V (.ref a)) (hi : w.heap[a]? = some (.inst i)) (hv : L.VItems kvs) :
    L.T d (flattenFilteredState w cfg fl a kvs excl) (flattenFilteredState w cfg fl' a kvs excl) (L.JC d) := by
  unfold flattenFilteredState
  refine L.level ⟨ha, nofun, nofun⟩ (fun h => by cases h) (fun s hs => L.sRepr ha hs) (.inr ⟨a, i, rfl, hi, .inl rfl⟩) ?_
  exact L.refOr' ⟨_, _, rfl, .inr ⟨a, i, rfl, hi, .inl rfl⟩⟩
    (L.bind (L.entries hfl (L.accD) (fun k v hm => hv k v (List.mem_filter.1 hm).1) L.D_nil) (fun dd hdd => L.pure (L.jObjB' hdd)))
    (fun j hj => hj.1)

theorem rest {a i data c} (hv : L.V (.ref a)) (hi : L.VInst i) (hs : d.stack = .ref a :: c) (ha : w.heap[a]? = some (.inst i)) (hd : L.D d data) :
    L.T d (flattenRest w cfg fl a i data) (flattenRest w cfg fl' a i data) (L.JB d) := by
  unfold flattenRest
  split
  · exact L.bind (L.dictSub hfl hi hs ha hd) (fun d1 h1 => L.pure (L.jObjB' h1))
  · exact L.sequence hfl hi hd
  · exact L.sequence hfl hi hd
  · exact L.sequence hfl hi hd
  · next hb =>
    split
    · refine L.bind (L.mapM _ (fun x hx => hfl d x (hi _ (.elem ?_)))) (fun js hjs => L.bind (L.user (Q := fun _ => True) trivial) (fun _ _ => L.pure (L.jObjB' ?_)))
      · unfold iterated at hx
        split at hx
        · exact hx
        · exact List.mem_of_mem_take hx
      exact L.D_dset hd L.kIterator (L.jArrD hjs)
    · next hit =>
      split
      · exact L.bind (L.entries hfl (L.accD) hi.dict hd) (fun d1 h1 => L.pure (L.jObjB' h1))
      · next hdict =>
        split
        · next hsl =>
          exact L.slots hfl ⟨a, i, hv, ha, .inl ⟨hb, by simpa using hit, by simpa using hdict, hsl⟩⟩ hi hd
        · split
          · exact L.pure (L.jObjB' hd)
          · split
            · exact L.pure (L.jCB L.jNull)
            · split
              · next xs hxs =>
                have hx : ∀ k, L.R (xs.getD k .none) := by
                  intro k
                  have hr : i.reduce = .tup xs := by
                    split at hxs
                    · exact hxs
                    · cases hxs
                  rw [List.getD_eq_getElem?_getD]
                  cases hk : xs[k]? with
                  | none => exact L.vNone
                  | some x => exact hi _ (.reduceElem hr (List.mem_of_getElem? hk))
                split
                · exact L.conseq (hfl d _ (hx 2)) (fun j hj => L.jCB hj)
                · split
                  · exact L.conseq (hfl d _ (hx 1)) (fun j hj => L.jCB hj)
                  · exact L.pure (L.jCB L.jNull)
              · split
                · exact L.pure (L.jCB L.jNull)
                · exact L.throw
              · exact L.pure (L.jCB L.jNull)

omit hfl in
theorem putState {j data} (hd : L.D d data) (hj : L.JC d j) : L.JB d (putState cfg j data) := by
  unfold Pickler.putState
  split
  · next h => exact L.jObjB' (L.D_dset hd (L.kState h) (L.jCD hj))
  · exact L.jCB hj

theorem getstate {a i data c} (hv : L.V (.ref a)) (hi : L.VInst i) (hs : d.stack = .ref a :: c) (ha : w.heap[a]? = some (.inst i)) (hd : L.D d data) :
    L.T d (flattenGetstate w cfg fl a i data) (flattenGetstate w cfg fl' a i data) (L.JB d) := by
  unfold flattenGetstate
  split
  · split
    · split
      · exact L.pure (L.jCB L.jNull)
      · exact L.throw
    · next st hst =>
      split
      · next kvs hk =>
        split
        · exact L.rest hfl hv hi hs ha hd
        · refine L.bind (L.filteredState hfl hv ha (kvs := kvs) ?_) (fun j hj => L.pure (L.putState hd hj))
          cases st <;> simp only [reduceCtorEq] at hk
          next dd =>
          split at hk
          · next kvs' hd' =>
            split at hk
            · cases hk
            · cases hk
              exact fun k v hm => ⟨hi _ (.stateKey hst hd' hm), hi _ (.stateVal hst hd' hm)⟩
          · cases hk
      · split
        · exact L.bind (hfl d _ (hi _ (.state hst))) (fun j hj => L.pure (L.putState hd hj))
        · exact L.rest hfl hv hi hs ha hd
  · exact L.rest hfl hv hi hs ha hd

omit hfl in
theorem objTag {i} (hc : L.S i.cls) : L.D d (objTag cfg i) := by
  unfold Pickler.objTag
  split
  · next h => exact L.D_single (L.kObject h) (L.jCD (L.jStr hc))
  · exact L.D_nil

theorem body {a i c} (hv : L.V (.ref a)) (hi : L.VInst i) (hs : d.stack = .ref a :: c) (ha : w.heap[a]? = some (.inst i)) :
    L.T d (flattenBody w cfg fl a i) (flattenBody w cfg fl' a i) (L.JB d) := by
  unfold flattenBody
  have hot : L.D d (Pickler.objTag cfg i) := L.objTag (L.sClass hv ha)
  have h1 : L.T d (flattenNewargs fl i (Pickler.objTag cfg i)) (flattenNewargs fl' i (Pickler.objTag cfg i)) (L.D d) := by
    unfold flattenNewargs
    split
    · refine L.bind (L.user (Q := fun v => L.R v.1 ∧ L.R v.2) ⟨hi _ .newargsEx1, hi _ .newargsEx2⟩) (fun v hv => L.bind (hfl d _ hv.1) (fun x hx => L.bind (hfl d _ hv.2) (fun y hy => L.pure ?_)))
      refine L.D_dset hot L.kNewargsex (L.jArrD ?_)
      intro j hj
      simp only [List.mem_cons, List.not_mem_nil, or_false] at hj
      rcases hj with e | e <;> subst e <;> assumption
    · split
      · exact L.bind (L.user (Q := L.R) (hi _ .newargs)) (fun v hv => L.bind (hfl d _ hv) (fun x hx => L.pure (L.D_dset hot L.kNewargs (L.jCD hx))))
      · exact L.pure hot
  refine L.bind h1 (fun data hd => ?_)
  have h2 : L.T d (flattenInitargs fl i data) (flattenInitargs fl' i data) (L.D d) := by
    unfold flattenInitargs
    split
    · exact L.bind (L.user (Q := L.R) (hi _ .initargs)) (fun v hv => L.bind (hfl d _ hv) (fun x hx => L.pure (L.D_dset hd L.kInitargs (L.jCD hx))))
    · exact L.pure hd
  exact L.bind h2 (fun data hd => L.getstate hfl hv hi hs ha hd)

omit hfl in
theorem mem_trim {js : List Json} {j : Json} (h : j ∈ trimReduce js) : j ∈ js := by
  unfold trimReduce at h
  rcases List.mem_append.mp h with h | h
  · exact List.mem_of_mem_take h
  · have := List.mem_reverse.mp h
    have := (List.dropWhile_sublist _).subset this
    exact List.mem_of_mem_drop (List.mem_reverse.mp this)

omit hfl in
theorem VInst.reduceArgs {L : Logic w cfg} {i : Inst} (h : L.VInst i) {xs : List Val} (hx : i.reduce = .tup xs) :
    ∀ x ∈ newobjMark (padReduce xs), L.R x := by
  have hp : ∀ x ∈ padReduce xs, L.R x := by
    intro x hm
    rcases List.mem_append.1 hm with hm | hm
    · exact h _ (.reduceElem hx hm)
    · rw [List.eq_of_mem_replicate hm]; exact L.vNone
  intro x hm
  unfold newobjMark at hm
  split at hm
  · next n r e =>
    rcases List.mem_cons.1 hm with e' | hm
    · subst e'
      split
      · exact L.vNewobj
      · exact hp _ (by rw [e]; simp)
    · exact hp _ (by rw [e]; simp [hm])
  · next n r e =>
    rcases List.mem_cons.1 hm with e' | hm
    · subst e'
      split
      · exact L.vNewobj
      · exact hp _ (by rw [e]; simp)
    · exact hp _ (by rw [e]; simp [hm])
  · exact hp x hm

theorem reduce {a i c} (hv : L.V (.ref a)) (hi : L.VInst i) (hs : d.stack = .ref a :: c) (ha : w.heap[a]? = some (.inst i)) :
    L.T d (flattenReduce w cfg fl a i) (flattenReduce w cfg fl' a i) (L.JB d) := by
  unfold flattenReduce
  split
  · exact L.body hfl hv hi hs ha
  · split
    · exact L.body hfl hv hi hs ha
    · exact L.throw
  · exact L.body hfl hv hi hs ha
  · next v hvv =>
    have hr : i.info.reduces = true ∧ i.reduce = .str (some v) := by
      split at hvv
      · next h =>
        simp only [Bool.and_eq_true] at h
        exact ⟨h.2, hvv⟩
      · cases hvv
    exact L.tryCatch ⟨a, i, hv, ha, .inr ⟨hr.1, v, hr.2⟩⟩ (L.conseq (hfl d v (hi _ (.reduceTarget hr.2))) (fun j hj => L.jCB hj)) (fun e => L.body hfl hv hi hs ha)
  · next xs hxs =>
    have hu : cfg.unpicklable = true ∧ i.reduce = .tup xs := by
      split at hxs
      · next h => simp only [Bool.and_eq_true] at h; exact ⟨h.1, hxs⟩
      · cases hxs
    split
    · exact L.body hfl hv hi hs ha
    · split
      · exact L.bind (L.mapM _ (fun x hx => hfl d x (hi.reduceArgs hu.2 x hx)))
          (fun js hjs => L.pure (L.jObjB' (L.D_single (L.kReduce hu.1) (L.jArrD (fun j hj => hjs j (mem_trim hj))))))
      · exact L.body hfl hv hi hs ha

theorem date {a i} (hv : L.V (.ref a)) (hi : L.VInst i) (hh : w.handler i.cls = some .datetime) (hot : L.D d (Pickler.objTag cfg i)) :
    L.T d (flattenDate w cfg fl a i) (flattenDate w cfg fl' a i) (L.JB d) := by
  unfold flattenDate
  split
  · refine L.bind (L.mapM (Q := L.JC d) _ (fun x hx => ?_)) (fun js hjs => L.bind (L.user (Q := fun _ => True) trivial) (fun _ _ => L.pure ?_))
    · obtain ⟨kv, hkv, rfl⟩ := List.mem_map.1 hx
      exact hfl d _ (hi _ (.hfield (k := kv.1) (List.mem_of_mem_tail hkv)))
    · refine L.jDate hh (dateText_ascii _) hot.1 hot.2 ?_ (fun j hj => hjs j (List.dropLast_subset _ hj))
      rw [List.getLastD_eq_getLast?]
      cases hl : js.getLast? with
      | none => exact L.jNull
      | some j => exact hjs j (List.mem_of_getLast? hl)
  · exact L.bind (L.ofExcept (Q := L.S) (fun s h => L.sPystr hv h)) (fun s hs => L.bind (L.user (Q := fun _ => True) trivial) (fun _ _ => L.pure (L.jCB (L.jStr hs))))

theorem inst {a i c} (hv : L.V (.ref a)) (hi : L.VInst i) (hs : d.stack = .ref a :: c) (ha : w.heap[a]? = some (.inst i)) :
    L.T d (flattenInst w cfg fl a i) (flattenInst w cfg fl' a i) (L.JB d) := by
  unfold flattenInst
  have hot : L.D d (Pickler.objTag cfg i) := L.objTag (L.sClass hv ha)
  split
  · refine L.bind (L.foldM (Q := L.D d) _ _ hot (fun b hb kv hkv => ?_)) (fun b hb => L.bind (L.user (Q := fun _ => True) trivial) (fun _ _ => L.pure (L.jObjB' hb)))
    exact L.bind (hfl d _ (hi _ (.hfield hkv))) (fun j hj => L.pure (L.D_dset hb (L.kField hv ha hkv) (L.jCD hj)))
  · next hh => exact L.date hfl hv hi hh hot
  · exact L.bind (L.user (Q := fun _ => True) trivial) (fun _ _ => L.pure (L.jObjB' hot))
  · exact L.bind (L.user (Q := fun _ => True) trivial) (fun _ _ => L.pure (L.jCB L.jNull))
  · exact L.reduce hfl hv hi hs ha

omit hfl in
theorem modl {n} (hv : L.V (.module n)) : L.T d (flattenModule w cfg n) (flattenModule w cfg n) (L.JB d) := by
  unfold flattenModule
  split
  · next h => exact L.pure (L.jObjB' (L.D_single (L.kModule h) (L.jCD (L.jStr (L.sModule hv)))))
  · exact L.bind (L.ofExcept (Q := L.S) (fun s hs => L.sPystr hv hs)) (fun s hs => L.pure (L.jCB (L.jStr hs)))

omit hfl in
theorem refInst {id e} {b b' : P Json} (ho : d.Owns w id) (hb : L.T d b b' (L.JB d)) :
    L.T d (refObjInstance cfg id e b) (refObjInstance cfg id e b') (L.JB d) := by
  unfold refObjInstance
  split
  · exact L.refOr' ho hb (fun j hj => hj.1)
  · refine L.bind L.maxReached (fun m _ => L.bind L.inCycle (fun c _ => ?_))
    split
    · exact L.pure (L.jCB L.jNull)
    · exact L.bind (L.mkref ho) (fun _ _ => hb)

omit hfl in
theorem single {k : Str} {j : Json} (hk : L.K k) (hj : L.JD d j) : L.JB d (.obj [(k, j)]) := L.jObjB' (L.D_single hk hj)

/-- the values considered are closed under what they refer to -/
def VPart (v : Val) : Prop := ∀ x, Touches w.heap v x → L.R x

theorem by_ {v : Val} {c : List Val} (hv : L.V v) (hp : L.VPart v) (hs : d.stack = v :: c) :
    L.T d (flattenBy w cfg fl v) (flattenBy w cfg fl' v) (L.JB d) := by
  unfold flattenBy
  split
  · split
    · next xs ha =>
      exact L.refOr' ⟨_, _, hs, .inl rfl⟩
        (L.bind (L.mapM _ (fun x hx => hfl d x (hp _ (.list ha hx)))) (fun js hjs => L.pure (L.jArrB hjs))) (fun j hj => hj.1)
    · next kvs ha =>
      exact L.refOr' ⟨_, _, hs, .inl rfl⟩
        (L.bind (L.entries hfl (L.accD) (fun k v hm => ⟨hp _ (.dictKey ha hm), hp _ (.dictVal ha hm)⟩) L.D_nil)
          (fun dd hdd => L.pure (L.jObjB' hdd))) (fun j hj => hj.1)
    · next i ha => exact L.refInst ⟨_, _, hs, .inl rfl⟩ (L.inst hfl hv (fun x hx => hp _ (.inst ha hx)) hs ha)
    · exact L.throw
  · refine L.bind (L.mapM _ (fun x hx => hfl d x (hp _ (.tuple hx)))) (fun js hjs => L.pure ?_)
    split
    · next h => exact L.single (L.kTuple h) (L.jArrD hjs)
    · exact L.jArrB hjs
  · refine L.bind (L.mapM _ (fun x hx => hfl d x (hp _ (.set hx)))) (fun js hjs => L.pure ?_)
    split
    · next h => exact L.single (L.kSet h) (L.jArrD hjs)
    · exact L.jArrB hjs
  · refine L.pure ?_
    split
    · next h => exact L.single (L.kFunction h) (L.jCD (L.jStr (L.sFunc hv)))
    · exact L.jCB L.jNull
  · exact L.pure (L.typerefB (L.sType hv))
  · exact L.refInst ⟨_, _, hs, .inl rfl⟩ (L.modl hv)
  · exact L.pure (L.jCB L.jNull)
  · exact L.throw

theorem step {v : Val} (hv : L.V v) (hp : L.VPart v) : L.T d (flattenStep w cfg fl v) (flattenStep w cfg fl' v) (L.JC d) := by
  have hrep : ∀ s, w.repr v = .ok s → L.S s := fun s hs => L.sRepr hv hs
  cases v with
  | none => exact L.pure L.jNull
  | bool b => exact L.pure L.jBool
  | int b => exact L.pure L.jInt
  | float b => exact L.pure (L.jFloat hv)
  | str b => exact L.pure (L.jStr (L.sVal hv))
  | bytes i b => exact L.leafBytes
  | bytearray i b => exact L.leafBytearray
  | tuple i xs => exact L.level ⟨hv, nofun, nofun⟩ (hasEnum_of hv) hrep (.inl rfl) (L.by_ hfl hv hp rfl)
  | set i xs => exact L.level ⟨hv, nofun, nofun⟩ (hasEnum_of hv) hrep (.inl rfl) (L.by_ hfl hv hp rfl)
  | type n => exact L.level ⟨hv, nofun, nofun⟩ (hasEnum_of hv) hrep (.inl rfl) (L.by_ hfl hv hp rfl)
  | func n => exact L.level ⟨hv, nofun, nofun⟩ (hasEnum_of hv) hrep (.inl rfl) (L.by_ hfl hv hp rfl)
  | lambda n => exact L.level ⟨hv, nofun, nofun⟩ (hasEnum_of hv) hrep (.inl rfl) (L.by_ hfl hv hp rfl)
  | module n => exact L.level ⟨hv, nofun, nofun⟩ (hasEnum_of hv) hrep (.inl rfl) (L.by_ hfl hv hp rfl)
  | ref n => exact L.level ⟨hv, nofun, nofun⟩ (hasEnum_of hv) hrep (.inl rfl) (L.by_ hfl hv hp rfl)
omit hfl

/-- **The traversal theorem.**  If running out of fuel satisfies the judgement, so does the encoder. -/
theorem flatten (hcl : ∀ v, L.V v → L.VPart v)
    (h0 : ∀ d v, L.V v → L.T d (Pickler.flatten w cfg 0 v) (Pickler.flatten w cfg 0 v) (L.JC d)) :
    ∀ n d v, L.V v → L.T d (Pickler.flatten w cfg n v) (Pickler.flatten w cfg n v) (L.JC d)
  | 0, d, v, hv => h0 d v hv
  | n + 1, _, v, hv => L.step (fun d v hv => flatten hcl h0 n d v (L.rv hv)) hv (hcl v hv)

/-- The same with different amounts of fuel on the two sides. -/
theorem flatten_add (hcl : ∀ v, L.V v → L.VPart v) (k : Nat)
    (h0 : ∀ d v, L.V v → L.T d (Pickler.flatten w cfg 0 v) (Pickler.flatten w cfg k v) (L.JC d)) :
    ∀ n d v, L.V v → L.T d (Pickler.flatten w cfg n v) (Pickler.flatten w cfg (n + k) v) (L.JC d)
  | 0, d, v, hv => by rw [Nat.zero_add]; exact h0 d v hv
  | n + 1, d, v, hv => by
    rw [Nat.succ_add]
    exact L.step (fun d v hv => flatten_add hcl k h0 n d v (L.rv hv)) hv (hcl v hv)

end Logic
end JP.Pickler
