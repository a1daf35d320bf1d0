import Verif.Proofs.SimInst
/-!
# The round trip of objects with a reduce value
-/
namespace JP.Sim
open JP PyM Unpickler

variable {w : World} {cfg : PCfg} {env : UEnv}
variable {Bad : Ctx}
variable {fl : Val → P Json} {rs rs2 : Json → U Val}
variable {a : Addr} {i : Inst} {s : PState} {u : UState}

theorem dropWhile_null (l : List Json) : ∃ k, l = List.replicate k .null ++ l.dropWhile Pickler.isNullJ := by
  induction l with
  | nil => exact ⟨0, rfl⟩
  | cons j l ih =>
    by_cases hj : j = .null
    · subst hj
      obtain ⟨k, hk⟩ := ih
      refine ⟨k + 1, ?_⟩
      rw [List.dropWhile_cons_of_pos rfl, List.replicate_succ, List.cons_append, ← hk]
    · refine ⟨0, ?_⟩
      have : Pickler.isNullJ j = false := by cases j <;> first | rfl | exact absurd rfl hj
      rw [List.dropWhile_cons_of_neg (by simp [this])]
      rfl

/-- only trailing nulls are dropped -/
theorem trim_split (js : List Json) : ∃ k, js = Pickler.trimReduce js ++ List.replicate k .null := by
  obtain ⟨k, hk⟩ := dropWhile_null (js.drop 2).reverse
  refine ⟨k, ?_⟩
  have h := congrArg List.reverse hk
  rw [List.reverse_reverse, List.reverse_append, List.reverse_replicate] at h
  unfold Pickler.trimReduce
  rw [List.append_assoc, ← h, List.take_append_drop]

theorem mapM_append_ok {σ α β : Type} {f : α → PyM σ β} : ∀ {xs ys : List α} {s s2 : σ} {l : List β}, mapM f (xs ++ ys) s = some (.ok l, s2) →
    ∃ a b s1, l = a ++ b ∧ a.length = xs.length ∧ mapM f xs s = some (.ok a, s1) ∧ mapM f ys s1 = some (.ok b, s2)
  | [], ys, s, s2, l, h => ⟨[], l, s, rfl, rfl, rfl, h⟩
  | x :: xs, ys, s, s2, l, h => by
    rw [List.cons_append, mapM_cons, bind_eq_ok] at h
    obtain ⟨y, s1, h1, h⟩ := h
    rw [bind_eq_ok] at h
    obtain ⟨l', s3, h2, h⟩ := h
    simp only [pure_run] at h
    cases h
    obtain ⟨a, b, s4, e1, e2, e3, e4⟩ := mapM_append_ok h2
    subst e1
    refine ⟨y :: a, b, s4, rfl, by simp [e2], ?_, e4⟩
    rw [mapM_cons, bind_ok h1, bind_ok e3]
    rfl

theorem mapM_nulls {rs : Json → U Val} (h : ∀ u, rs .null u = some (.ok .none, u)) : ∀ (k : Nat) (u u' : UState) (l : List Val),
    mapM rs (List.replicate k .null) u = some (.ok l, u') → l = List.replicate k .none ∧ u' = u
  | 0, u, u', l, hr => by
    simp only [List.replicate_zero, mapM_nil, pure_run] at hr
    cases hr
    exact ⟨rfl, rfl⟩
  | k + 1, u, u', l, hr => by
    rw [List.replicate_succ, mapM_cons, bind_ok (h u), bind_eq_ok] at hr
    obtain ⟨l', u1, h1, hr⟩ := hr
    simp only [pure_run] at hr
    cases hr
    obtain ⟨e1, e2⟩ := mapM_nulls h k u u' l' h1
    exact ⟨by rw [e1]; rfl, e2⟩

/-- Restoring the trimmed list and padding it again gives what restoring all six entries gives. -/
theorem trim_run (hn : ∀ u, rs .null u = some (.ok .none, u)) {js : List Json} {ys : List Val} {u u' : UState}
    (hl : js.length = 6) (h : mapM rs js u = some (.ok ys, u')) :
    ∃ zs, mapM rs (Pickler.trimReduce js) u = some (.ok zs, u') ∧ padVals zs = ys := by
  obtain ⟨k, hk⟩ := trim_split js
  have hlen : (Pickler.trimReduce js).length + k = 6 := by
    have := congrArg List.length hk
    rw [List.length_append, List.length_replicate] at this
    omega
  rw [hk] at h
  obtain ⟨zs, b, u1, e1, e2, e3, e4⟩ := mapM_append_ok h
  obtain ⟨e5, e6⟩ := mapM_nulls hn _ _ _ _ e4
  subst e6
  refine ⟨zs, e3, ?_⟩
  rw [e1, e5, padVals, e2]
  congr 2
  omega

theorem viso_func {R : Addr → Addr → Prop} {n : Str} {y : Val} (h : VIso R (.func n) y) : y = .func n := by
  cases y <;> simp only [VIso] at h
  rw [h]

theorem viso_type {R : Addr → Addr → Prop} {n : Str} {y : Val} (h : VIso R (.type n) y) : y = .type n := by
  cases y <;> simp only [VIso] at h
  rw [h]

theorem viso_tuple {R : Addr → Addr → Prop} {l : Nat} {xs : List Val} {y : Val} (h : VIso R (.tuple l xs) y) : ∃ l' ys, y = .tuple l' ys ∧ VIsos R xs ys := by
  cases y with
  | tuple l' ys => exact ⟨l', ys, rfl, by simpa only [VIso] using h⟩
  | _ => simp only [VIso] at h

theorem visos_cons {R : Addr → Addr → Prop} {x : Val} {xs ys : List Val} (h : VIsos R (x :: xs) ys) : ∃ y l, ys = y :: l ∧ VIso R x y ∧ VIsos R xs l := by
  cases ys with
  | nil => simp [VIsos] at h
  | cons y l => exact ⟨y, l, rfl, by simpa only [VIsos] using h⟩

theorem pad_six {f args : Val} {rest : List Val} (h : rest.length ≤ 4) :
    ∃ c d e g, rest ++ List.replicate (6 - (f :: args :: rest).length) .none = [c, d, e, g] ∧
      ∀ x ∈ [c, d, e, g], x ∈ rest ∨ x = .none := by
  match rest, h with
  | [], _ => exact ⟨_, _, _, _, rfl, by simp⟩
  | [c], _ => exact ⟨_, _, _, _, rfl, by simp⟩
  | [c, d], _ => exact ⟨_, _, _, _, rfl, by simp +contextual⟩
  | [c, d, e], _ => exact ⟨_, _, _, _, rfl, by simp +contextual⟩
  | [c, d, e, g], _ => exact ⟨_, _, _, _, rfl, by simp +contextual⟩
  | _ :: _ :: _ :: _ :: _ :: _, h => simp at h

theorem Reach.trans {h : Heap} {v : Val} {b c : Addr} (h1 : Reach h v b) (h2 : Reach h (.ref b) c) : Reach h v c := by
  induction h1 with
  | self => exact h2
  | cell q1 q2 _ ih => exact .cell q1 q2 (ih h2)
  | tuple q _ ih => exact .tuple q (ih h2)
  | set q _ ih => exact .set q (ih h2)

/-- truth values agree for objects that are complete -/
theorem Rel.truthy {P : List Ident} {B : Ctx} {v x : Val} (r : Rel w.heap B P u) (h : VIso (Rof B P u.objs) v x)
    (hc : ∀ d, v = .ref d → d ∉ B.opn) (hs : NoSub w.heap v) : truthy u.heap x = truthy w.heap v := by
  cases v with
  | ref d =>
    cases x <;> simp only [VIso] at h
    rename_i b
    obtain ⟨o, o', h1, h2, h3⟩ := r.kind h
    obtain ⟨hb, k, k1, k2⟩ := h
    have hf := r.filled k d b k1 k2 hb (hc d rfl)
    simp only [JP.truthy, h1, h2]
    cases o with
    | list xs =>
      obtain ⟨ys, e1, e2⟩ := hf.1 xs h1
      rw [h2] at e1
      cases e1
      cases xs <;> cases ys <;> simp_all [VIsos]
    | dict kvs =>
      obtain ⟨keys, kvs', e1, e2⟩ := hf.2 kvs h1
      rw [h2] at e1
      cases e1
      have hl := All2.length e2
      have hl2 : (writeOrder keys kvs).length = kvs.length := by
        unfold writeOrder
        split
        · exact (List.filter_append_perm _ _).length_eq
        · rfl
      cases kvs <;> cases kvs' <;> simp_all
    | inst i =>
      cases o' <;> simp only [SameKind] at h3
      have := hs d i rfl h1
      simp only [this, h3]
    | proxy _ => cases o' <;> simp only [SameKind] at h3
    | idproxy _ => cases o' <;> simp only [SameKind] at h3
  | tuple l xs =>
    cases x <;> simp only [VIso] at h
    rename_i l' ys
    simp only [JP.truthy]
    cases xs <;> cases ys <;> simp_all [VIsos]
  | set l xs =>
    cases x <;> simp only [VIso] at h
    rename_i l' ys
    simp only [JP.truthy]
    cases xs <;> cases ys <;> simp_all [VIsos]
  | none => cases x <;> simp only [VIso] at h; rfl
  | bool _ => cases x <;> simp only [VIso] at h; subst h; rfl
  | int _ => cases x <;> simp only [VIso] at h; subst h; rfl
  | float _ => cases x <;> simp only [VIso] at h; subst h; rfl
  | str _ => cases x <;> simp only [VIso] at h; subst h; rfl
  | bytes _ _ => cases x <;> simp only [VIso] at h; subst h; rfl
  | bytearray _ _ => cases x <;> simp only [VIso] at h; subst h; rfl
  | type _ => cases x <;> simp only [VIso] at h; rfl
  | func _ => cases x <;> simp only [VIso] at h; rfl
  | lambda _ => cases x <;> simp only [VIso] at h
  | module _ => cases x <;> simp only [VIso] at h; rfl

theorem setattrs_run {R : Addr → Addr → Prop} {info : ClassInfo} : ∀ {kvs kvs' : List (Str × Val)}, FieldsIso R kvs kvs' →
    (∀ kv ∈ kvs, kv.1 ∈ info.slots) →
    ∃ ops, setattrs info (kvs'.map (fun kv => (.str kv.1, kv.2))) = (ops, none) ∧
      All2 (OpIso R) (kvs.map (fun kv => .setattr kv.1 kv.2)) ops
  | [], [], _, _ => ⟨[], rfl, trivial⟩
  | kv :: kvs, kv' :: kvs', h, hm => by
    obtain ⟨⟨h1, h2⟩, h3⟩ := h
    obtain ⟨ops, e1, e2⟩ := setattrs_run h3 (fun e he => hm e (List.mem_cons_of_mem _ he))
    have ha : attrOk { info := info } kv'.1 = true := by
      have := hm kv List.mem_cons_self
      rw [h1] at this
      simp [attrOk, this]
    refine ⟨.setattr kv'.1 kv'.2 :: ops, ?_, ⟨h1, h2⟩, e2⟩
    simp only [List.map_cons, setattrs, ha, if_true, e1]
  | [], _ :: _, h, _ => h.elim
  | _ :: _, [], h, _ => h.elim

theorem fields_ne {R : Addr → Addr → Prop} {kvs kvs' : List (Str × Val)} (h : FieldsIso R kvs kvs') (hn : kvs ≠ []) : kvs' ≠ [] := by
  intro e
  subst e
  cases kvs with
  | nil => exact hn rfl
  | cons _ _ => exact h.elim

section
variable {P : List Ident} {B : Ctx} {info : ClassInfo}

theorem stateOps_run (r : Rel w.heap B P u) {c : Finish} (hc : info.finish = c) {st f st' f' : Val} {ops : List Op}
    (hs : StateSteps w.heap c st f ops) (h1 : VIso (Rof B P u.objs) st st') (h2 : VIso (Rof B P u.objs) f f')
    (hcl : ∀ d, Reach w.heap st d → d ∉ B.opn) (hsub : NoSub w.heap st) :
    ∃ ops', stateOps u.heap info st' f' = .ok ops' ∧ All2 (OpIso (Rof B P u.objs)) ops ops' := by
  have ht := r.truthy h1 (fun d e => hcl d (e ▸ .self d)) hsub
  unfold stateOps
  rw [ht]
  subst hc
  cases hs with
  | nothing q => rw [q]; exact ⟨[], rfl, trivial⟩
  | setter q1 q2 =>
    rw [q1]
    rcases q2 with ⟨n, e⟩ | ⟨n, e⟩
    · subst e
      rw [viso_func h2]
      exact ⟨_, rfl, ⟨rfl, h1⟩, trivial⟩
    · subst e
      rw [viso_type h2]
      exact ⟨_, rfl, ⟨rfl, h1⟩, trivial⟩
  | setstate q1 q2 =>
    rw [q1]
    cases f' <;> simp only [VIso] at h2
    have q2 : info.hasSetstate = true := q2
    simp only [q2, if_true]
    exact ⟨_, rfl, h1, trivial⟩
  | @dict d kvs q1 q2 q3 q4 =>
    cases f' <;> simp only [VIso] at h2
    have q1 : info.hasSetstate = false := q1
    have q2 : info.hasDict = true := q2
    have qt : JP.truthy w.heap (.ref d) = true := by
      simp only [JP.truthy, q3]
      cases kvs with
      | nil => exact absurd rfl q4
      | cons _ _ => rfl
    cases st' <;> simp only [VIso] at h1
    rename_i b
    obtain ⟨o, o', e1, e2, e3⟩ := r.kind h1
    rw [q3] at e1
    cases e1
    cases o' <;> simp only [SameKind] at e3
    simp only [qt, if_true, q1, Bool.false_eq_true, if_false, q2, dictEntries, e2]
    exact ⟨_, rfl, h1, trivial⟩
  | @slots d kvs q1 q2 q3 q4 q5 =>
    cases f' <;> simp only [VIso] at h2
    have q1 : info.hasSetstate = false := q1
    have q2 : info.hasDict = false := q2
    have qt : JP.truthy w.heap (.ref d) = true := by
      simp only [JP.truthy, q3]
      cases kvs with
      | nil => exact absurd rfl q4
      | cons _ _ => rfl
    obtain ⟨b, kvs', rfl, e1, e2⟩ := r.fields h1 (hcl d (.self d)) q3
    obtain ⟨ops', e3, e4⟩ := setattrs_run (info := info) e2 q5
    simp only [qt, if_true, q1, Bool.false_eq_true, if_false, q2, dictEntries, e1, e3]
    exact ⟨_, rfl, e4⟩
  | @pair l d kvs q1 q2 q3 q4 q5 =>
    cases f' <;> simp only [VIso] at h2
    have q1 : info.hasSetstate = false := q1
    have q2 : info.hasDict = false := q2
    obtain ⟨l', ys, rfl, hy⟩ := viso_tuple h1
    obtain ⟨z, ys, rfl, hz, hy⟩ := visos_cons hy
    obtain ⟨y, ys, rfl, hyd, hy⟩ := visos_cons hy
    cases ys with
    | cons _ _ => simp [VIsos] at hy
    | nil =>
      cases z <;> simp only [VIso] at hz
      obtain ⟨b, kvs', rfl, e1, e2⟩ := r.fields hyd (hcl d (.tuple (by simp) (.self d))) q3
      obtain ⟨ops', e3, e4⟩ := setattrs_run (info := info) e2 q5
      have hne := fields_ne e2 q4
      have qt : JP.truthy u.heap (.ref b) = true := by
        simp only [JP.truthy, e1]
        cases kvs' with
        | nil => exact absurd rfl hne
        | cons _ _ => rfl
      have qn : JP.truthy u.heap .none = false := rfl
      refine ⟨ops', ?_, e4⟩
      have : JP.truthy w.heap (.tuple l [.none, .ref d]) = true := rfl
      simp only [this, if_true, q1, Bool.false_eq_true, if_false, q2, dictEntries, pairState, starArgs, qn, qt, e1, e3]

theorem append_iso {R : Addr → Addr → Prop} : ∀ {xs ys : List Val}, VIsos R xs ys → All2 (OpIso R) (xs.map .append) (ys.map .append)
  | [], [], _ => trivial
  | x :: xs, y :: ys, h => by simp only [VIsos] at h; exact ⟨h.1, append_iso h.2⟩
  | [], _ :: _, h => by simp [VIsos] at h
  | _ :: _, [], h => by simp [VIsos] at h

theorem listOps_run (r : Rel w.heap B P u) {c : Finish} (hc : info.finish = c) {v v' : Val} {ops : List Op}
    (hs : ListSteps w.heap c v ops) (h1 : VIso (Rof B P u.objs) v v') (hcl : ∀ d, v = .ref d → d ∉ B.opn) (hsub : NoSub w.heap v) :
    ∃ ops', listOps u.heap info v' = .ok ops' ∧ All2 (OpIso (Rof B P u.objs)) ops ops' := by
  have ht := r.truthy h1 hcl hsub
  unfold listOps
  rw [ht]
  subst hc
  cases hs with
  | nothing q => rw [q]; exact ⟨[], rfl, trivial⟩
  | @extend l xs q1 q2 =>
    have q2 : info.canExtend = true := q2
    obtain ⟨l', ys, rfl, hy⟩ := viso_tuple h1
    have qt : JP.truthy w.heap (.tuple l xs) = true := by cases xs with | nil => exact absurd rfl q1 | cons _ _ => rfl
    simp only [qt, if_true, starArgs, q2]
    exact ⟨_, rfl, hy, trivial⟩
  | @append l xs q1 q2 q3 =>
    have q2 : info.canExtend = false := q2
    have q3 : info.canAppend = true := q3
    obtain ⟨l', ys, rfl, hy⟩ := viso_tuple h1
    have qt : JP.truthy w.heap (.tuple l xs) = true := by cases xs with | nil => exact absurd rfl q1 | cons _ _ => rfl
    simp only [qt, if_true, starArgs, q2, q3, Bool.true_or, Bool.false_eq_true, if_false]
    exact ⟨_, rfl, append_iso hy⟩

theorem setitems_run {R : Addr → Addr → Prop} {h : Heap} (hi : info.canSetitem = true) : ∀ {ps : List (Nat × Val × Val)} {ys : List Val},
    VIsos R (ps.map (fun p => .tuple p.1 [p.2.1, p.2.2])) ys →
    ∃ ops', setitems h info ys = .ok ops' ∧ All2 (OpIso R) (ps.map (fun p => .setitem p.2.1 p.2.2)) ops'
  | [], [], _ => ⟨[], rfl, trivial⟩
  | p :: ps, y :: ys, hv => by
    simp only [List.map_cons, VIsos] at hv
    obtain ⟨h1, h2⟩ := hv
    obtain ⟨ops', e1, e2⟩ := setitems_run (h := h) hi h2
    obtain ⟨l', zs, rfl, hz⟩ := viso_tuple h1
    obtain ⟨k, zs, rfl, hk, hz⟩ := visos_cons hz
    obtain ⟨v, zs, rfl, hv, hz⟩ := visos_cons hz
    cases zs with
    | cons _ _ => simp [VIsos] at hz
    | nil =>
      refine ⟨.setitem k v :: ops', ?_, ⟨hk, hv⟩, e2⟩
      simp only [setitems, starArgs, hi, if_true, e1]
      rfl
  | [], _ :: _, h => by simp [VIsos] at h
  | _ :: _, [], h => by simp [VIsos] at h

theorem dictOps_run (r : Rel w.heap B P u) {c : Finish} (hc : info.finish = c) {v v' : Val} {ops : List Op}
    (hs : DictSteps w.heap c v ops) (h1 : VIso (Rof B P u.objs) v v') (hcl : ∀ d, v = .ref d → d ∉ B.opn) (hsub : NoSub w.heap v) :
    ∃ ops', dictOps u.heap info v' = .ok ops' ∧ All2 (OpIso (Rof B P u.objs)) ops ops' := by
  have ht := r.truthy h1 hcl hsub
  unfold dictOps
  rw [ht]
  subst hc
  cases hs with
  | nothing q => rw [q]; exact ⟨[], rfl, trivial⟩
  | @items l ps q1 q2 =>
    have q2 : info.canSetitem = true := q2
    obtain ⟨l', ys, rfl, hy⟩ := viso_tuple h1
    have qt : JP.truthy w.heap (.tuple l (ps.map (fun p => .tuple p.1 [p.2.1, p.2.2]))) = true := by
      cases ps with | nil => exact absurd rfl q1 | cons _ _ => rfl
    simp only [qt, if_true, starArgs]
    exact setitems_run q2 hy
end

/-- the object can be built again from the restored values -/
theorem build_run {R : Addr → Addr → Prop} {f args c d e g : Val} {ys : List Val} (hc : CallOk env i f args) (p : Addr) (u : UState)
    (h : VIsos R (Pickler.newobjMark (f :: args :: [c, d, e, g])) ys) :
    ∃ n c' d' e' g', (env.classInfo n).base = i.info.base ∧ (env.classInfo n).finish = i.info.finish ∧
      (VIso R c c' ∧ VIso R d d' ∧ VIso R e e' ∧ VIso R g g') ∧
      reduceBuild env p ys u = reduceFinish env p n ys c' d' e' g' { u with log := u.log ++ [.call n] } := by
  have e6 : ∀ f' args' l, VIsos R [c, d, e, g] l → ∃ c' d' e' g', f' :: args' :: l = [f', args', c', d', e', g'] ∧
      (VIso R c c' ∧ VIso R d d' ∧ VIso R e e' ∧ VIso R g g') := by
    intro f' args' l h
    obtain ⟨c', l, rfl, hc, h⟩ := visos_cons h
    obtain ⟨d', l, rfl, hd, h⟩ := visos_cons h
    obtain ⟨e', l, rfl, he, h⟩ := visos_cons h
    obtain ⟨g', l, rfl, hg, h⟩ := visos_cons h
    cases l with
    | nil => exact ⟨_, _, _, _, rfl, hc, hd, he, hg⟩
    | cons _ _ => simp [VIsos] at h
  cases hc with
  | @newobj n l xs h1 h2 h3 =>
    have h1' : (Pickler.shortOf n == p!"__newobj__") = true := by
      rw [Pickler.shortOf, h1]
      exact beq_self_eq_true _
    simp only [Pickler.newobjMark, h1', if_true] at h
    obtain ⟨y, l1, rfl, hy, hq⟩ := visos_cons h
    rw [viso_str hy]
    obtain ⟨y2, l2, rfl, hy2, hq2⟩ := visos_cons hq
    obtain ⟨l', zs, rfl, hz⟩ := viso_tuple hy2
    obtain ⟨z, zs, rfl, hz1, hz2⟩ := visos_cons hz
    rw [viso_type hz1]
    obtain ⟨c', d', e', g', he, hs⟩ := e6 (.str Tags.NEWOBJ) (.tuple l' (.type i.cls :: zs)) _ hq2
    rw [he]
    refine ⟨i.cls, c', d', e', g', by rw [h2], by rw [h2], hs, ?_⟩
    have hl : zs.length = xs.length := viSos_length hz2
    have hnew : isNewobj (.str Tags.NEWOBJ) = true := by decide
    have ha : newobjArgs u.heap (.tuple l' (.type i.cls :: zs)) = .ok (.type i.cls, zs) := rfl
    simp only [reduceBuild]
    rw [bind_ok (get_run _), hnew, if_pos rfl, ha]
    rw [bind_ok (a := (Val.type i.cls, zs)) (s' := u) rfl]
    simp only [h2, hl, h3, if_true]
    rw [bind_ok (emit_run _ _)]
  | @type l xs h1 h2 h3 =>
    have h1' : (Pickler.shortOf i.cls == p!"__newobj__") = false := by
      rw [beq_eq_false_iff_ne]
      exact h1
    simp only [Pickler.newobjMark, h1', Bool.false_eq_true, if_false] at h
    obtain ⟨y, l1, rfl, hy, hq⟩ := visos_cons h
    rw [viso_type hy]
    obtain ⟨y2, l2, rfl, hy2, hq2⟩ := visos_cons hq
    obtain ⟨l', zs, rfl, hz⟩ := viso_tuple hy2
    obtain ⟨c', d', e', g', he, hs⟩ := e6 (.type i.cls) (.tuple l' zs) _ hq2
    rw [he]
    refine ⟨i.cls, c', d', e', g', by rw [h2], by rw [h2], hs, ?_⟩
    have hl : zs.length = xs.length := viSos_length hz
    simp only [reduceBuild]
    rw [bind_ok (get_run _)]
    have hn : isNewobj (.type i.cls) = false := h1'
    simp only [hn, Bool.false_eq_true, if_false, starArgs, callOk, h2, hl, h3, if_true]
    rw [bind_ok (emit_run _ _)]
  | @func n l xs h1 h2 h3 h4 =>
    have h1' : (Pickler.shortOf n == p!"__newobj__") = false := by
      rw [beq_eq_false_iff_ne]
      exact h1
    simp only [Pickler.newobjMark, h1', Bool.false_eq_true, if_false] at h
    obtain ⟨y, l1, rfl, hy, hq⟩ := visos_cons h
    rw [viso_func hy]
    obtain ⟨y2, l2, rfl, hy2, hq2⟩ := visos_cons hq
    obtain ⟨l', zs, rfl, hz⟩ := viso_tuple hy2
    obtain ⟨c', d', e', g', he, hs⟩ := e6 (.func n) (.tuple l' zs) _ hq2
    rw [he]
    refine ⟨n, c', d', e', g', h2, h3, hs, ?_⟩
    have hl : zs.length = xs.length := viSos_length hz
    simp only [reduceBuild]
    rw [bind_ok (get_run _)]
    have hn : isNewobj (.func n) = false := h1'
    simp only [hn, Bool.false_eq_true, if_false, starArgs, hl, h4, if_true]
    rw [bind_ok (emit_run _ _)]

theorem emitSetter_run (ops : List Op) (u : UState) : ∃ lg, emitSetter ops u = some (.ok (), { u with log := lg }) := by
  unfold emitSetter
  split
  · exact ⟨_, emit_run _ _⟩
  · exact ⟨_, emit_run _ _⟩
  · exact ⟨u.log, rfl⟩

/-- what is done after the object was made -/
theorem finish_run {P : List Ident} {B : Ctx} {n : Str} {p : Addr} {f args c d e g c' d' e' g' : Val} {ys : List Val} {ops : List Op}
    {ci : Finish} (r : Rel w.heap B P u) (hci : (env.classInfo n).finish = ci) (hs : Steps w.heap ci [f, args, c, d, e, g] ops)
    (hv : VIso (Rof B P u.objs) c c' ∧ VIso (Rof B P u.objs) d d' ∧ VIso (Rof B P u.objs) e e' ∧ VIso (Rof B P u.objs) g g')
    (hcl : ∀ x, x = c ∨ x = d ∨ x = e → (∀ b, Reach w.heap x b → b ∉ B.opn) ∧ NoSub w.heap x) :
    ∃ ops' lg, All2 (OpIso (Rof B P u.objs)) ops ops' ∧ reduceFinish env p n ys c' d' e' g' u =
      (alloc (.inst (reduceInst env n ys ops')) >>= fun a => setCell p (.proxy (some (.ref a))) >>= fun _ =>
        swapref p (.ref a) >>= fun _ => (pure (.ref a) : U Val)) { u with log := lg } := by
  obtain ⟨f0, args0, st, ls, ds, g0, o1, o2, o3, e1, s1, s2, s3, rfl⟩ := hs
  simp only [List.cons.injEq, and_true] at e1
  obtain ⟨rfl, rfl, rfl, rfl, rfl, rfl⟩ := e1
  obtain ⟨p1, q1, r1⟩ := stateOps_run r hci s1 hv.1 hv.2.2.2 (hcl c (by simp)).1 (hcl c (by simp)).2
  obtain ⟨p2, q2, r2⟩ := listOps_run r hci s2 hv.2.1 (fun b e => (hcl d (by simp)).1 b (e ▸ .self b)) (hcl d (by simp)).2
  obtain ⟨p3, q3, r3⟩ := dictOps_run r hci s3 hv.2.2.1 (fun b e' => (hcl e (by simp)).1 b (e' ▸ .self b)) (hcl e (by simp)).2
  obtain ⟨lg, hlg⟩ := emitSetter_run p1 u
  refine ⟨p1 ++ p2 ++ p3, lg, All2.append (All2.append r1 r2) r3, ?_⟩
  unfold reduceFinish
  rw [bind_ok (get_run _), q1, bind_ok (a := p1) (s' := u) rfl, bind_ok hlg, q2, bind_ok (a := p2) (s' := { u with log := lg }) rfl,
    q3, bind_ok (a := p3) (s' := { u with log := lg }) rfl]

theorem recipe_eq {f args : Val} {rest : List Val} (hc : CallOk env i f args) :
    recipe p!"py/newobj" (f :: args :: rest) = Pickler.newobjMark (Pickler.padReduce (f :: args :: rest)) := by
  cases hc with
  | @newobj n l xs h1 h2 h3 =>
    simp only [recipe, Pickler.padReduce, List.cons_append, Pickler.newobjMark, Pickler.shortOf, h1, beq_self_eq_true, if_true]
    rfl
  | @type l xs h1 h2 h3 =>
    have h1' : ((i.cls.reverse.takeWhile (· != 46)).reverse == p!"__newobj__") = false := by
      rw [beq_eq_false_iff_ne]
      exact h1
    simp only [recipe, Pickler.padReduce, List.cons_append, Pickler.newobjMark, Pickler.shortOf, h1', Bool.false_eq_true, if_false]
  | @func n l xs h1 h2 _ _ =>
    have h1' : ((n.reverse.takeWhile (· != 46)).reverse == p!"__newobj__") = false := by
      rw [beq_eq_false_iff_ne]
      exact h1
    simp only [recipe, Pickler.padReduce, List.cons_append, Pickler.newobjMark, Pickler.shortOf, h1', Bool.false_eq_true, if_false, List.cons_append]

theorem mem_newobjMark {xs : List Val} {x : Val} (h : x ∈ Pickler.newobjMark xs) : x ∈ xs ∨ x = .str Tags.NEWOBJ := by
  unfold Pickler.newobjMark at h
  split at h
  · rcases List.mem_cons.1 h with e | e
    · split at e
      · exact Or.inr e
      · exact Or.inl (by rw [e]; exact List.mem_cons_self)
    · exact Or.inl (List.mem_cons_of_mem _ e)
  · rcases List.mem_cons.1 h with e | e
    · split at e
      · exact Or.inr e
      · exact Or.inl (by rw [e]; exact List.mem_cons_self)
    · exact Or.inl (List.mem_cons_of_mem _ e)
  · exact Or.inl h

theorem newobjMark_cons {f : Val} {l : List Val} : Pickler.newobjMark (f :: l) = (match f with
    | .func n | .type n => if Pickler.shortOf n == p!"__newobj__" then .str Tags.NEWOBJ else f
    | _ => f) :: l := by
  cases f <;> rfl

theorem newobjMark_length (xs : List Val) : (Pickler.newobjMark xs).length = xs.length := by
  unfold Pickler.newobjMark
  split <;> simp

theorem noreach_scalar {h : Heap} {v : Val} (hv : v = .none ∨ ∃ t, v = .str t) (b : Addr) : ¬ Reach h v b := by
  intro hr
  rcases hv with e | ⟨t, e⟩ <;> subst e <;> cases hr

theorem fit_scalar {v : Val} (hv : v = .none ∨ ∃ t, v = .str t) (ho : ∀ d ∈ Bad.opn, ∀ a, StateOf w.heap env a d → a ∈ Bad.own) : Fit w env Bad v := by
  refine ⟨⟨?_, fun b hb => absurd hb (noreach_scalar hv b)⟩, ⟨fun b _ => noreach_scalar hv b, fun _ _ b hb => absurd hb (noreach_scalar hv b),
    fun d hd => absurd (Mentions.reach hd) (noreach_scalar (h := w.heap) hv d), ho⟩⟩
  rcases hv with e | ⟨t, e⟩ <;> subst e <;> trivial

theorem simReduced (hm : Matching w cfg env) (h : Sim w cfg env fl rs2) (hnull : ∀ u, rs2 .null u = some (.ok .none, u))
    (ha : w.heap[a]? = some (.inst i))
    (hok : ReduceOk w.heap env a i) (hd : 0 ≤ s.depth) (hr : Rel w.heap Bad s.objs u) (hf : Fit w env Bad (.ref a)) :
    SimRun w cfg (restoreStep env rs2) Bad (.ref a) s (Pickler.flattenBy w cfg fl (.ref a) s) u := by
  refine simRefInst hm ha hr hf ?_
  intro hmem r s' hrun
  have hab : a ∉ Bad := fun hb => hf.2.no a hb (.self a)
  obtain ⟨f, args, rest, hred, hlen, hvals, hcall, hno, hsane, hsub, ops, hops⟩ := hok.recipe
  have hsane' : Pickler.reduceSane w i (f :: args :: rest) = true := by
    unfold Pickler.reduceSane
    have e : (f :: args :: rest).getD 2 .none = rest.getD 0 .none := rfl
    rw [e]
    cases h1 : truthy w.heap (rest.getD 0 .none) <;> cases h2 : i.info.ownGetstate <;> cases h3 : i.info.hasSetstate <;> try rfl
    rw [hsane h1 h2 h3]
    rfl
  have hnh : w.handler i.cls = none := by rw [hm.handler]; exact hok.noHandler
  have henc : Pickler.flattenInst w cfg fl a i = (mapM fl (Pickler.newobjMark (Pickler.padReduce (f :: args :: rest))) >>= fun js =>
      (pure (.obj [(Tags.REDUCE, .arr (Pickler.trimReduce js))]) : P _)) := by
    unfold Pickler.flattenInst
    rw [hnh]
    simp only []
    unfold Pickler.flattenReduce
    rw [hm.unpicklable, hok.reduces]
    simp only [Bool.and_self, if_true, hred, List.isEmpty_cons, Bool.false_eq_true, if_false, hsane']
  obtain ⟨c, d, e, g, hpad, hpadm⟩ := pad_six (f := f) (args := args) hlen
  have hpad' : Pickler.padReduce (f :: args :: rest) = f :: args :: [c, d, e, g] := by
    unfold Pickler.padReduce
    rw [List.cons_append, List.cons_append, hpad]
  rw [henc, hpad', bind_run] at hrun
  have hr1 := hr.prox hmem u.log
  cases hmm : mapM fl (Pickler.newobjMark (f :: args :: [c, d, e, g])) { s with objs := s.objs ++ [.addr a] } with
  | none => rw [hmm] at hrun; cases hrun
  | some p =>
    obtain ⟨r1, s1⟩ := p
    have hfit : ∀ x ∈ Pickler.newobjMark (f :: args :: [c, d, e, g]), Fit w env (Bad.hold a) x := by
      intro x hx
      rcases mem_newobjMark hx with hx | hx
      · have hx' : x ∈ f :: args :: rest ∨ x = .none := by
          simp only [List.mem_cons] at hx
          rcases hx with rfl | rfl | hx
          · exact Or.inl (by simp)
          · exact Or.inl (by simp)
          · rcases hpadm x (by simpa using hx) with h | h
            · exact Or.inl (by simp [h])
            · exact Or.inr h
        rcases hx' with hx' | hx'
        · refine (hf.part ha ?_ (valsOk_iff.1 hvals x hx') (fun d _ => notState_inst ha (Or.inr (Or.inl hok.reduces)) d)).bad (hno x hx')
          simp only [Obj.parts, Inst.parts, List.mem_append, hred]
          exact Or.inl (Or.inl (Or.inl (Or.inl (Or.inr hx'))))
        · exact fit_scalar (Or.inl hx') hf.2.opn
      · exact fit_scalar (Or.inr ⟨_, hx⟩) hf.2.opn
    obtain ⟨js, xs, u2, e1, e2, hstep, hiso, hl⟩ := simMap h _ { s with objs := s.objs ++ [.addr a] } (proxU u u.log) r1 s1 hd hfit hr1 hmm
    subst e1
    rw [hmm] at hrun
    simp only [pure_run] at hrun
    cases hrun
    rw [newobjMark_length] at hl
    obtain ⟨zs, ez, epad⟩ := trim_run hnull (by simpa using hl) e2
    obtain ⟨n, c', d', e', g', hbase, hfin, hvs, hbuild⟩ := build_run (u := u2) (p := u.heap.length) hcall hiso
    have hrest : ∀ x, x = c ∨ x = d ∨ x = e → x ∈ rest ∨ x = .none := fun x hx => hpadm x (by
      rcases hx with e | e | e <;> subst e <;> simp)
    have hrec : ∃ f', recipe p!"py/newobj" (f :: args :: rest) = [f', args, c, d, e, g] := by
      rw [recipe_eq hcall, hpad']
      exact ⟨_, newobjMark_cons⟩
    obtain ⟨f', hrec⟩ := hrec
    rw [hrec] at hops
    have hst1 : Step w cfg [] (Bad.hold a) s' s' u2 { u2 with log := u2.log ++ [.call n] } := Step.same hstep.rel rfl rfl rfl rfl rfl rfl
    obtain ⟨ops', lg, hopi, hfinr⟩ := finish_run (env := env) (u := { u2 with log := u2.log ++ [.call n] }) (p := u.heap.length) (ys := xs)
      hst1.rel hfin hops hvs (by
        intro x hx
        rcases hrest x hx with hx' | hx'
        · refine ⟨fun b hb => ?_, hsub x hx'⟩
          refine hf.closed (d := b) (fun hba => hno x (by simp [hx']) ?_)
          exact Reach.trans hb hba
        · subst hx'
          exact ⟨fun b hb => absurd hb (noreach_scalar (Or.inl rfl) b), fun _ _ e => by cases e⟩)
    have hargs : Args w cfg Bad a s s' u { u2 with log := lg } :=
      ⟨hr, hmem, _, hstep.trans (Step.same hstep.rel rfl rfl rfl rfl rfl rfl) (by simp)⟩
    have hrel := hargs.openRel (o := .inst i) (o0 := .inst (reduceInst env n xs ops')) ha (by simp [SameKind, reduceInst, hbase])
    refine ⟨_, .ref u2.heap.length, _, rfl, ?_, hargs.close (Step.refl hrel) ha hargs.openCell (by
        intro i' d hi hdd; cases hi; cases hdd) ?_, ?_⟩
    · change restoreReduce env rs2 [(Tags.REDUCE, .arr (Pickler.trimReduce js))] u = _
      unfold restoreReduce
      have := prox_run hr u.log (fun p => PyM.tryCatch (do
          let j ← PyM.ofExcept (item Tags.REDUCE [(Tags.REDUCE, .arr (Pickler.trimReduce js))])
          let xs ← PyM.ofExcept (jsonIter j)
          let vs ← mapM rs2 xs
          pure (some vs)) (· == .typeError) (fun _ => pure none) >>= fun r => match r with
        | none => reduceFallback p
        | some vs => reduceBuild env p (padVals vs))
      refine this.trans ?_
      have ht : PyM.tryCatch (do
          let j ← PyM.ofExcept (item Tags.REDUCE [(Tags.REDUCE, .arr (Pickler.trimReduce js))])
          let xs ← PyM.ofExcept (jsonIter j)
          let vs ← mapM rs2 xs
          pure (some vs)) (· == .typeError) (fun _ => (pure none : U (Option (List Val)))) (proxU u u.log) = some (.ok (some zs), u2) := by
        have hin : (do
          let j ← PyM.ofExcept (item Tags.REDUCE [(Tags.REDUCE, .arr (Pickler.trimReduce js))])
          let xs ← PyM.ofExcept (jsonIter j)
          let vs ← mapM rs2 xs
          (pure (some vs) : U (Option (List Val)))) (proxU u u.log) = some (.ok (some zs), u2) := by
          change (mapM rs2 (Pickler.trimReduce js) >>= fun vs => (pure (some vs) : U (Option (List Val)))) (proxU u u.log) = _
          rw [bind_ok ez]
          rfl
        simp only [PyM.tryCatch, hin]
      rw [bind_ok ht]
      simp only [epad]
      rw [hbuild, hfinr]
      exact hargs.run (fun b => (pure (Val.ref b) : U Val))
    · simp only [SameCell]
      refine .reduced (xs := f :: args :: rest) (vals := xs) (by simp [handledOf, hnh]) hok.reduces hred rfl ?_ (hrec ▸ hops)
        (All2.mono (fun _ _ => OpIso.mono hargs.mono) hopi)
      rw [recipe_eq hcall, hpad']
      exact VIsos.mono hargs.mono _ _ hiso
    · simp only [VIso]
      exact hargs.iso_new (Step.refl (X := []) (cfg := cfg) hrel) hab

end JP.Sim
