import Verif.Proofs.RoundTrip
import Verif.Proofs.Run
import Verif.SampleCovered
/-!
# C45 — an object rebuilt from a reduce tuple is finished as the tuple says

For an object whose `__reduce_ex__` returned `(f, args, state, listitems, dictitems, setter)` (trailing elements may be absent):
after `f(*args)` the decoder gives the state to the setter, else to `__setstate__`, else makes it the `__dict__`, else assigns
the slots; then it adds the list items with `extend`, else with `append` one by one; then it calls `__setitem__` for each dict
item.  Each of these is done once, in this order, with values that correspond to the original ones.

`Steps` (GraphSpec) says what has to be done in terms of the original object and its class; it leaves no choice
(`steps_unique`).  The rebuilt object records what was done with it.

The code differs from `pickle` in that it does not deliver falsy states (`falsy_state_dropped`), which includes dicts and lists
that are not complete yet when the object is built (`state_in_progress_dropped`), and in that a `(dict, slots)` state is an
error if the object has a `__dict__` (`pair_state_raises`).
-/
namespace JP.C45
open JP Sample

theorem map_pair_inj {kvs kvs' : List (Str × Val)}
    (h : kvs.map (fun kv => (Val.str kv.1, kv.2)) = kvs'.map (fun kv => (Val.str kv.1, kv.2))) : kvs = kvs' := by
  refine (List.map_inj_right fun a b h => ?_).1 h
  simp only [Prod.mk.injEq, Val.str.injEq] at h
  exact Prod.ext h.1 h.2

theorem state_unique {h : Heap} {c : Finish} {st f : Val} {ops ops' : List Op} (h1 : StateSteps h c st f ops)
    (h2 : StateSteps h c st f ops') : ops = ops' := by
  have ht : ∀ {d : Addr} {kvs : List (Val × Val)}, h[d]? = some (.dict kvs) → kvs ≠ [] → truthy h (.ref d) = true := by
    intro d kvs h1 h2
    simp only [truthy, h1]
    cases kvs with
    | nil => exact absurd rfl h2
    | cons _ _ => rfl
  have hn : ∀ {kvs : List (Str × Val)}, kvs ≠ [] → kvs.map (fun kv => (Val.str kv.1, kv.2)) ≠ [] := fun h e => h (List.map_eq_nil_iff.1 e)
  cases h1 with
  | nothing q =>
    cases h2 with
    | nothing => rfl
    | setter p => rw [q] at p; cases p
    | setstate p => rw [q] at p; cases p
    | dict _ _ p1 p2 => rw [ht p1 p2] at q; cases q
    | slots _ _ p1 p2 => rw [ht p1 (hn p2)] at q; cases q
    | pair => cases q
  | setter q q' =>
    cases h2 with
    | nothing p => rw [q] at p; cases p
    | setter => rfl
    | setstate => rcases q' with ⟨_, e⟩ | ⟨_, e⟩ <;> cases e
    | dict => rcases q' with ⟨_, e⟩ | ⟨_, e⟩ <;> cases e
    | slots => rcases q' with ⟨_, e⟩ | ⟨_, e⟩ <;> cases e
    | pair => rcases q' with ⟨_, e⟩ | ⟨_, e⟩ <;> cases e
  | setstate q q' =>
    cases h2 with
    | nothing p => rw [q] at p; cases p
    | setter _ p => rcases p with ⟨_, e⟩ | ⟨_, e⟩ <;> cases e
    | setstate => rfl
    | dict p => rw [q'] at p; cases p
    | slots p => rw [q'] at p; cases p
    | pair p => rw [q'] at p; cases p
  | dict q1 q2 q3 q4 =>
    cases h2 with
    | nothing p => rw [ht q3 q4] at p; cases p
    | setter _ p => rcases p with ⟨_, e⟩ | ⟨_, e⟩ <;> cases e
    | setstate _ p => rw [q1] at p; cases p
    | dict => rfl
    | slots _ p => rw [q2] at p; cases p
  | slots q1 q2 q3 q4 q5 =>
    cases h2 with
    | nothing p => rw [ht q3 (hn q4)] at p; cases p
    | setter _ p => rcases p with ⟨_, e⟩ | ⟨_, e⟩ <;> cases e
    | setstate _ p => rw [q1] at p; cases p
    | dict _ p => rw [q2] at p; cases p
    | slots _ _ p =>
      rw [q3] at p
      simp only [Option.some.injEq, Obj.dict.injEq] at p
      rw [map_pair_inj p]
  | pair q1 q2 q3 q4 q5 =>
    cases h2 with
    | nothing p => cases p
    | setter _ p => rcases p with ⟨_, e⟩ | ⟨_, e⟩ <;> cases e
    | setstate _ p => rw [q1] at p; cases p
    | pair _ _ p =>
      rw [q3] at p
      simp only [Option.some.injEq, Obj.dict.injEq] at p
      rw [map_pair_inj p]

theorem list_unique {h : Heap} {c : Finish} {v : Val} {ops ops' : List Op} (h1 : ListSteps h c v ops) (h2 : ListSteps h c v ops') :
    ops = ops' := by
  have ht : ∀ {l : Nat} {xs : List Val}, xs ≠ [] → truthy h (.tuple l xs) = true := by
    intro l xs h
    cases xs with
    | nil => exact absurd rfl h
    | cons _ _ => rfl
  cases h1 with
  | nothing q =>
    cases h2 with
    | nothing => rfl
    | extend p => rw [ht p] at q; cases q
    | append p => rw [ht p] at q; cases q
  | extend q q' =>
    cases h2 with
    | nothing p => rw [ht q] at p; cases p
    | extend => rfl
    | append _ p => rw [q'] at p; cases p
  | append q q' =>
    cases h2 with
    | nothing p => rw [ht q] at p; cases p
    | extend _ p => rw [q'] at p; cases p
    | append => rfl

theorem dict_unique {h : Heap} {c : Finish} {v : Val} {ops ops' : List Op} (h1 : DictSteps h c v ops) (h2 : DictSteps h c v ops') :
    ops = ops' := by
  have ht : ∀ {l : Nat} {ps : List (Nat × Val × Val)}, ps ≠ [] → truthy h (.tuple l (ps.map (fun p => .tuple p.1 [p.2.1, p.2.2]))) = true := by
    intro l ps h
    cases ps with
    | nil => exact absurd rfl h
    | cons _ _ => rfl
  cases h1 with
  | nothing q =>
    generalize hw : v = w at h2
    cases h2 with
    | nothing => rfl
    | items p => subst hw; rw [ht p] at q; cases q
  | items q q' =>
    generalize hw : Val.tuple _ _ = w at h2
    cases h2 with
    | nothing p => subst hw; rw [ht q] at p; cases p
    | items =>
      simp only [Val.tuple.injEq] at hw
      have := (List.map_inj_right (f := fun p : Nat × Val × Val => Val.tuple p.1 [p.2.1, p.2.2]) (fun a b e => by
        simp only [Val.tuple.injEq, List.cons.injEq, and_true] at e
        exact Prod.ext e.1 (Prod.ext e.2.1 e.2.2))).1 hw.2
      rw [this]

/-- What has to be done is determined by the object and its class. -/
theorem steps_unique {h : Heap} {c : Finish} {vals : List Val} {ops ops' : List Op} (h1 : Steps h c vals ops) (h2 : Steps h c vals ops') :
    ops = ops' := by
  obtain ⟨_, _, _, _, _, _, _, _, _, e1, a1, b1, c1, rfl⟩ := h1
  obtain ⟨_, _, _, _, _, _, _, _, _, e2, a2, b2, c2, rfl⟩ := h2
  rw [e1] at e2
  simp only [List.cons.injEq, and_true] at e2
  obtain ⟨-, -, rfl, rfl, rfl, rfl⟩ := e2
  rw [state_unique a1 a2, list_unique b1 b2, dict_unique c1 c2]

/-- The object under the path `ps`, for which `__reduce_ex__` returned the tuple `xs`: what `xs` says is done with the rebuilt object,
once and in this order, with corresponding values (under the isomorphism that relates the whole graphs). -/
theorem finished_partial (w : World) (cfg : PCfg) (env : UEnv) (v x : Val) (text : Str) (u u' : UState)
    (hc : Covered w cfg env v) (he : Encodes w cfg v text) (hd : Decodes env text u x u')
    (ps : List Access) (a : Addr) (i : Inst) (xs : List Val)
    (hp : walk (writeOrder cfg.keys) (saved (hasHandler w) w.heap) w.heap v ps = some (.ref a))
    (ha : w.heap[a]? = some (.inst i)) (hh : hasHandler w i.cls = false) (hr : i.info.reduces = true) (hx : i.reduce = .tup xs) :
    ∃ R : Addr → Addr → Prop, (∀ a b b', R a b → R a b' → b = b') ∧ (∀ a a' b, R a b → R a' b → a = a') ∧
      (∀ a b, R a b → ∃ o o', w.heap[a]? = some o ∧ u'.heap[b]? = some o' ∧
        SameCell (writeOrder cfg.keys) (hasHandler w) w.heap u'.heap R o o') ∧
      VIso R v x ∧
      ∃ b i' ops, walk id anyPart u'.heap x ps = some (.ref b) ∧ u'.heap[b]? = some (.inst i') ∧ R a b ∧
        Steps w.heap i.info.finish (recipe p!"py/newobj" xs) ops ∧ All2 (OpIso R) ops i'.ops := by
  obtain ⟨R, f, g, hv, hR⟩ := hc.graph he hd
  refine ⟨R, f, g, hR, hv, ?_⟩
  obtain ⟨z, h1, h2⟩ := walk_iso hR ps hv hp
  cases z <;> simp only [VIso] at h2
  rename_i b
  obtain ⟨o1, o', e1, e2, e3⟩ := hR a b h2
  rw [ha] at e1
  cases e1
  cases o' <;> simp only [SameCell] at e3
  rename_i i'
  cases e3 with
  | handled q => rw [hh] at q; cases q
  | state _ q => rw [hr] at q; cases q
  | stateAttrs _ q => rw [hr] at q; cases q
  | fields _ q => rw [hr] at q; cases q
  | reduced _ _ q1 q2 q3 q4 q5 =>
    rw [hx] at q1
    cases q1
    exact ⟨b, i', _, h1, e2, h2, q4, q5⟩

/-- In the sample graph the class of `x[16]` has `__setstate__`, `append` and `__setitem__` but not `extend`.  After the round trip its
state is set to `(1, e)`, then `1` and `e` are appended, then `e` becomes the item for the key `1`. -/
example (text : Str) (x : Val) (u' : UState) (he : Encodes (program.world graph) {} (.ref 0) text) (hd : Decodes program.env text {} x u') :
    ∃ b i' l e, walk id anyPart u'.heap x [.elem 16] = some (.ref b) ∧ u'.heap[b]? = some (.inst i') ∧
      i'.ops = [.setstate (.tuple l [.int 1, .ref e]), .append (.int 1), .append (.ref e), .setitem (.int 1) (.ref e)] := by
  obtain ⟨R, f, g, hR, hv, b, i', ops, h1, h2, h3, h4, h5⟩ := finished_partial _ _ _ _ _ _ _ _ (covered false) he hd
    [.elem 16] 9 _ _ rfl rfl rfl rfl rfl
  have := steps_unique h4 ⟨_, _, _, _, _, _, _, _, _, rfl, .setstate rfl rfl, .append (by decide) rfl rfl,
    .items (ps := [(10, .int 1, .ref 11)]) (by decide) rfl, rfl⟩
  subst this
  match hi : i'.ops, h5 with
  | [.setstate (.tuple l [.int k1, .ref e1]), .append (.int k2), .append (.ref e2), .setitem (.int k3) (.ref e3)], h5 =>
    obtain ⟨⟨a1, b1, -⟩, a2, b2, ⟨a3, b3⟩, -⟩ := h5
    have a1 : 1 = k1 := a1
    have a2 : 1 = k2 := a2
    have a3 : 1 = k3 := a3
    refine ⟨b, i', l, e1, h1, h2, ?_⟩
    rw [hi, ← a1, ← a2, ← a3, f _ _ _ b2 b1, f _ _ _ b3 b1]

/-! ### where it differs from pickle -/

deriving instance DecidableEq for Op

def infoS : ClassInfo := { reduces := true, hasSetstate := true }
def prog : Program where
  infos := [(p!"m.S", infoS), (p!"m.C", { reduces := true })]

/-- what was done with the object under a path -/
def opsAt (r : Val × Heap) (ps : List Access) : Option (List Op) :=
  match walk id anyPart r.2 r.1 ps with
  | some (.ref b) => match r.2[b]? with
    | some (.inst i) => some i.ops
    | _ => none
  | _ => none

theorem ops_of {p : Program} {h : Heap} {cfg : PCfg} (n : Nat) {v : Val} {ps : List Access} {ops : List Op}
    (ht : (p.trip h cfg n v).any (fun r => opsAt r ps == some ops) = true) : ∃ x h', p.Trips h cfg v x h' ∧ opsAt (x, h') ps = some ops := by
  rw [Option.any_eq_true] at ht
  obtain ⟨⟨x, h'⟩, h1, h2⟩ := ht
  exact ⟨x, h', Program.trips h1, by simpa using h2⟩

/-- `s.__reduce__()` is `(S, (), 1)`: `__setstate__(1)` is called … -/
theorem true_state_delivered : ∃ x h', prog.Trips [.inst { cls := p!"m.S", info := infoS, reduce := .tup [.type p!"m.S", .tuple 1 [], .int 1] }]
    {} (.ref 0) x h' ∧ opsAt (x, h') [] = some [.setstate (.int 1)] :=
  ops_of 20 (by decide +kernel)

/-- … but it is not called if `s.__reduce__()` is `(S, (), 0)`. -/
theorem falsy_state_dropped : ∃ x h', prog.Trips [.inst { cls := p!"m.S", info := infoS, reduce := .tup [.type p!"m.S", .tuple 1 [], .int 0] }]
    {} (.ref 0) x h' ∧ opsAt (x, h') [] = some [] :=
  ops_of 20 (by decide +kernel)

/-- `d = {"s": s}` and `s.__reduce__()` is `(S, (), d)`.  When the decoder builds `s` the dict is still empty; so `__setstate__` is not
called for `decode(encode(d))["s"]` … -/
theorem state_in_progress_dropped : ∃ x h', prog.Trips [.dict [(.str p!"s", .ref 1)],
      .inst { cls := p!"m.S", info := infoS, reduce := .tup [.type p!"m.S", .tuple 1 [], .ref 0] }]
    {} (.ref 0) x h' ∧ opsAt (x, h') [.entry 0] = some [] :=
  ops_of 20 (by decide +kernel)

/-- … whereas it is if there is an entry before that one. -/
theorem state_in_progress_delivered : ∃ x h', prog.Trips [.dict [(.str p!"a", .none), (.str p!"s", .ref 1)],
      .inst { cls := p!"m.S", info := infoS, reduce := .tup [.type p!"m.S", .tuple 1 [], .ref 0] }]
    {} (.ref 0) x h' ∧ opsAt (x, h') [.entry 1] = some [.setstate (.ref 0)] :=
  ops_of 20 (by decide +kernel)

/-- `decode(encode(v))` raises `e` -/
def Fails (p : Program) (h : Heap) (v : Val) (e : Exc) : Prop :=
  ∃ text u n, Encodes (p.world h) {} v text ∧ ∀ m, n ≤ m → Api.decode p.env m text true true {} = some (.error e, u)

theorem fails (p : Program) (h : Heap) (v : Val) (e : Exc) (n : Nat) (ht : (match Api.encode (p.world h) {} n v true {} with
    | some (.ok text, _) => match Api.decode p.env n text true true {} with
      | some (.error e', _) => e' == e
      | _ => false
    | _ => false) = true) : Fails p h v e := by
  split at ht
  · next text s1 he =>
    split at ht
    · next e' u hd =>
      have : e' = e := by simpa using ht
      subst this
      exact ⟨text, u, n, encodes_of_run (n := n) (by rw [he]; rfl), fun m hm => decode_mono hm hd⟩
    · cases ht
  · cases ht

/-- The state `(None, {"p": 1})`, which sets the slot `p`, is an error if objects of the class also have a `__dict__`. -/
theorem pair_state_raises : Fails prog [.inst { cls := p!"m.C", info := { reduces := true }, reduce := .tup [.type p!"m.C", .tuple 1 [], .tuple 2 [.none, .ref 1]] },
    .dict [(.str p!"p", .int 1)]] (.ref 0) .typeError :=
  fails _ _ _ _ 20 (by decide +kernel)

/-- a program with a class whose `__new__` wants one argument besides the class -/
def progOne : Program where
  infos := [(p!"m.O", { reduces := true, newAccepts := fun k => k == 1 }), (p!"copyreg.__newobj__", {})]

/-- `(copyreg.__newobj__, (O, 7))`: `O.__new__(O, 7)` is called … -/
theorem newobj_called : ∃ x h', progOne.Trips [.inst { cls := p!"m.O", info := { reduces := true, newAccepts := fun k => k == 1 }, reduce := .tup [.func p!"copyreg.__newobj__", .tuple 1 [.type p!"m.O", .int 7]] }]
    {} (.ref 0) x h' ∧ opsAt (x, h') [] = some [] :=
  ops_of 20 (by decide +kernel)

/-- … and `(copyreg.__newobj__, (O,))` raises `TypeError`: decode does not make the object in another way. -/
theorem newobj_refused : Fails progOne [.inst { cls := p!"m.O", info := { reduces := true, newAccepts := fun k => k == 1 }, reduce := .tup [.func p!"copyreg.__newobj__", .tuple 1 [.type p!"m.O"]] }]
    (.ref 0) .typeError :=
  fails _ _ _ _ 20 (by decide +kernel)

/-- `(copyreg.__newobj__, ())`: there is no class among the arguments, `args[0]` raises `IndexError`. -/
theorem newobj_without_class : Fails progOne [.inst { cls := p!"m.O", info := { reduces := true, newAccepts := fun k => k == 1 }, reduce := .tup [.func p!"copyreg.__newobj__", .tuple 1 []] }]
    (.ref 0) .indexError :=
  fails _ _ _ _ 20 (by decide +kernel)

end JP.C45
