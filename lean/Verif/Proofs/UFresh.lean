import Verif.Proofs.UShiftAll
import Verif.Touch
import Verif.Api
/-! # Everything that decoding returns is new -/
namespace JP.Unpickler
open JP PyM

variable {o : Old} {x : Heap}

theorem mem_fs {l : List (Str × Val)} {k : Str} {v : Val} (h : (k, v) ∈ o.fs l) : ∃ w, v = o.v w := by
  obtain ⟨e, _, he⟩ := List.mem_map.1 h
  exact ⟨e.2, by cases he; rfl⟩

theorem mem_kv {l : List (Val × Val)} {k : Val} {v : Val} (h : (k, v) ∈ o.kv l) : (∃ w, k = o.v w) ∧ ∃ w, v = o.v w := by
  obtain ⟨e, _, he⟩ := List.mem_map.1 h
  exact ⟨⟨e.1, by cases he; rfl⟩, ⟨e.2, by cases he; rfl⟩⟩

theorem mem_vs {l : List Val} {v : Val} (h : v ∈ o.vs l) : ∃ w, v = o.v w := by
  rw [Old.vs, shifts_eq_map] at h
  obtain ⟨e, _, he⟩ := List.mem_map.1 h
  exact ⟨e, he.symm⟩

theorem get_dict {d : Addr} {kvs} (h : (o.h x)[o.addr d]? = some (.dict kvs)) : ∃ kvs0, kvs = o.kv kvs0 := by
  rw [Old.h_get] at h
  cases hx : x[d]? with
  | none => rw [hx] at h; cases h
  | some c =>
    rw [hx] at h
    cases c <;> cases h
    exact ⟨_, rfl⟩

theorem holds_new {i : Inst} {y : Val} (h : Holds (o.h x) (o.inst i) y) : ∃ w, y = o.v w := by
  have hstr : ∀ k : Str, ∃ w, Val.str k = o.v w := fun k => ⟨.str k, rfl⟩
  cases h with
  | attrName _ | slotName _ | dirName _ | hfieldName _ => exact hstr _
  | attr h => exact mem_fs h
  | dictKey h1 h2 h3 =>
    obtain ⟨d0, hd, he⟩ := Option.map_eq_some_iff.1 h1
    subst he
    obtain ⟨kvs0, rfl⟩ := get_dict h2
    exact (mem_kv h3).1
  | dictVal h1 h2 h3 =>
    obtain ⟨d0, hd, he⟩ := Option.map_eq_some_iff.1 h1
    subst he
    obtain ⟨kvs0, rfl⟩ := get_dict h2
    exact (mem_kv h3).2
  | itemKey h => exact (mem_kv h).1
  | itemVal h => exact (mem_kv h).2
  | elem h => exact mem_vs h
  | newargs => exact ⟨_, rfl⟩
  | newargsEx1 => exact ⟨_, rfl⟩
  | newargsEx2 => exact ⟨_, rfl⟩
  | initargs => exact ⟨_, rfl⟩
  | state h =>
    have h : i.state.map o.v = .ok y := h
    cases hs : i.state with
    | error e => rw [hs] at h; cases h
    | ok st => rw [hs] at h; cases h; exact ⟨_, rfl⟩
  | @stateKey d kvs k v h1 h2 h3 =>
    have h1 : i.state.map o.v = .ok (.ref d) := h1
    cases hs : i.state with
    | error e => rw [hs] at h1; cases h1
    | ok st =>
      rw [hs] at h1
      injection h1 with h1
      cases st <;> simp [Val.shift] at h1
      subst h1
      obtain ⟨kvs0, rfl⟩ := get_dict h2
      exact (mem_kv h3).1
  | @stateVal d kvs k v h1 h2 h3 =>
    have h1 : i.state.map o.v = .ok (.ref d) := h1
    cases hs : i.state with
    | error e => rw [hs] at h1; cases h1
    | ok st =>
      rw [hs] at h1
      injection h1 with h1
      cases st <;> simp [Val.shift] at h1
      subst h1
      obtain ⟨kvs0, rfl⟩ := get_dict h2
      exact (mem_kv h3).2
  | @reduceElem xs y h1 h2 =>
    have h1 : i.reduce.shift o.m o.ids = .tup xs := h1
    cases hr : i.reduce <;> rw [hr] at h1 <;> simp [ReduceVal.shift] at h1
    subst h1
    exact mem_vs h2
  | @reduceTarget v h1 =>
    have h1 : i.reduce.shift o.m o.ids = .str (some y) := h1
    cases hr : i.reduce <;> rw [hr] at h1 <;> simp [ReduceVal.shift] at h1
    obtain ⟨w, _, hw⟩ := h1
    exact ⟨w, hw.symm⟩
  | @factory f h1 =>
    obtain ⟨w, _, hw⟩ := Option.map_eq_some_iff.1 (show i.factory.map o.v = some y from h1)
    exact ⟨w, hw.symm⟩
  | exemplar => exact ⟨_, rfl⟩
  | dirAttr h => exact mem_fs h
  | hfield h => exact mem_fs h

theorem touches_new {w y : Val} (h : Touches (o.h x) (o.v w) y) : ∃ w', y = o.v w' := by
  generalize hz : o.v w = z at h
  cases h with
  | tuple h =>
    cases w <;> simp [Old.v, Val.shift] at hz
    obtain ⟨_, rfl⟩ := hz
    exact mem_vs h
  | set h =>
    cases w <;> simp [Old.v, Val.shift] at hz
    obtain ⟨_, rfl⟩ := hz
    exact mem_vs h
  | list h1 h2 =>
    cases w <;> simp [Old.v, Val.shift] at hz
    next a =>
      subst hz
      rw [show a + o.m = o.addr a from rfl, Old.h_get] at h1
      cases hx : x[a]? with
      | none => rw [hx] at h1; cases h1
      | some c =>
        rw [hx] at h1
        cases c <;> cases h1
        exact mem_vs h2
  | dictKey h1 h2 =>
    cases w <;> simp [Old.v, Val.shift] at hz
    subst hz
    obtain ⟨kvs0, rfl⟩ := get_dict h1
    exact (mem_kv h2).1
  | dictVal h1 h2 =>
    cases w <;> simp [Old.v, Val.shift] at hz
    subst hz
    obtain ⟨kvs0, rfl⟩ := get_dict h1
    exact (mem_kv h2).2
  | inst h1 h2 =>
    cases w <;> simp [Old.v, Val.shift] at hz
    next a =>
      subst hz
      rw [show a + o.m = o.addr a from rfl, Old.h_get] at h1
      cases hx : x[a]? with
      | none => rw [hx] at h1; cases h1
      | some c =>
        rw [hx] at h1
        cases c <;> cases h1
        exact holds_new h2

theorem within_new {w y : Val} (h : Within (o.h x) (o.v w) y) : ∃ w', y = o.v w' := by
  induction h with
  | self => exact ⟨w, rfl⟩
  | step _ h ih =>
    obtain ⟨w', rfl⟩ := ih
    exact touches_new h

/-- what there is before a call -/
def before (u : UState) : Old := ⟨u.heap, u.nextId, u.log⟩

theorem lift_before (u : UState) : (before u).lift {} = { u with objs := [], idx := [], proxies := [] } := by
  simp [Old.lift, before, Old.h, Val.shifts]

theorem restoreTop_lift {env : UEnv} (g : env.Globals) (n : Nat) (j : Json) (u : UState) :
    restoreTop env n j true u = (restoreTop env n j true {}).map ((before u).liftRun (before u).v) := by
  rw [← com_restoreTop g n j true {}, lift_before]
  rfl

theorem decode_lift {env : UEnv} (g : env.Globals) (n : Nat) (text : Str) (own : Bool) (u : UState) {j : Json}
    (hj : env.loads text = some j) :
    Api.decode env n text true own u = (Api.decode env n text true own {}).map ((before u).liftRun (before u).v) := by
  unfold Api.decode
  simp only [hj]
  rw [bind_run, bind_run, restoreTop_lift g]
  cases restoreTop env n j true {} with
  | none => rfl
  | some p =>
    obtain ⟨r, s⟩ := p
    cases r with
    | error e => rfl
    | ok v => cases own <;> rfl

end JP.Unpickler
