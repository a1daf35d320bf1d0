import Verif.Api
import Verif.JsonText
import Verif.DecEq
/-!
# The sample program

A small program and graphs of its objects, used in the examples.
-/
namespace JP.C41
open JP JsonText

/-- A way to write floating point numbers: `f` and the bits in decimal. -/
def sampleFloat : FloatText where
  «show» f := 102 :: natText (f.toNat + 1) f.toNat
  read s := match s with
    | 102 :: r => if isNat r then some (UInt64.ofNat (natVal r)) else none
    | _ => none

end JP.C41

namespace JP.Sample
open JP

/-- what the sample program defines -/
structure Program where
  infos : List (Str × ClassInfo) := []
  /-- facts about what the functions return -/
  made : List (Str × ClassInfo) := []
  funcs : List Str := []
  handlers : List (Str × HKind) := []

/-- the encoder's world: the standard JSON backend, every object prints as `R` -/
def Program.world (p : Program) (h : Heap) : World where
  heap := h
  repr _ := .ok p!"R"
  pystr _ := .ok p!"S"
  dumps := JsonText.dumps C41.sampleFloat
  handler n := dget n p.handlers

/-- the decoder's environment: all classes and functions of the program, and the module `m`, can be found -/
def Program.env (p : Program) (keys : Bool := false) : UEnv where
  keys := keys
  loadclass n := if dhas n p.infos then some (.type n) else if p.funcs.contains n then some (.func n) else none
  classInfo n := ((dget n p.infos).orElse fun _ => dget n p.made).getD {}
  handler n := dget n p.handlers
  loadmodule s := if s = p!"m/m" then .ok (some (.module p!"m")) else .error .importError
  loadrepr _ := .error .importError
  loads := JsonText.loads C41.sampleFloat

/-- encode, then decode in a new interpreter: the result and its heap -/
def Program.trip (p : Program) (h : Heap) (cfg : PCfg) (n : Nat) (v : Val) : Option (Val × Heap) :=
  match Api.encode (p.world h) cfg n v true {} with
  | some (.ok text, _) => match Api.decode (p.env cfg.keys) n text true true {} with
    | some (.ok x, u) => some (x, u.heap)
    | _ => none
  | _ => none

/-! ### a graph with every supported kind of object -/

def infoC : ClassInfo := {}
def infoS : ClassInfo := { hasDict := false, hasSlots := true, slots := [p!"p", p!"q"] }
def infoG : ClassInfo := { ownGetstate := true, hasSetstate := true }
def infoA : ClassInfo := { ownGetstate := true }
def infoL : ClassInfo := { base := .list }
def infoD : ClassInfo := { base := .dict }
def infoN : ClassInfo := { base := .tuple, hasDict := false, hasNewargs := true, numFields := some 2 }
def infoR : ClassInfo := { reduces := true, hasSetstate := true, hasAppend := true, hasSetitem := true }

def program : Program where
  infos := [(p!"m.C", infoC), (p!"m.S", infoS), (p!"m.G", infoG), (p!"m.L", infoL), (p!"m.D", infoD),
    (p!"m.N", infoN), (p!"m.R", infoR), (p!"m.H", infoC), (p!"m.A", infoA)]
  made := [(p!"m.f", infoR)]
  funcs := [p!"m.f"]
  handlers := [(p!"m.H", .record)]

/-- ```
l = [l, c, c, d, (1, s), {1, "a"}, 0.0, b"\x01\x02", bytearray(b"\x03"), C, f, m, g, L([l]), D, N(1, e), R, H, A]
``` -/
def graph : Heap := [
  .list [.ref 0, .ref 1, .ref 1, .ref 2, .tuple 1 [.int 1, .ref 3], .set 2 [.int 1, .str p!"a"], .float 0, .bytes 3 [1, 2],
    .bytearray 4 [3], .type p!"m.C", .func p!"m.f", .module p!"m", .ref 4, .ref 6, .ref 7, .ref 8, .ref 9, .ref 10, .ref 12],
  .inst { cls := p!"m.C", info := infoC, attrs := [(p!"x", .ref 0), (p!"me", .ref 1)] },
  .dict [(.str p!"a", .ref 1), (.str p!"b", .ref 2), (.str p!"c", .none)],
  .inst { cls := p!"m.S", info := infoS, attrs := [(p!"p", .ref 0)] },
  .inst { cls := p!"m.G", info := infoG, state := .ok (.ref 5) },
  .dict [(.str p!"s", .ref 4)],
  .inst { cls := p!"m.L", info := infoL, elems := [.ref 0, .ref 6], attrs := [(p!"y", .ref 2)] },
  .inst { cls := p!"m.D", info := infoD, items := [(.str p!"k", .ref 7)], attrs := [(p!"z", .ref 1)], factory := some (.type p!"m.C") },
  .inst { cls := p!"m.N", info := infoN, newargs := .tuple 5 [.int 1, .ref 11], elems := [.int 1, .ref 11] },
  .inst { cls := p!"m.R", info := infoR, reduce := .tup [.func p!"m.f", .tuple 6 [.int 1, .ref 11],
    .tuple 7 [.int 1, .ref 11], .tuple 8 [.int 1, .ref 11], .tuple 9 [.tuple 10 [.int 1, .ref 11]]] },
  .inst { cls := p!"m.H", info := infoC, hfields := [(p!"v", .ref 11)] },
  .list [],
  .inst { cls := p!"m.A", info := infoA, state := .ok (.ref 13), attrs := [(p!"cache", .ref 0)] },
  .dict [(.str p!"root", .ref 0), (.str p!"me", .ref 12), (.str p!"n", .int 1)]]

/-- a dict with keys of all supported kinds, some of them sharing nothing with the rest:
`{None: d, True: l, -1: l, 0.5: 1, "a": l, (1, (None, "b")): 2, b"\x01": 3, C: 4, f: 5}` -/
def keyed : Heap := [
  .dict [(.none, .ref 0), (.bool true, .ref 1), (.int (-1), .ref 1), (.float 0x3fe0000000000000, .int 1), (.str p!"a", .ref 1),
    (.tuple 1 [.int 1, .tuple 2 [.none, .str p!"b"]], .int 2), (.bytes 3 [1], .int 3), (.type p!"m.C", .int 4), (.func p!"m.f", .int 5)],
  .list []]

/-- a dict whose keys collide with the notation: `{"a": l, 5: d, "py/object": l, "json://x": [], "py/id": d}` -/
def colliding : Heap := [
  .dict [(.str p!"a", .ref 1), (.int 5, .ref 0), (.str p!"py/object", .ref 1), (.str p!"json://x", .ref 2), (.str p!"py/id", .ref 0)],
  .list [], .list []]

end JP.Sample
