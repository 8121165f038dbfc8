import Verif.Model.Particles

/-!
# The particle system

The program of examples/compound/CompoundExample.cpp.

Simplifications: `std::stringstream` prints a `float` as `%g` does (C++17 [facet.num.put.virtuals] p5); every operation with `float` is rounded to
`float`; the name of the type `Point`, which comes from `typeid`, is a parameter (CustomTypeName.h 15-24).
-/

namespace Coil

/-- `struct Point` (CompoundExample.cpp 13-16). -/
structure Point where
  x : Fl
  y : Fl
  deriving DecidableEq

/-- `Point::operator+=` (CompoundExample.cpp 18-23). -/
def Point.add (nan : Fl → Fl → Bool) (p q : Point) : Point := ⟨Fl.add .single nan p.x q.x, Fl.add .single nan p.y q.y⟩

/-- `Point::operator*=` and `operator*` (CompoundExample.cpp 25-37). -/
def Point.mul (nan : Fl → Fl → Bool) (p : Point) (t : Fl) : Point := ⟨Fl.mul .single nan p.x t, Fl.mul .single nan p.y t⟩

/-- `Point::toString` (CompoundExample.cpp 39-44). -/
def Point.text (p : Point) : Bytes := lit "(" ++ Fl.printG p.x ++ lit "," ++ Fl.printG p.y ++ lit ")"

/-- `ParticleSystem::Particle` (CompoundExample.cpp 50-55). -/
structure Mote where
  id : Bytes
  pos : Point
  vel : Point
  deriving DecidableEq

/-- `ParticleSystem::add` (CompoundExample.cpp 57-60). -/
def Mote.added (l : List Mote) (id : Bytes) (p v : Point) : List Mote := l ++ [⟨id, p, v⟩]

/-- `ParticleSystem::get` (CompoundExample.cpp 62-69). -/
def Mote.get : List Mote → Bytes → Option Mote
  | [], _ => none
  | m :: l, id => if m.id = id then some m else Mote.get l id

/-- `ParticleSystem::update` (CompoundExample.cpp 71-75). -/
def Mote.update (nan : Fl → Fl → Bool) (dt : Fl) : List Mote → List Mote
  | [] => []
  | m :: l => { m with pos := m.pos.add nan (m.vel.mul nan dt) } :: Mote.update nan dt l

/-- `TypeSerializer<Point>` (CompoundExample.cpp 89-111). -/
def pointConv (tiny : Nat → Nat → Bool) (name : Bytes) : Conv Point where
  name := name
  fromString v :=
    match v.subvalues with
    | [a, b] => do
      let x ← (singleConv tiny).fromString ⟨[a]⟩
      let y ← (singleConv tiny).fromString ⟨[b]⟩
      match x, y with
      | .error e, _ => .ok (.error (genericError name v e))
      | .ok _, .error e => .ok (.error (genericError name v e))
      | .ok x, .ok y => .ok (.ok ⟨x, y⟩)
    | _ => .ok (.error (mismatchError name v 2))
  toString := Point.text

/-- `TypeSerializer<ParticleSystem::Particle>::toString` (CompoundExample.cpp 114-123). -/
def Mote.text (m : Mote) : Bytes := lit "{'" ++ m.id ++ lit "': p " ++ m.pos.text ++ lit ", v " ++ m.vel.text ++ lit "}"

/-- `TypeSerializer<Particle*>::toString` (TypeSerializer.h 99-112). -/
def Mote.pointerText : Option Mote → Bytes
  | none => lit "null"
  | some m => m.text

/-- The functions of the program. -/
inductive SwarmCode where
  | add
  | get
  | update
  | list
  | pivot
  | setPivot
  | sumAll
  | orPi
  deriving DecidableEq

/-- The variables of `CompoundExample::run` (CompoundExample.cpp 131, 143). -/
structure SwarmWorld where
  motes : List Mote
  pivot : Point

/-- The variable `pivot` (CompoundExample.cpp 143-144). -/
def pivotRef : VarRef SwarmWorld Point := ⟨fun w => w.pivot, fun p w => { w with pivot := p }⟩

/-- The loop of `particles.list` (CompoundExample.cpp 139-140): `context.loglinef("%s\t%s\t%s", ...)`. -/
def listMotes : List Mote → Prog SwarmWorld SwarmCode Unit Unit
  | [] => .ret ()
  | m :: l => .logline (cstr m.id ++ lit "\t" ++ cstr m.pos.text ++ lit "\t" ++ cstr m.vel.text) (listMotes l)

/-- The constant `3.14f` (CompoundExample.cpp 148). -/
def orPiF : Fl := Fl.roundTo .single false (314, 100)

/-- The functions of the program (CompoundExample.cpp 133-148); `sid` is the name of the type `ParticleSystem::Particle`. -/
def swarmFunctions (tiny : Nat → Nat → Bool) (nan : Fl → Fl → Bool) (name sid : Bytes) : SwarmCode → FunctorDef SwarmWorld SwarmCode Unit
  | .add => ⟨[⟨Bytes, stringConv⟩, ⟨Point, pointConv tiny name⟩, ⟨Point, pointConv tiny name⟩], Unit, lit "void", none, fun a =>
      .get fun w => .set { w with motes := Mote.added w.motes a.1 a.2.1 a.2.2.1 } (.ret ())⟩
  | .get => ⟨[⟨Bytes, stringConv⟩], Option Mote, sid, some Mote.pointerText, fun a => .get fun w => .ret (Mote.get w.motes a.1)⟩
  | .update => ⟨[⟨Fl, singleConv tiny⟩], Unit, lit "void", none, fun a =>
      .get fun w => .set { w with motes := Mote.update nan a.1 w.motes } (.ret ())⟩
  | .list => ⟨[], Unit, lit "void", none, fun _ =>
      .logline (lit "ID\tPos\tVel") (.logline (lit "--\t---\t---") (.get fun w => listMotes w.motes))⟩
  | .pivot => ⟨[], Point, name, some Point.text, fun _ => .get fun w => .ret (pivotRef.read w)⟩
  | .setPivot => ⟨[⟨Point, pointConv tiny name⟩], Point, name, some Point.text, fun a =>
      .get fun w => .set (pivotRef.write a.1 w) (.get fun w' => .ret (pivotRef.read w'))⟩
  | .sumAll => sumAllDef tiny nan
  | .orPi => ⟨[⟨Option Fl, optConv (singleConv tiny)⟩], Fl, lit "float", some (singleConv tiny).toString, fun a => .ret (a.1.getD orPiF)⟩

/-- The commands in the order of their registration (CompoundExample.cpp 133-148). -/
def swarmTable : List (Bytes × List (SwarmCode × Unit)) :=
  [(lit "particles.add", [(.add, ())]), (lit "particles.get", [(.get, ())]), (lit "particles.update", [(.update, ())]),
   (lit "particles.list", [(.list, ())]), (lit "pivot", [(.pivot, ()), (.setPivot, ())]), (lit "sum_all", [(.sumAll, ())]),
   (lit "get_arg_or_pi", [(.orPi, ())])]

/-- The beginning: no particles, the pivot at 0 (CompoundExample.cpp 15-16, 83, 131, 143). -/
def SwarmWorld.start : SwarmWorld := ⟨[], ⟨.fin false 0 Fmt.single.emin, .fin false 0 Fmt.single.emin⟩⟩

/-- The functions of the variable are those of `coil::variable` (CompoundExample.cpp 144). -/
example (tiny : Nat → Nat → Bool) (nan : Fl → Fl → Bool) (name sid : Bytes) :
    variableDefs (pointConv tiny name) pivotRef = [swarmFunctions tiny nan name sid .pivot, swarmFunctions tiny nan name sid .setPivot] := rfl

end Coil
