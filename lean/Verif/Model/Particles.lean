import Verif.Model.NamedCommands

/-!
# Particles

The type `Vec2` and the commands `particles.spawn`, `particles.get_pos_at` and `particles.last_particle_pos` of
examples/usertypes/UsertypesExample.cpp.

Simplification: every operation with `float` is rounded to `float` (C++17 [expr] p13 permits a greater precision and range).
-/

namespace Coil

/-- `struct Vec2` (UsertypesExample.cpp 21-24). -/
structure Vec2 where
  x : Fl
  y : Fl
  deriving DecidableEq

/-- `Vec2::operator*` (UsertypesExample.cpp 26-29). -/
def Vec2.scale (nan : Fl → Fl → Bool) (v : Vec2) (t : Fl) : Vec2 := ⟨Fl.mul .single nan v.x t, Fl.mul .single nan v.y t⟩

/-- `Vec2::operator+` (UsertypesExample.cpp 31-34). -/
def Vec2.plus (nan : Fl → Fl → Bool) (v w : Vec2) : Vec2 := ⟨Fl.add .single nan v.x w.x, Fl.add .single nan v.y w.y⟩

/-- `TypeSerializer<Vec2>`, `TypeName<Vec2>` (UsertypesExample.cpp 122-145, 180-187). -/
def vec2Conv (tiny : Nat → Nat → Bool) : Conv Vec2 where
  name := lit "Vec2"
  fromString v :=
    match v.subvalues with
    | [a, b] => do
      let x ← (singleConv tiny).fromString ⟨[a]⟩
      let y ← (singleConv tiny).fromString ⟨[b]⟩
      match x, y with
      | .error e, _ => .ok (.error (genericError (lit "Vec2") v e))
      | .ok _, .error e => .ok (.error (genericError (lit "Vec2") v e))
      | .ok x, .ok y => .ok (.ok ⟨x, y⟩)
    | _ => .ok (.error (mismatchError (lit "Vec2") v 2))
  toString v := lit "(" ++ Fl.printF v.x ++ lit ", " ++ Fl.printF v.y ++ lit ")"

/-- `struct Particle` (UsertypesExample.cpp 209-213). -/
structure Particle where
  pos : Vec2
  vel : Vec2
  deriving DecidableEq

/-- The variable `spawnedParticle.pos` (UsertypesExample.cpp 214, 217). -/
def posRef {W : Type} (v : VarRef W Particle) : VarRef W Vec2 where
  read w := (v.read w).pos
  write p w := v.write { v.read w with pos := p } w

/-- The function object of `particles.spawn` (UsertypesExample.cpp 215). -/
def spawnDef {W C D : Type} (tiny : Nat → Nat → Bool) (v : VarRef W Particle) : FunctorDef W C D where
  params := [⟨Vec2, vec2Conv tiny⟩, ⟨Vec2, vec2Conv tiny⟩]
  R := Unit
  retName := lit "void"
  print := none
  body a := .get fun w => .set (v.write ⟨a.1, a.2.1⟩ w) (.ret ())

/-- The function object of `particles.get_pos_at` (UsertypesExample.cpp 216). -/
def posAtDef {W C D : Type} (tiny : Nat → Nat → Bool) (nan : Fl → Fl → Bool) (v : VarRef W Particle) : FunctorDef W C D where
  params := [⟨Fl, singleConv tiny⟩]
  R := Vec2
  retName := (vec2Conv tiny).name
  print := some (vec2Conv tiny).toString
  body a := .get fun w => .ret ((v.read w).pos.plus nan ((v.read w).vel.scale nan a.1))

/-- The function objects of `particles.last_particle_pos` (UsertypesExample.cpp 217). -/
def lastPosDefs {W C D : Type} (tiny : Nat → Nat → Bool) (v : VarRef W Particle) : List (FunctorDef W C D) :=
  variableDefs (vec2Conv tiny) (posRef v)

end Coil
