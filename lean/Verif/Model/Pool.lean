import Verif.Model.Arith
import Verif.Model.Particles

/-!
# Entities

The entities and the whole program of examples/usertypes/UsertypesExample.cpp.

Simplifications: `std::vector`, `std::find`, `std::remove` and `std::optional` do what the standard says; a vector never has more elements than fit.
-/

namespace Coil

/-- `class Entities` (UsertypesExample.cpp 63-92). An `EntityId` (UsertypesExample.cpp 37-40) is its index. -/
structure Pool where
  names : List Bytes
  focused : Int
  deriving DecidableEq

/-- `Entities::add` (UsertypesExample.cpp 66-71): the new id and the entities. -/
def Pool.add (p : Pool) (name : Bytes) : Int × Pool := (p.names.length, { p with names := p.names ++ [name] })

/-- `std::find` and `std::distance` (C++17 [alg.find]): the index of the first element that is equal. -/
def findFrom (name : Bytes) : List Bytes → Nat → Option Nat
  | [], _ => none
  | x :: rest, i => if x = name then some i else findFrom name rest (i + 1)

/-- `Entities::find` (UsertypesExample.cpp 73-80). -/
def Pool.find (p : Pool) (name : Bytes) : Option Int := (findFrom name p.names 0).map Int.ofNat

/-- The loop of `Entities::removeSome` (UsertypesExample.cpp 82-86); `std::remove` and `erase` keep the elements that are not equal, in order. -/
def removeLoop : List Bytes → List Bytes → List Bytes
  | [], l => l
  | name :: rest, l => removeLoop rest (l.filter (fun x => x ≠ name))

/-- `Entities::removeSome` (UsertypesExample.cpp 82-86). -/
def Pool.removeSome (p : Pool) (names : List Bytes) : Pool := { p with names := removeLoop names p.names }

/-- `TypeSerializer<EntityId>`, `TypeName<EntityId>` (UsertypesExample.cpp 99-120, 189-196); `sz` is the type `std::size_t`. -/
def entityIdConv (pl : Platform) (sz : IntType) : Conv Int where
  name := lit "EntityId"
  fromString v := do
    match ← (intConv pl sz).fromString v with
    | .ok index => .ok (.ok index)
    | .error e => .ok (.error (genericError (lit "EntityId") v e))
  toString k := lit "EntityId{" ++ intDec k ++ lit "}"

/-- The functions of the program. -/
inductive UserCode where
  | add | find | focus | setFocus | removeSome | spawn | posAt | pos | setPos | sum
  deriving DecidableEq

/-- The variables of the program: `entities`, `spawnedParticle` (UsertypesExample.cpp 203, 214). -/
structure UserWorld where
  pool : Pool
  particle : Particle
  deriving DecidableEq

/-- The member `focusedEntity` (UsertypesExample.cpp 88). -/
def focusRef : VarRef UserWorld Int := ⟨fun w => w.pool.focused, fun k w => { w with pool := { w.pool with focused := k } }⟩

/-- The variable `spawnedParticle` (UsertypesExample.cpp 214). -/
def spawnedRef : VarRef UserWorld Particle := ⟨fun w => w.particle, fun p w => { w with particle := p }⟩

/-- The functions of the program (UsertypesExample.cpp 204-207, 215-219). -/
def userFunctions (pl : Platform) (sz : IntType) (tiny : Nat → Nat → Bool) (nan : Fl → Fl → Bool) : UserCode → FunctorDef UserWorld UserCode Unit
  | .add => ⟨[⟨Bytes, stringConv⟩], Int, (entityIdConv pl sz).name, some (entityIdConv pl sz).toString, fun a =>
      .get fun w => .set { w with pool := (w.pool.add a.1).2 } (.ret (w.pool.add a.1).1)⟩
  | .find => ⟨[⟨Bytes, stringConv⟩], Option Int, (optConv (entityIdConv pl sz)).name, some (optConv (entityIdConv pl sz)).toString, fun a =>
      .get fun w => .ret (w.pool.find a.1)⟩
  | .focus => ⟨[], Int, (entityIdConv pl sz).name, some (entityIdConv pl sz).toString, fun _ => .get fun w => .ret (focusRef.read w)⟩
  | .setFocus => ⟨[⟨Int, entityIdConv pl sz⟩], Int, (entityIdConv pl sz).name, some (entityIdConv pl sz).toString, fun a =>
      .get fun w => .set (focusRef.write a.1 w) (.get fun w' => .ret (focusRef.read w'))⟩
  | .removeSome => ⟨[⟨List Bytes, dynConv stringConv⟩], Unit, lit "void", none, fun a =>
      .get fun w => .set { w with pool := w.pool.removeSome a.1 } (.ret ())⟩
  | .spawn => spawnDef tiny spawnedRef
  | .posAt => posAtDef tiny nan spawnedRef
  | .pos => ⟨[], Vec2, (vec2Conv tiny).name, some (vec2Conv tiny).toString, fun _ => .get fun w => .ret ((posRef spawnedRef).read w)⟩
  | .setPos => ⟨[⟨Vec2, vec2Conv tiny⟩], Vec2, (vec2Conv tiny).name, some (vec2Conv tiny).toString, fun a =>
      .get fun w => .set ((posRef spawnedRef).write a.1 w) (.get fun w' => .ret ((posRef spawnedRef).read w'))⟩
  | .sum => sumDef pl

/-- The commands in the order of their registration (UsertypesExample.cpp 204-207, 215-219). -/
def userTable : List (Bytes × List (UserCode × Unit)) :=
  [(lit "entities.add", [(.add, ())]), (lit "entities.find", [(.find, ())]), (lit "entities.focused_entity", [(.focus, ()), (.setFocus, ())]),
   (lit "entities.remove_some", [(.removeSome, ())]), (lit "particles.spawn", [(.spawn, ())]), (lit "particles.get_pos_at", [(.posAt, ())]),
   (lit "particles.last_particle_pos", [(.pos, ()), (.setPos, ())]), (lit "sum", [(.sum, ())])]

/-- The beginning: no entities, the first one focused, a particle with all members 0 (UsertypesExample.cpp 23-24, 88, 203, 209-214). -/
def UserWorld.start : UserWorld :=
  let zero : Fl := .fin false 0 Fmt.single.emin
  ⟨⟨[], 0⟩, ⟨⟨zero, zero⟩, ⟨zero, zero⟩⟩⟩

/-- The functions of the variables are those of `coil::variable` (UsertypesExample.cpp 206, 217). -/
example (pl : Platform) (sz : IntType) (tiny : Nat → Nat → Bool) (nan : Fl → Fl → Bool) :
    variableDefs (entityIdConv pl sz) focusRef = [userFunctions pl sz tiny nan .focus, userFunctions pl sz tiny nan .setFocus] ∧
    lastPosDefs tiny spawnedRef = [userFunctions pl sz tiny nan .pos, userFunctions pl sz tiny nan .setPos] := ⟨rfl, rfl⟩

end Coil
