import Verif.Model.Enums

/-!
# The programs of examples/enums/EnumsExample.cpp and examples/flags/FlagsExample.cpp

Simplification: as in `Model/Enums.lean`. The underlying type of the unscoped enumeration `ResetMode` is chosen by the compiler (C++17 [dcl.enum]
p7); it is a parameter here.
-/

namespace Coil

/-! ## examples/enums -/

/-- `PlayerAbilitySystem::Ability` (EnumsExample.cpp 17-23). -/
def abilityDecl : EnumDecl := ⟨lit "Ability", .int, true, [(lit "None", 0), (lit "SpeedBoost", 1), (lit "IncreasedHealth", 2)]⟩

/-- `PlayerAbilitySystem::ResetMode` (EnumsExample.cpp 25-31). -/
def resetModeDecl (u : IntType) : EnumDecl := ⟨lit "ResetMode", u, false, [(lit "Never", 0), (lit "AfterDelay", 1), (lit "AfterDeath", 2)]⟩

/-- `VariableType` (EnumsExample.cpp 58-63). -/
def variableTypeDecl : EnumDecl := ⟨lit "VariableType", .int, true, [(lit "Integer", 0), (lit "Float", 1), (lit "String", 2)]⟩

/-- The members of `abilities`, and `variableType` (EnumsExample.cpp 48-49, 56, 65). -/
structure EnumWorld where
  ability : Int
  resetMode : Int
  variableType : Int
  deriving DecidableEq

/-- The functions of the program (EnumsExample.cpp 33-45; Variable.h 9-19). -/
inductive EnumCode where
  | setAbility | getAbility | getResetMode | readType | writeType
  deriving DecidableEq

/-- `variableType` (EnumsExample.cpp 65, 70). -/
def variableTypeRef : VarRef EnumWorld Int := ⟨fun w => w.variableType, fun x w => { w with variableType := x }⟩

/-- The functions (EnumsExample.cpp 33-45, 67-70; Variable.h 9-19). -/
def enumFunctions (pl : Platform) (u : IntType) : EnumCode → FunctorDef EnumWorld EnumCode Unit
  | .setAbility => ⟨[⟨Int, enumConv pl abilityDecl⟩, ⟨Int, enumConv pl (resetModeDecl u)⟩], Unit, lit "void", none, fun a =>
      .get fun w => .set { w with ability := a.1, resetMode := a.2.1 } (.ret ())⟩
  | .getAbility => ⟨[], Int, (enumConv pl abilityDecl).name, some (enumConv pl abilityDecl).toString, fun _ => .get fun w => .ret w.ability⟩
  | .getResetMode => ⟨[], Int, (enumConv pl (resetModeDecl u)).name, some (enumConv pl (resetModeDecl u)).toString, fun _ =>
      .get fun w => .ret w.resetMode⟩
  | .readType => ⟨[], Int, (enumConv pl variableTypeDecl).name, some (enumConv pl variableTypeDecl).toString, fun _ =>
      .get fun w => .ret (variableTypeRef.read w)⟩
  | .writeType => ⟨[⟨Int, enumConv pl variableTypeDecl⟩], Int, (enumConv pl variableTypeDecl).name, some (enumConv pl variableTypeDecl).toString, fun a =>
      .get fun w => .set (variableTypeRef.write a.1 w) (.get fun w' => .ret (variableTypeRef.read w'))⟩

/-- The functions of `variable_type` are those of `coil::variable`. -/
example (pl : Platform) (u : IntType) :
    variableDefs (enumConv pl variableTypeDecl) variableTypeRef = [enumFunctions pl u .readType, enumFunctions pl u .writeType] := rfl

/-- The commands in the order of their registration (EnumsExample.cpp 67-70). -/
def enumTable : List (Bytes × List (EnumCode × Unit)) :=
  [(lit "abilities.set_ability", [(.setAbility, ())]), (lit "abilities.get_ability", [(.getAbility, ())]),
   (lit "abilities.get_reset_mode", [(.getResetMode, ())]), (lit "variable_type", [(.readType, ()), (.writeType, ())])]

/-- The beginning (EnumsExample.cpp 48-49, 65). -/
def EnumWorld.start : EnumWorld := ⟨0, 0, 2⟩

/-! ## examples/flags -/

/-- `EntityDebugDrawFlags` (FlagsExample.cpp 12-18). -/
def drawDecl : EnumDecl := ⟨lit "EntityDebugDrawFlags", .int, true,
  [(lit "DrawBoundingBox", 1), (lit "DrawOrigin", 2), (lit "DrawWireframe", 4), (lit "DrawName", 8)]⟩

/-- The functions of the program (FlagsExample.cpp 53-63, 76-85). -/
inductive FlagsCode where
  | read | write | draw
  deriving DecidableEq

/-- The body of `entity.draw` (FlagsExample.cpp 77-84), as a loop over its parts. -/
def drawLoop (pl : Platform) : List (Int × Bytes) → Prog Int FlagsCode Unit Unit
  | [] => .ret ()
  | (x, t) :: rest => .get fun flags => if IntType.int.and pl flags x = x then .logline t (drawLoop pl rest) else drawLoop pl rest

/-- The parts of `entity.draw` (FlagsExample.cpp 77-84). -/
def drawParts : List (Int × Bytes) :=
  [(1, lit "Drawing bounding box"), (2, lit "Drawing origin"), (4, lit "Drawing wireframe"), (8, lit "Drawing name")]

/-- `flags` (FlagsExample.cpp 73). -/
def drawRef : VarRef Int Int := ⟨fun w => w, fun x _ => x⟩

/-- The functions (FlagsExample.cpp 53-63, 75-85). -/
def flagsFunctions (pl : Platform) : FlagsCode → FunctorDef Int FlagsCode Unit
  | .read => ⟨[], Bytes, stringConv.name, some stringConv.toString, fun _ => .get fun w => .ret (flagsName pl drawDecl (drawRef.read w))⟩
  | .write => ⟨[⟨List Int, vecConv (enumConv pl drawDecl)⟩], Bytes, stringConv.name, some stringConv.toString, fun a =>
      (Prog.ofRes (drawDecl.cast (flagsLoop pl drawDecl.underlying a.1 0))).bind fun x =>
        .get fun w => .set (drawRef.write x w) (.get fun w' => .ret (flagsName pl drawDecl (drawRef.read w')))⟩
  | .draw => ⟨[], Unit, lit "void", none, fun _ => drawLoop pl drawParts⟩

/-- The functions of `entity.flags` are those of `flagsVariable`. -/
example (pl : Platform) : flagsVariableDefs pl drawDecl drawRef = [flagsFunctions pl .read, flagsFunctions pl .write] := rfl

/-- The commands in the order of their registration (FlagsExample.cpp 75-76). -/
def flagsTable : List (Bytes × List (FlagsCode × Unit)) :=
  [(lit "entity.flags", [(.read, ()), (.write, ())]), (lit "entity.draw", [(.draw, ())])]

/-- The beginning (FlagsExample.cpp 73). -/
def flagsStart (pl : Platform) : Int := IntType.int.or pl 1 8

end Coil
