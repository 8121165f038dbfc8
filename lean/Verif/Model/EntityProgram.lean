import Verif.Model.Variadic

/-!
# The program of examples/variadic/VariadicExample.cpp
-/

namespace Coil

/-- The functions of the program (VariadicExample.cpp 84-86). -/
inductive EntityCode where
  | rename | list | add
  deriving DecidableEq

/-- The variable `entities` (VariadicExample.cpp 83): the state of the program. -/
def theEntities : EntitiesAt (List Entity) := ⟨fun w => w, fun _ x => x⟩

/-- The functions (VariadicExample.cpp 37-73). -/
def entityFunctions (pl : Platform) : EntityCode → FunctorDef (List Entity) EntityCode Unit
  | .rename => renameDef pl theEntities
  | .list => listDef theEntities
  | .add => addEntityDef pl theEntities

/-- The commands in the order of their registration (VariadicExample.cpp 84-86). -/
def entityTable : List (Bytes × List (EntityCode × Unit)) :=
  [(lit "entities.rename", [(.rename, ())]), (lit "entities.list", [(.list, ())]), (lit "entities.add", [(.add, ())])]

end Coil
