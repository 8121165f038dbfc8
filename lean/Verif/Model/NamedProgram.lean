import Verif.Model.Kept
import Verif.Model.NamedCommands

/-!
# The program of examples/named/NamedExample.cpp

Simplifications: those of `Model/NamedCommands.lean`. The inventory keeps copies of the names, where the code keeps views of the entered lines; as
long as the lines stay in place, as they do in the example, this is the same (C95).
-/

namespace Coil
open Vw

/-- The functions of the program (NamedExample.cpp 179-185). -/
inductive NamedCode where
  | list | add | args | floats | save | both
  deriving DecidableEq

/-- The functions (NamedExample.cpp 179-185). -/
def namedFunctions (pl : Platform) (tiny : Nat → Nat → Bool) : NamedCode → FunctorDef (List (Item Bytes)) NamedCode Unit
  | .list => listTextDef pl .ulong
  | .add => addTextDef pl .ulong
  | .args => printArgsDef
  | .floats => printFloatsDef tiny
  | .save => saveGameDef pl tiny
  | .both => requiredAndOptionalDef pl

/-- The commands in the order of their registration (NamedExample.cpp 179-185). -/
def namedTable : List (Bytes × List (NamedCode × Unit)) :=
  [(lit "inventory.list", [(.list, ())]), (lit "inventory.add", [(.add, ())]), (lit "print_args", [(.args, ())]),
   (lit "print_floats", [(.floats, ())]), (lit "save_game", [(.save, ())]), (lit "required_and_optional", [(.both, ())])]

/-- The items at the beginning (NamedExample.cpp 101-110). -/
def namedStart : List (Item Bytes) :=
  [⟨0, lit "coin", 7000, 1, 3⟩, ⟨1, lit "gems", 40, 2, 3⟩, ⟨2, lit "sword", 1, 1, 2⟩, ⟨3, lit "machete", 1, 2, 2⟩, ⟨4, lit "katana", 1, 1, 2⟩,
    ⟨5, lit "rifle", 1, 1, 2⟩, ⟨6, lit "knife", 2, 2, 2⟩, ⟨7, lit "key", 1, 1, 1⟩]

end Coil
