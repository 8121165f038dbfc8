import Verif.Model.Basic

/-!
# `COIL_ASSERT` in builds with assertions (include/coil/detail/Assert.h, `COIL_CONFIG_ENABLE_ASSERTS`)
-/

namespace Coil

/-- `COIL_ASSERT(c)` (Assert.h 5-9): stops the program unless `c` holds. -/
def assertThat (c : Prop) [Decidable c] : Res Unit := if c then .ok () else .ub .assertion

/-- Reading through `Vector::operator[]` (Vector.h 233-238). -/
def readC {α : Type} (l : List α) (i : Nat) : Res α := do
  assertThat (i < l.length)
  readAt l i

/-- Writing an element through `Vector::operator[]` (Vector.h 240-245). -/
def writeC {α : Type} (l : List α) (i : Nat) (a : α) : Res (List α) := do
  assertThat (i < l.length)
  writeAt l i a

end Coil
