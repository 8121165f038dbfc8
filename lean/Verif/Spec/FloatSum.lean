import Verif.Spec.Float

/-!
# Specification of the accuracy of floating-point sums
-/

namespace Coil.Spec

/-- The greatest number of a format. -/
def greatest (F : Fmt) : ℚ := mag (2 ^ F.prec - 1) F.emax

/-- The greatest relative error of one rounding. -/
def roundoff (F : Fmt) : ℚ := 1 / 2 ^ F.prec

/-- The sum of the magnitudes. -/
def absSum (qs : List ℚ) : ℚ := (qs.map fun q => |q|).sum

/-- A number that is not lost below the range of the format: it is not less than the least normal number, or it belongs to the format. -/
def NotTiny (F : Fmt) (q : ℚ) : Prop := leastNormal F ≤ |q| ∨ Member F |q|

end Coil.Spec
