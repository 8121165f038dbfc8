import Verif.Model.Particles
import Verif.Spec.FloatSum
import Verif.Spec.NamedCommands

/-!
# Specification of the particles
-/

namespace Coil.Spec

/-- The text of two numbers, with six digits after the point. -/
def PairText (v : Vec2) (t : Bytes) : Prop := ∃ a b, t = lit "(" ++ a ++ lit ", " ++ b ++ lit ")" ∧ SixPlaces v.x a ∧ SixPlaces v.y b

/-- The text is the one of a number that `float` can hold. -/
def FloatFits (t : Bytes) (q : ℚ) : Prop := ReadsNumber t q ∧ NotTiny .single q ∧ |q| ≤ greatest .single

/-- A value that is not two numbers, and the message. The first wrong part is the one that is told. -/
inductive BadPair : Value → Bytes → Prop
  | count {v : Value} : v.subvalues.length ≠ 2 →
      BadPair v (cannotConvertBecause (cstr (joined v.subvalues)) (lit "Vec2") (wrongSubvalues 2 v.subvalues.length))
  | first {a b : Bytes} : (¬ ∃ neg d, FloatText a neg d) →
      BadPair ⟨[a, b]⟩ (cannotConvertBecause (cstr (joined [a, b])) (lit "Vec2") (cannotConvert (cstr a) (lit "float")))
  | second {a b : Bytes} {q : ℚ} : FloatFits a q → (¬ ∃ neg d, FloatText b neg d) →
      BadPair ⟨[a, b]⟩ (cannotConvertBecause (cstr (joined [a, b])) (lit "Vec2") (cannotConvert (cstr b) (lit "float")))

/-- A text tells a number, up to an error. -/
def Tells (t : Bytes) (q err : ℚ) : Prop := ∃ r, ReadsNumber t r ∧ |r - q| ≤ err

/-- A name that needs no quotes. -/
def Bare (name : Bytes) : Prop := name ≠ [] ∧ ∀ c ∈ name, c ∉ lit " \t\n\r,;|()'\"="

end Coil.Spec
