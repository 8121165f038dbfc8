import Verif.Model.ErrorCommands
import Verif.Spec.Particles
import Mathlib.Analysis.Real.Sqrt

/-!
# Specification of the commands that report errors
-/

namespace Coil.Spec

/-- A text with the six leading digits of a number. -/
def SixLeading : Fl → Bytes → Prop
  | .fin neg m e, t => ∃ r, ReadsNumber t r ∧ |r - finVal neg m e| ≤ 5 / 10 ^ 6 * |finVal neg m e|
  | .inf neg, t => t = if neg then lit "-inf" else lit "inf"
  | .nan neg, t => t = if neg then lit "-nan" else lit "nan"

/-- The text tells the root of `q`. -/
def TellsRoot (t : Bytes) (q : ℚ) : Prop := ∃ r : ℚ, ReadsNumber t r ∧ |(r : ℝ) - √(q : ℝ)| ≤ 6 / 10 ^ 6 * √(q : ℝ) + 1 / 10 ^ 6

/-- A value that is not a number of type `float`, and the message. -/
inductive BadFloat : Value → Bytes → Prop
  | text {s : Bytes} : (¬ ∃ neg d, FloatText s neg d) → BadFloat ⟨[s]⟩ (cannotConvert (cstr s) (lit "float"))
  | large {s : Bytes} {neg : Bool} {q : ℚ} {m : Nat} {e : Int} : FloatText s neg (.number q) → Nearest .single q m e → Fmt.single.emax < e →
      BadFloat ⟨[s]⟩ (cannotConvert s (lit "float"))
  | parts {v : Value} : v.subvalues.length ≠ 1 →
      BadFloat v (cannotConvertBecause (cstr (joined v.subvalues)) (lit "float") (wrongSubvalues 1 v.subvalues.length))

/-- A text of a truth value, of a whole number of type `int`, and of a number of type `float`. -/
def IsBool (s : Bytes) : Prop := ∃ b, BoolWord s b
def IsInt (pl : Platform) (s : Bytes) : Prop := ∃ z, Numeral s z ∧ InRange pl .int z
def IsFloatText (s : Bytes) : Prop := (∃ q, FloatFits s q) ∨ ∃ neg d, FloatText s neg d ∧ (d = .infinity ∨ d = .notANumber)

/-- What `get_type_name` tells of a value: the first type it is a text of; or else what is wrong for each type. -/
inductive TypeTold (pl : Platform) : Value → List Bytes → Option Bytes → Prop
  | bool {s : Bytes} : IsBool s → TypeTold pl ⟨[s]⟩ [] (some (lit "bool"))
  | int {s : Bytes} : ¬ IsBool s → IsInt pl s → TypeTold pl ⟨[s]⟩ [] (some (lit "int"))
  | float {s : Bytes} : ¬ IsBool s → ¬ IsInt pl s → IsFloatText s → TypeTold pl ⟨[s]⟩ [] (some (lit "float"))
  | unknown {s : Bytes} : ¬ IsBool s → ¬ IsInt pl s → (¬ ∃ neg d, FloatText s neg d) →
      TypeTold pl ⟨[s]⟩ [lit "Unknown type", cannotConvert (cstr s) (lit "bool"), cannotConvert (cstr s) (IntType.int.name pl),
        cannotConvert (cstr s) (lit "float")] none
  | parts {v : Value} : v.subvalues.length ≠ 1 →
      TypeTold pl v (lit "Unknown type" :: [lit "bool", IntType.int.name pl, lit "float"].map fun type =>
        cannotConvertBecause (cstr (joined v.subvalues)) type (wrongSubvalues 1 v.subvalues.length)) none

/-- What `test_named_args` does: the errors and the text. It stops at the first required argument that is missing or wrong. -/
inductive NamedTold (pl : Platform) (tiny : Nat → Nat → Bool) (named : List Named) : List Bytes → Bytes → Prop
  | missing : NotNamed (lit "any_arg") named → NamedTold pl tiny named [lit "Missing named argument 'any_arg'"] []
  | noFloat {v : Value} {es : List Bytes} : FirstNamed (lit "any_arg") named v →
      Asked (singleConv tiny) (lit "float_arg") true none named es none → NamedTold pl tiny named es []
  | badInt {v : Value} {x : Fl} {m : Bytes} : FirstNamed (lit "any_arg") named v →
      Asked (singleConv tiny) (lit "float_arg") true none named [] (some x) → Asked (intConv pl .int) (lit "int_arg") false none named [m] none →
      NamedTold pl tiny named [m] []
  | noInt {v : Value} {x : Fl} {t : Bytes} : FirstNamed (lit "any_arg") named v →
      Asked (singleConv tiny) (lit "float_arg") true none named [] (some x) → NotNamed (lit "int_arg") named → SixLeading x t →
      NamedTold pl tiny named [] (cstr (joined v.subvalues) ++ lit ", " ++ t)
  | all {v : Value} {x : Fl} {t : Bytes} {z : Int} : FirstNamed (lit "any_arg") named v →
      Asked (singleConv tiny) (lit "float_arg") true none named [] (some x) → Asked (intConv pl .int) (lit "int_arg") false none named [] (some z) →
      SixLeading x t → NamedTold pl tiny named [] (cstr (joined v.subvalues) ++ lit ", " ++ t ++ lit ", " ++ intDec z)

end Coil.Spec
