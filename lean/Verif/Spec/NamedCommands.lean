import Verif.Model.NamedCommands
import Verif.Spec.Float
import Verif.Spec.Inventory

/-!
# Specification of commands with named arguments
-/

namespace Coil.Spec

/-- A text of a number with six digits after the point, correct to half of the last one. The six digits of a whole number are zeros. -/
def SixPlaces : Fl → Bytes → Prop
  | .fin neg m e, t => ∃ k f r, t = (if neg then lit "-" else []) ++ (natDec k ++ lit "." ++ f) ∧ f.length = 6 ∧ ReadsNumber t r ∧
      |r - finVal neg m e| ≤ 5 / 10 ^ 7 ∧ ∀ z : Int, finVal neg m e = z → z ≠ 0 → t = intDec z ++ lit ".000000"
  | .inf neg, t => t = if neg then lit "-inf" else lit "inf"
  | .nan neg, t => t = if neg then lit "-nan" else lit "nan"

/-- A line for each named argument that is a number of type `float`, in their order. -/
inductive FloatLines (tiny : Nat → Nat → Bool) : List Named → Bytes → Prop
  | nil : FloatLines tiny [] []
  | number {nv : Named} {rest : List Named} {x : Fl} {t out : Bytes} : (singleConv tiny).fromString nv.value = .ok (.ok x) → SixPlaces x t →
      FloatLines tiny rest out → FloatLines tiny (nv :: rest) (cstr nv.key ++ lit ": " ++ t ++ lit "\n" ++ out)
  | other {nv : Named} {rest : List Named} {m out : Bytes} : (singleConv tiny).fromString nv.value = .ok (.error m) →
      FloatLines tiny rest out → FloatLines tiny (nv :: rest) out

/-- The name of a kind of saved game; nothing for other numbers. -/
def saveName (t : Int) : Bytes := if t = 0 then lit "Disk" else if t = 1 then lit "Memory" else []

/-- What is shown of a value, and the errors: it is a truth value, or else a whole number, or else there are two errors. -/
inductive AnyShown (pl : Platform) (label : Bytes) (v : Value) : List Bytes → Bytes → Prop
  | yes : (boolConv pl).fromString v = .ok (.ok true) → AnyShown pl label v [] (label ++ lit "true\n")
  | no : (boolConv pl).fromString v = .ok (.ok false) → AnyShown pl label v [] (label ++ lit "false\n")
  | whole {eb : Bytes} {z : Int} : (boolConv pl).fromString v = .ok (.error eb) → (intConv pl .int).fromString v = .ok (.ok z) →
      AnyShown pl label v [] (label ++ intDec z ++ lit "\n")
  | neither {eb ei : Bytes} : (boolConv pl).fromString v = .ok (.error eb) → (intConv pl .int).fromString v = .ok (.error ei) →
      AnyShown pl label v [eb, ei] []

/-- The same for an argument that may be missing. -/
inductive OptionalShown (pl : Platform) (label key : Bytes) (named : List Named) : List Bytes → Bytes → Prop
  | missing : NotNamed key named → OptionalShown pl label key named [] []
  | there {v : Value} {es : List Bytes} {out : Bytes} : FirstNamed key named v → AnyShown pl label v es out →
      OptionalShown pl label key named es out

end Coil.Spec
