import Verif.Model.ErrorProgram
import Verif.Spec.Account
import Verif.Spec.BasicExample
import Verif.Spec.ErrorCommands
import Verif.Spec.Swarm

/-!
# Specification of the program of examples/errors
-/

namespace Coil.Spec

/-- A value that is not read as a number of type `float`, and the message. The C library may refuse a number that is so small that it is rounded. -/
inductive FloatError (tiny : Nat → Nat → Bool) : Value → Bytes → Prop
  | bad {v m} : BadFloat v m → FloatError tiny v m
  | small {s neg q m e} : FloatText s neg (.number q) → Nearest .single q m e → q < leastNormal .single → q ≠ mag m e →
      (¬ ∃ x, ReadsFloat tiny s x) → FloatError tiny ⟨[s]⟩ (cannotConvert s (lit "float"))

/-- What `get_type_name` tells of a value: the first type it is read as; or else what is wrong for each type. -/
inductive TypeAnswer (pl : Platform) (tiny : Nat → Nat → Bool) : Value → Outcome → Prop
  | bool {s} : IsBool s → TypeAnswer pl tiny ⟨[s]⟩ (.good (some (lit "bool")) [])
  | int {s} : ¬ IsBool s → IsInt pl s → TypeAnswer pl tiny ⟨[s]⟩ (.good (some (lit "int")) [])
  | float {s x} : ¬ IsBool s → ¬ IsInt pl s → ReadsFloat tiny s x → TypeAnswer pl tiny ⟨[s]⟩ (.good (some (lit "float")) [])
  | unknown {s m} : ¬ IsBool s → ¬ IsInt pl s → FloatError tiny ⟨[s]⟩ m →
      TypeAnswer pl tiny ⟨[s]⟩ (.bad [lit "Unknown type", cannotConvert (upToNul s) (lit "bool"), cannotConvert (upToNul s) (IntType.int.name pl), m])
  | parts {v} : v.subvalues.length ≠ 1 →
      TypeAnswer pl tiny v (.bad (lit "Unknown type" :: [lit "bool", IntType.int.name pl, lit "float"].map fun type =>
        cannotConvertBecause (upToNul (joined v.subvalues)) type (wrongSubvalues 1 v.subvalues.length)))

/-- What the commands do. -/
inductive ErrorTold (pl : Platform) (tiny : Nat → Nat → Bool) (nan : Fl → Bool) : Account Unit
  | root {name t x named} : name = lit "sqrt_context" ∨ name = lit "sqrt_except" → ReadsFloat tiny t x → Fl.isNegative x = false →
      ErrorTold pl tiny nan () ⟨name, [⟨[t]⟩], named⟩ () (.good (some ((singleConv tiny).toString (Fl.sqrt .single nan x))) [])
  | reported {t x named} : ReadsFloat tiny t x → Fl.isNegative x = true →
      ErrorTold pl tiny nan () ⟨lit "sqrt_context", [⟨[t]⟩], named⟩ () (.bad [lit "Value should be non-negative!"])
  | thrown {t x named} : ReadsFloat tiny t x → Fl.isNegative x = true →
      ErrorTold pl tiny nan () ⟨lit "sqrt_except", [⟨[t]⟩], named⟩ () ⟨[], none, [], some (.std (lit "Value should be non-negative!"))⟩
  | float {t x named} : ReadsFloat tiny t x → ErrorTold pl tiny nan () ⟨lit "get_float", [⟨[t]⟩], named⟩ () (.good (some ((singleConv tiny).toString x)) [])
  | noFloat {v m named} : FloatError tiny v m → ErrorTold pl tiny nan () ⟨lit "get_float", [v], named⟩ () (.bad [m])
  | type {v o named} : TypeAnswer pl tiny v o → ErrorTold pl tiny nan () ⟨lit "get_type_name", [v], named⟩ () o
  | named {es text named} : NamedTold pl tiny named es text → ErrorTold pl tiny nan () ⟨lit "test_named_args", [], named⟩ () ⟨es, none, text, none⟩

/-- The commands that make the program undefined: `get_type_name` of an odd word, where `char` is signed. -/
def ErrorTrouble (pl : Platform) (i : Input) : Prop :=
  pl.charSigned = true ∧ i.name = lit "get_type_name" ∧ ∃ t, i.arguments = [⟨[t]⟩] ∧ OddWord t

end Coil.Spec
