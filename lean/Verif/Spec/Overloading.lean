import Verif.Spec.BasicExample
import Verif.Spec.NamedCommands
import Verif.Model.Overloading

/-!
# Specification of the program of examples/overloading

Nothing is ever changed, so that there is only one history.
-/

namespace Coil.Spec

/-- What the commands do: the number of the arguments decides. -/
inductive OverTold (pl : Platform) (tiny : Nat → Nat → Bool) : Telling Unit
  | func0 {named} : OverTold pl tiny () ⟨lit "func", [], named⟩ () (some (lit "func1")) []
  | func1 {t z named} : IntText pl t z → OverTold pl tiny () ⟨lit "func", [⟨[t]⟩], named⟩ () (some (lit "func2")) []
  | func2 {t z s x named} : IntText pl t z → ReadsFloat tiny s x →
      OverTold pl tiny () ⟨lit "func", [⟨[t]⟩, ⟨[s]⟩], named⟩ () (some (lit "func3")) []
  | mixed0 {named} : OverTold pl tiny () ⟨lit "mixed_func", [], named⟩ () (some (lit "lambda1")) []
  | mixed1 {t z named} : IntText pl t z → OverTold pl tiny () ⟨lit "mixed_func", [⟨[t]⟩], named⟩ () (some (lit "func2")) []
  | mixed2 {t s x named} : ReadsFloat tiny s x →
      OverTold pl tiny () ⟨lit "mixed_func", [⟨[t]⟩, ⟨[s]⟩], named⟩ () (some (lit "Object::func1 from object_one")) []
  | mixed3 {t s x r b named} : ReadsFloat tiny s x → BoolWord r b →
      OverTold pl tiny () ⟨lit "mixed_func", [⟨[t]⟩, ⟨[s]⟩, ⟨[r]⟩], named⟩ () (some (lit "Object::func2 from object_two")) []
  | create {t named} :
      OverTold pl tiny () ⟨lit "explosions.create", [⟨[t]⟩], named⟩ () none
        (lit "Creating an explosion '" ++ upToNul t ++ lit "' with the default radius\n")
  | radius {t s x p named} : ReadsFloat tiny s x → SixPlaces x p →
      OverTold pl tiny () ⟨lit "explosions.create", [⟨[t]⟩, ⟨[s]⟩], named⟩ () none
        (lit "Creating an explosion '" ++ upToNul t ++ lit "' with the radius " ++ p ++ lit "\n")

/-- The return values by the name and the number of the arguments. -/
def overReturns (name : Bytes) (n : Nat) : Option Bytes :=
  if name = lit "func" then [lit "func1", lit "func2", lit "func3"][n]?
  else if name = lit "mixed_func" then [lit "lambda1", lit "func2", lit "Object::func1 from object_one", lit "Object::func2 from object_two"][n]?
  else none

/-- The commands that make the program undefined: an odd word as the truth value of `mixed_func`, where `char` is signed. -/
def OverTrouble (pl : Platform) (i : Input) : Prop :=
  pl.charSigned = true ∧ i.name = lit "mixed_func" ∧ ∃ a b t, i.arguments = [a, b, ⟨[t]⟩] ∧ OddWord t

end Coil.Spec
