import Verif.Spec.Account
import Verif.Spec.RefusalGrowing
import Verif.Spec.Story

/-!
# All answers

An account tells what becomes of the commands that are carried out. With the signatures of the commands it is also told what is said of the others.
-/

namespace Coil.Spec

variable {H : Type}

/-- A telling as an account: commands that are carried out report no errors and throw nothing. -/
def Telling.account (told : Telling H) : Account H := fun h i h' o => told h i h' o.value o.output ∧ o.errors = [] ∧ o.thrown = none

/-- What becomes of a command: it is understood and carried out as told, or it is refused with the errors of its signatures and changes nothing. -/
def Ruling (pl : Platform) (tiny : Nat → Nat → Bool) (size : Bytes) (told : Account H) (sigs : Signatures) (catching : Bool) (h : H) (i : Input) (h' : H)
    (out : ExecOut) : Prop :=
  (Understood pl tiny size sigs i ∧ ∃ o, told h i h' o ∧ o.Shows catching out) ∨
  (¬ Understood pl tiny size sigs i ∧ (¬ ∃ h1 o, told h i h1 o) ∧ h' = h ∧ ∃ es, Declined pl tiny size sigs i es ∧ out = .ok ⟨i, es, none, []⟩)

/-- `Record … told sigs catching d h reqs outs h'`: from the history `h` on, the requests have the results `outs` and lead to the history `h'`. After the
history `h` the name `n` has the signatures `sigs h n`. -/
inductive Record (pl : Platform) (tiny : Nat → Nat → Bool) (size : Bytes) (told : Account H) (sigs : H → Bytes → Signatures) (catching : Bool) (d : Delims) :
    H → List Request → List ExecOut → H → Prop
  | nil {h} : Record pl tiny size told sigs catching d h [] [] h
  | wrong {h t m rest outs h'} : Rejects d t m → Record pl tiny size told sigs catching d h rest outs h' →
      Record pl tiny size told sigs catching d h (.line t :: rest) (.ok ⟨⟨[], [], []⟩, [lit "Syntax error: " ++ m], none, []⟩ :: outs) h'
  | line {h t i h1 out rest outs h'} : Accepts d t i → Ruling pl tiny size told (sigs h i.name) catching h i h1 out →
      Record pl tiny size told sigs catching d h1 rest outs h' → Record pl tiny size told sigs catching d h (.line t :: rest) (out :: outs) h'
  | input {h i h1 out rest outs h'} : Ruling pl tiny size told (sigs h i.name) catching h i h1 out →
      Record pl tiny size told sigs catching d h1 rest outs h' → Record pl tiny size told sigs catching d h (.input i :: rest) (out :: outs) h'

end Coil.Spec
