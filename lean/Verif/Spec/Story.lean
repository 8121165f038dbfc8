import Verif.Spec.Fixed

/-!
# Stories

What a program with fixed commands does, told by what has been done so far: a history instead of a state.
-/

namespace Coil.Spec

variable {H : Type}

/-- `told h i h' r o`: after the history `h` the command `i` is carried out; it gives `r` and writes `o`, and the history becomes `h'`. -/
abbrev Telling (H : Type) := H → Input → H → Option Bytes → Bytes → Prop

/-- What becomes of a command: it is carried out as told, or it is an error and changes nothing. -/
def Upshot (told : Telling H) (h : H) (i : Input) (h' : H) (out : ExecOut) : Prop :=
  ∃ r, out = .ok r ∧ ((told h i h' r.returnValue r.output ∧ r.errors = []) ∨
    ((¬ ∃ h1 v o, told h i h1 v o) ∧ h' = h ∧ r.returnValue = none ∧ r.output = [] ∧ r.errors ≠ []))

/-- `Chronicle told d h reqs outs h'`: from the history `h` on, the requests have the results `outs` and lead to the history `h'`. -/
inductive Chronicle (told : Telling H) (d : Delims) : H → List Request → List ExecOut → H → Prop
  | nil {h} : Chronicle told d h [] [] h
  | wrong {h t m rest outs h'} : Rejects d t m → Chronicle told d h rest outs h' →
      Chronicle told d h (.line t :: rest) (.ok ⟨⟨[], [], []⟩, [lit "Syntax error: " ++ m], none, []⟩ :: outs) h'
  | line {h t i h1 out rest outs h'} : Accepts d t i → Upshot told h i h1 out → Chronicle told d h1 rest outs h' →
      Chronicle told d h (.line t :: rest) (out :: outs) h'
  | input {h i h1 out rest outs h'} : Upshot told h i h1 out → Chronicle told d h1 rest outs h' →
      Chronicle told d h (.input i :: rest) (out :: outs) h'

end Coil.Spec
