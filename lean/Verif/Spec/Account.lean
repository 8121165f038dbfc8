import Verif.Spec.Answered

/-!
# Accounts

Stories of programs whose functions can fail: what a command does is told together with the errors it reports and the exception it throws.
-/

namespace Coil.Spec

variable {H : Type}

/-- What comes out of a command that is carried out: the errors that are reported, the text of the return value, what is written, and the exception that
ends it. -/
structure Outcome where
  errors : List Bytes
  value : Option Bytes
  output : Bytes
  thrown : Option Exn

/-- An outcome without errors. -/
def Outcome.good (value : Option Bytes) (output : Bytes) : Outcome := ⟨[], value, output, none⟩

/-- The command only reports errors. -/
def Outcome.bad (errors : List Bytes) : Outcome := ⟨errors, none, [], none⟩

/-- How an outcome is shown to the caller. -/
def Outcome.Shows (catching : Bool) (o : Outcome) (out : ExecOut) : Prop :=
  match o.thrown with
  | none => ∃ r, out = .ok r ∧ r.errors = o.errors ∧ r.returnValue = o.value ∧ r.output = o.output
  | some e => if catching then ∃ r, out = .ok r ∧ r.errors = o.errors ++ [exceptionError e] ∧ r.returnValue = none ∧ r.output = o.output
      else out = .error e

/-- `told h i h' o`: after the history `h` the command `i` is carried out, with the outcome `o`, and the history becomes `h'`. -/
abbrev Account (H : Type) := H → Input → H → Outcome → Prop

/-- What becomes of a command: it is carried out as told, or it is not understood, which is an error and changes nothing. -/
def Result (told : Account H) (catching : Bool) (h : H) (i : Input) (h' : H) (out : ExecOut) : Prop :=
  (∃ o, told h i h' o ∧ o.Shows catching out) ∨
  ((¬ ∃ h1 o, told h i h1 o) ∧ h' = h ∧ ∃ r, out = .ok r ∧ r.returnValue = none ∧ r.output = [] ∧ r.errors ≠ [])

/-- `Annals told catching d h reqs outs h'`: from the history `h` on, the requests have the results `outs` and lead to the history `h'`. -/
inductive Annals (told : Account H) (catching : Bool) (d : Delims) : H → List Request → List ExecOut → H → Prop
  | nil {h} : Annals told catching d h [] [] h
  | wrong {h t m rest outs h'} : Rejects d t m → Annals told catching d h rest outs h' →
      Annals told catching d h (.line t :: rest) (.ok ⟨⟨[], [], []⟩, [lit "Syntax error: " ++ m], none, []⟩ :: outs) h'
  | line {h t i h1 out rest outs h'} : Accepts d t i → Result told catching h i h1 out → Annals told catching d h1 rest outs h' →
      Annals told catching d h (.line t :: rest) (out :: outs) h'
  | input {h i h1 out rest outs h'} : Result told catching h i h1 out → Annals told catching d h1 rest outs h' →
      Annals told catching d h (.input i :: rest) (out :: outs) h'

end Coil.Spec
