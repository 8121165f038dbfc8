import Verif.Spec.Record

/-!
# One record

An account that tells one thing of each command leaves one record of the requests.
-/

namespace Coil.Spec

/-- The account tells at most one thing of a command after a history. -/
def TellsOne {H : Type} (told : Account H) : Prop := ∀ ⦃h i h1 o1 h2 o2⦄, told h i h1 o1 → told h i h2 o2 → h1 = h2 ∧ o1 = o2

/-- What the caller is shown: the errors, the return value and the output, or an exception. -/
def shown : ExecOut → Except Exn (List Bytes × Option Bytes × Bytes)
  | .ok r => .ok (r.errors, r.returnValue, r.output)
  | .error e => .error e

end Coil.Spec
