import Verif.Spec.Str
import Verif.Model.StringThrow

/-!
# Programs with strings and exceptions

A statement that throws should leave all strings as they were. Only the statements and the shape of programs (`Str.TOp`,
`Str.TryStrs`) are taken from the model.
-/

namespace Coil
namespace Spec

/-- The text of the right operand of `+`. -/
def rhsText (e : Texts) : Str.Rhs → Option Text
  | .bytes xs => some (xs.map some)
  | .var v => textOf e v

/-- What a statement does to the texts if it does not throw. The result of `a + b` is a new string. `std::move(a) + b` takes the
text out of `a` before `b` is looked at. -/
def tryStep (e : Texts) : Str.TOp → Option Texts
  | .base op => textStep e op
  | .plus a moved rhs => (textOf e a).bind (fun l =>
      let e1 := if moved then e.set a (some []) else e
      (rhsText e1 rhs).map (fun r => e1 ++ [some (l ++ r)]))

/-- What a statement that throws does to the texts: nothing, except that `std::move(a) + b` has lost the text of `a`. -/
def leftByThrow (e : Texts) : Str.TOp → Texts
  | .plus a true _ => e.set a (some [])
  | _ => e

/-- The statements that never throw: moves, writing a byte, and the end of a string. -/
def noThrow : Str.TOp → Bool
  | .base (.moveNew _) | .base (.moveAssign _ _) | .base (.write _ _ _) | .base (.destroy _) => true
  | _ => false

/-- The requested sizes are representable. -/
def TryFits (e : Texts) : Str.TOp → Prop
  | .base op => TextFits e op
  | .plus a moved rhs => ∀ l r, textOf e a = some l → rhsText (if moved then e.set a (some []) else e) rhs = some r →
      l.length + r.length + 1 < 2 ^ 64

/-- `StrCourse e p e'`: one way a program may go from the texts `e` to `e'`. -/
inductive StrCourse : Texts → Str.TryStrs → Texts → Prop
  | stop {e : Texts} : StrCourse e .stop e
  | done {e e1 e2 : Texts} {op : Str.TOp} {f : Vec.Fuse} {next : Bool → Str.TryStrs} (h : tryStep e op = some e1)
      (t : StrCourse e1 (next false) e2) : StrCourse e (.stmt op f next) e2
  | threw {e e2 : Texts} {op : Str.TOp} {f : Vec.Fuse} {next : Bool → Str.TryStrs} (hop : noThrow op = false)
      (hf : f ≠ none) (t : StrCourse (leftByThrow e op) (next true) e2) : StrCourse e (.stmt op f next) e2

/-- The statement appends part of a string to the string itself with `+=` (C23). -/
def TrySelf : Str.TOp → Prop
  | .base op => SelfAppend op
  | _ => False

/-- All statements of a program are meaningful and representable, whichever way it goes, and none is an appending of a string to
itself. -/
def LegalStrs : Texts → Str.TryStrs → Prop
  | _, .stop => True
  | e, .stmt op f next => TryFits e op ∧ ¬ TrySelf op ∧ tryStep e op ≠ none ∧
      (∀ e', tryStep e op = some e' → LegalStrs e' (next false)) ∧
      (noThrow op = false → f ≠ none → LegalStrs (leftByThrow e op) (next true))

end Spec
end Coil
