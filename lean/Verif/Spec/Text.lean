import Verif.Spec.Typed

/-!
# Texts of lists

How a list of texts is written: `[a, b, c]`.
-/

namespace Coil.Spec

/-- The texts with `, ` between them. -/
def commaList : List Bytes → Bytes
  | [] => []
  | [t] => t
  | t :: u :: rest => t ++ lit ", " ++ commaList (u :: rest)

/-- The texts with `, ` between them, in brackets. -/
def bracketed (ts : List Bytes) : Bytes := lit "[" ++ commaList ts ++ lit "]"

/-- Reading a text from nesting depth `d`: the depth after it, or nothing if a bracket closes that was not opened or there is a comma at
depth 0. -/
def nesting : Nat → Bytes → Option Nat
  | d, [] => some d
  | d, c :: t =>
    if c = 91 then nesting (d + 1) t
    else if c = 93 then (if d = 0 then none else nesting (d - 1) t)
    else if c = 44 ∧ d = 0 then none
    else nesting d t

/-- Texts that can be told apart in a list: not empty, brackets in pairs, commas only inside brackets. -/
def Separable (t : Bytes) : Prop := t ≠ [] ∧ nesting 0 t = some 0

/-- Numbers, truth values, and vectors of such, to any depth. -/
def PTy.Numeric : PTy → Prop
  | .int _ => True
  | .bool => True
  | .vec a => a.Numeric
  | _ => False

/-- All numbers in the value are within the range of their type. -/
def PTy.AllFit (pl : Platform) : (a : PTy) → a.T → Prop
  | .int t, z => InRange pl t z
  | .vec a, xs => ∀ x ∈ xs, a.AllFit pl x
  | _, _ => True

end Coil.Spec
