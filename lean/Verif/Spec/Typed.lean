import Verif.Model.Exec
import Verif.Spec.Conv
import Verif.Spec.Surface

/-!
# Typed arguments

What a written argument means for a parameter of a given C++ type, in terms of numerals and words only.
-/

namespace Coil.Spec

/-- The parameter types the library supports out of the box (floating-point types are in C19). -/
inductive PTy where
  | int (t : IntType)
  | bool
  /-- the string types -/
  | text
  /-- `coil::Value` -/
  | raw
  /-- `std::vector<T>` -/
  | vec (a : PTy)
  /-- `std::optional<T>` -/
  | opt (a : PTy)
  deriving DecidableEq, Repr

/-- The values of a type. -/
@[reducible] def PTy.T : PTy → Type
  | .int _ => Int
  | .bool => Bool
  | .text => Bytes
  | .raw => Value
  | .vec a => List a.T
  | .opt a => Option a.T

/-- Types whose values are not references to the argument. -/
def PTy.Owned : PTy → Prop
  | .raw => False
  | _ => True

/-- The types that work as parameters: `coil::Value` can only be used on its own, not inside a vector or optional (C58). -/
def PTy.Usable : PTy → Prop
  | .vec a => a.Owned ∧ a.Usable
  | .opt a => a.Owned ∧ a.Usable
  | _ => True

/-- The argument `v`, written for a parameter of type `a`, means `x`. -/
def Reads (pl : Platform) : (a : PTy) → Value → a.T → Prop
  | .int t, v, z => ∃ s, v.subvalues = [s] ∧ Numeral s z ∧ InRange pl t z ∧ (IsSignedParse t ∨ (45 : Byte) ∉ s)
  | .bool, v, b => ∃ s, v.subvalues = [s] ∧ BoolWord s b
  | .text, v, s => v.subvalues = [s]
  | .raw, v, x => v = x
  | .vec a, v, xs => Forall2 (fun s x => Reads pl a ⟨[s]⟩ x) v.subvalues xs
  | .opt _, v, none => v.subvalues = [] ∨ v.subvalues = [[]]
  | .opt a, v, some x => ∃ s, v.subvalues = [s] ∧ s ≠ [] ∧ Reads pl a ⟨[s]⟩ x

/-- The serializer of a type. -/
def PTy.conv (pl : Platform) : (a : PTy) → Conv a.T
  | .int t => intConv pl t
  | .bool => boolConv pl
  | .text => stringConv
  | .raw => valueConv
  | .vec a => vecConv (a.conv pl)
  | .opt a => optConv (a.conv pl)

/-- A parameter of a type. -/
def PTy.param (pl : Platform) (a : PTy) : Param := ⟨a.T, a.conv pl⟩

/-- The arguments, one for each parameter, mean the given values. -/
inductive Supplied (pl : Platform) : (ps : List Param) → List Value → Args ps → Prop
  | nil : Supplied pl [] [] ()
  | cons {a : PTy} {x : a.T} {v : Value} {ps : List Param} {vs : List Value} {xs : Args ps} :
      a.Usable → Reads pl a v x → Supplied pl ps vs xs → Supplied pl (a.param pl :: ps) (v :: vs) (x, xs)

/-- The types whose text form is a single word: integers, truth values, strings. -/
def PTy.IsScalar : PTy → Prop
  | .int _ | .bool | .text => True
  | _ => False

/-- The value belongs to the type: a number within its range. -/
def PTy.Fits (pl : Platform) : (a : PTy) → a.T → Prop
  | .int t, z => InRange pl t z
  | _, _ => True

/-- Values of scalar types that can be written anywhere: numbers within range, truth values, strings without quotes and
parentheses. -/
def PTy.Clean (pl : Platform) (d : Delims) : (a : PTy) → a.T → Prop
  | .int t, z => InRange pl t z
  | .bool, _ => True
  | .text, s => ∀ c ∈ s, c ∉ d.quotes ∧ c ∉ d.parens
  | _, _ => False

/-- Values that can be written as one argument: strings without quotes, vectors and optionals of clean values (an
optional empty string cannot be told from an empty optional). -/
def PTy.Writable (pl : Platform) (d : Delims) : (a : PTy) → a.T → Prop
  | .int t, z => InRange pl t z
  | .bool, _ => True
  | .text, s => ∀ c ∈ s, c ∉ d.quotes
  | .raw, v => Spellable d v
  | .vec a, xs => ∀ x ∈ xs, a.Clean pl d x
  | .opt _, none => True
  | .opt .text, some s => s ≠ [] ∧ ∀ c ∈ s, c ∉ d.quotes
  | .opt a, some x => a.Clean pl d x

/-- Lists of values that can be written. -/
def WritableArgs (pl : Platform) (d : Delims) : (tys : List PTy) → Args (tys.map (PTy.param pl)) → Prop
  | [], _ => True
  | a :: tys, (x, xs) => a.Writable pl d x ∧ WritableArgs pl d tys xs

end Coil.Spec
