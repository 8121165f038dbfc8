import Verif.Model.Enums
import Verif.Spec.Conv
import Verif.Spec.Surface

/-!
# Specification of enumerations and flags

Which constant a text names, which bits a value has, how a set of flags is written.
-/

namespace Coil.Spec

/-- The same letter, whatever the case. -/
def Alike (c d : Byte) : Prop := SameLetter c d ∨ SameLetter d c

/-- The same word, whatever the case. -/
def SameWord (a b : Bytes) : Prop := Forall2 Alike a b

/-- The characters of identifiers; the bytes above 127 are those of letters of other alphabets. -/
def IdentChar (c : Byte) : Prop :=
  (65 ≤ c.toNat ∧ c.toNat ≤ 90) ∨ (97 ≤ c.toNat ∧ c.toNat ≤ 122) ∨ (48 ≤ c.toNat ∧ c.toNat ≤ 57) ∨ c.toNat = 95 ∨ 128 ≤ c.toNat

/-- The identifiers of C++. -/
def Identifier (s : Bytes) : Prop :=
  (∀ c ∈ s, IdentChar c) ∧ ∃ c t, s = c :: t ∧ ¬ (48 ≤ c.toNat ∧ c.toNat ≤ 57)

/-- The declaration obeys the rules of C++: different identifiers, values of the underlying type. -/
structure Declarable (pl : Platform) (d : EnumDecl) : Prop where
  ident : ∀ c ∈ d.constants, Identifier c.1
  distinct : (d.constants.map (·.1)).Nodup
  range : ∀ c ∈ d.constants, InRange pl d.underlying c.2

/-- `n` is the first constant declared with the value `x`. -/
def Primary (d : EnumDecl) (n : Bytes) (x : Int) : Prop :=
  ∃ pre post, d.constants = pre ++ (n, x) :: post ∧ ∀ c ∈ pre, c.2 ≠ x

/-- The names that work: those of small values, first of their values. -/
def Known (pl : Platform) (d : EnumDecl) (n : Bytes) (x : Int) : Prop :=
  Primary d n x ∧ InRange pl d.underlying x ∧ -128 ≤ x ∧ x ≤ 128

/-- The values of an enumeration: all those of a fixed underlying type; otherwise the numbers with no more bits than the
constants need. -/
def ValueOf (d : EnumDecl) (x : Int) : Prop :=
  d.fixed = true ∨ ∀ m : Nat, (∀ c ∈ d.constants, -(2 ^ m : Nat) ≤ c.2 ∧ c.2 < (2 ^ m : Nat)) →
    x < (2 ^ m : Nat) ∧ ((∃ c ∈ d.constants, c.2 < 0) ∧ -(2 ^ m : Nat) ≤ x ∨ 0 ≤ x)

/-- As an argument for an integer parameter, `s` would mean `z` (C12, C13). -/
def AsNumber (pl : Platform) (t : IntType) (s : Bytes) (z : Int) : Prop := (intConv pl t).fromString ⟨[s]⟩ = .ok (.ok z)

/-- `s` is not a number and names `x`; of several such constants, the one with the least value. -/
def AsName (pl : Platform) (d : EnumDecl) (s : Bytes) (x : Int) : Prop :=
  (∀ z, ¬ AsNumber pl d.underlying s z) ∧
    ∃ n, Known pl d n x ∧ SameWord s n ∧ ∀ m y, Known pl d m y → SameWord s m → x ≤ y

/-- The names that work, in the order of their values. -/
structure KnownList (pl : Platform) (d : EnumDecl) (es : List (Bytes × Int)) : Prop where
  sorted : es.Pairwise (fun a b => a.2 < b.2)
  all : ∀ n x, (n, x) ∈ es ↔ Known pl d n x

/-- The reason given when a text is neither a number nor a name. -/
def possibleValues (names : List Bytes) : Bytes :=
  lit "Possible values are [" ++ (lit ", ").intercalate (names.map fun n => lit "'" ++ n ++ lit "'") ++ lit "]"

/-! ## Flags -/

/-- Bit `k` of a number (two's complement). -/
def Bit (z : Int) (k : Nat) : Prop := z / 2 ^ k % 2 = 1

/-- `z` has the bits of the numbers `xs`. -/
def Union (pl : Platform) (t : IntType) (xs : List Int) (z : Int) : Prop :=
  InRange pl t z ∧ ∀ k, Bit z k ↔ ∃ x ∈ xs, Bit x k

/-- `fs` are the bits of `z`, in increasing order, with the constants that stand for them. -/
structure FlagsOf (d : EnumDecl) (z : Int) (fs : List (Bytes × Nat)) : Prop where
  sorted : fs.Pairwise (fun a b => a.2 < b.2)
  bits : ∀ k, Bit z k ↔ ∃ n, (n, k) ∈ fs
  named : ∀ n k, (n, k) ∈ fs → Primary d n (2 ^ k : Nat)

/-- Names with bars between them. -/
def barred (fs : List (Bytes × Nat)) : Bytes := (lit "|").intercalate (fs.map (·.1))

/-- The text of a set of flags: the names with bars between them, or nothing if some bit has no name. -/
inductive FlagText (d : EnumDecl) (z : Int) : Bytes → Prop
  | names {fs : List (Bytes × Nat)} : FlagsOf d z fs → FlagText d z (barred fs)
  | none : (¬ ∃ fs, FlagsOf d z fs) → FlagText d z []

end Coil.Spec
