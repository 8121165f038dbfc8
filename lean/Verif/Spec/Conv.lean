import Verif.Model.Conv
import Verif.Spec.Lexer

/-!
# Specification of conversions

Numerals, ranges and text forms, stated without the C library model.
-/

namespace Coil.Spec

/-- White space of the C locale. -/
def CSpace (c : Byte) : Prop := c = 32 ∨ c = 9 ∨ c = 10 ∨ c = 11 ∨ c = 12 ∨ c = 13

/-- A decimal digit and its value. -/
inductive Digit : Byte → Nat → Prop
  | mk {c : Byte} {n : Nat} : n < 10 → c.toNat = 48 + n → Digit c n

/-- Non-empty digit sequences and the numbers they denote. -/
inductive Decimal : Bytes → Nat → Prop
  | one {c : Byte} {n : Nat} : Digit c n → Decimal [c] n
  | snoc {ds : Bytes} {m : Nat} {c : Byte} {n : Nat} : Decimal ds m → Digit c n →
      Decimal (ds ++ [c]) (10 * m + n)

/-- Optional sign: `neg` tells whether it is a minus. -/
inductive Sign : Bytes → Bool → Prop
  | none : Sign [] false
  | plus : Sign [43] false
  | minus : Sign [45] true

/-- Leading white space, optional sign, digits, nothing else: sign and magnitude. -/
def SignedNumeral (s : Bytes) (neg : Bool) (mag : Nat) : Prop :=
  ∃ ws sg ds, s = ws ++ (sg ++ ds) ∧ (∀ c ∈ ws, CSpace c) ∧ Sign sg neg ∧ Decimal ds mag

/-- `s` denotes the integer `z`. -/
def Numeral (s : Bytes) (z : Int) : Prop :=
  ∃ neg mag, SignedNumeral s neg mag ∧ z = if neg then -(mag : Int) else (mag : Int)

/-- The least value of an integer type. -/
def lo (pl : Platform) : IntType → Int
  | .char => if pl.charSigned then -128 else 0
  | .schar => -128
  | .short => -32768
  | .int => -2147483648
  | .long => if pl.long64 then -9223372036854775808 else -2147483648
  | .llong => -9223372036854775808
  | .uchar | .ushort | .uint | .ulong | .ullong => 0

/-- The greatest value of an integer type. -/
def hi (pl : Platform) : IntType → Int
  | .char => if pl.charSigned then 127 else 255
  | .schar => 127
  | .short => 32767
  | .int => 2147483647
  | .long => if pl.long64 then 9223372036854775807 else 2147483647
  | .llong => 9223372036854775807
  | .uchar => 255
  | .ushort => 65535
  | .uint => 4294967295
  | .ulong => if pl.long64 then 18446744073709551615 else 4294967295
  | .ullong => 18446744073709551615

/-- The value belongs to the type. -/
def InRange (pl : Platform) (t : IntType) (z : Int) : Prop := lo pl t ≤ z ∧ z ≤ hi pl t

/-- The types that are parsed as signed numbers. `char` is one even where it is unsigned. -/
def IsSignedParse : IntType → Prop
  | .char | .schar | .short | .int | .long | .llong => True
  | _ => False

/-- Sub-values joined by single spaces. -/
def joined (l : List Bytes) : Bytes := (lit " ").intercalate l

/-- The same letter: equal, or an upper-case letter of the ASCII alphabet and its lower-case form. -/
def SameLetter (c d : Byte) : Prop := c = d ∨ (97 ≤ d.toNat ∧ d.toNat ≤ 122 ∧ c.toNat + 32 = d.toNat)

/-- The texts that denote a truth value. -/
inductive BoolWord : Bytes → Bool → Prop
  | one : BoolWord (lit "1") true
  | zero : BoolWord (lit "0") false
  | true {s : Bytes} : Forall2 SameLetter s (lit "true") → BoolWord s true
  | false {s : Bytes} : Forall2 SameLetter s (lit "false") → BoolWord s false

/-- The message of a failed conversion. -/
def cannotConvert (text typeName : Bytes) : Bytes :=
  lit "Unable to convert '" ++ text ++ lit "' to type '" ++ typeName ++ lit "'"

/-- The message of a failed conversion, with a reason. -/
def cannotConvertBecause (text typeName reason : Bytes) : Bytes :=
  cannotConvert text typeName ++ lit ": " ++ reason

/-- The reason given when the number of sub-values is wrong. -/
def wrongSubvalues (expected got : Nat) : Bytes :=
  lit "Expected " ++ natDec expected ++ lit " subvalues, got " ++ natDec got

/-- The text has no NUL byte. -/
def NulFree (s : Bytes) : Prop := (0 : Byte) ∉ s

end Coil.Spec
