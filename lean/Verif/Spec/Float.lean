import Mathlib.Algebra.Order.Field.Rat
import Mathlib.Algebra.Order.Field.Power
import Verif.Model.Float
import Verif.Spec.Conv

/-!
# Specification of floating-point texts

Numbers are rationals here.
-/

namespace Coil.Spec

/-! ## Formats -/

/-- The format holds numbers, and not only one per power of two. -/
def Fmt.Proper (F : Fmt) : Prop := 2 ≤ F.prec ∧ F.emin ≤ F.emax

/-- The magnitude `m * 2^e`. -/
def mag (m : Nat) (e : Int) : ℚ := m * 2 ^ e

/-- A magnitude of the format, were there no greatest exponent. -/
def Member (F : Fmt) (v : ℚ) : Prop := ∃ m e, m < 2 ^ F.prec ∧ F.emin ≤ e ∧ v = mag m e

/-- Mantissa and exponent as they are stored: as many bits of the mantissa as possible are used. -/
def Stored (F : Fmt) (m : Nat) (e : Int) : Prop :=
  m < 2 ^ F.prec ∧ F.emin ≤ e ∧ (2 ^ (F.prec - 1) ≤ m ∨ e = F.emin)

/-- A value of the format. -/
def IsFloat (F : Fmt) : Fl → Prop
  | .fin _ m e => Stored F m e ∧ e ≤ F.emax
  | _ => True

/-- `m * 2^e` is the number of the format that is nearest to `q`; of two, the one with an even mantissa. -/
structure Nearest (F : Fmt) (q : ℚ) (m : Nat) (e : Int) : Prop where
  stored : Stored F m e
  near : ∀ v, Member F v → |mag m e - q| ≤ |v - q|
  even : ∀ v, Member F v → v ≠ mag m e → |v - q| = |mag m e - q| → m % 2 = 0

/-- The least normal number. -/
def leastNormal (F : Fmt) : ℚ := 2 ^ (F.emin + (F.prec - 1))

/-- The value of a finite number. -/
def finVal (neg : Bool) (m : Nat) (e : Int) : ℚ := if neg then -mag m e else mag m e

/-! ## Texts -/

/-- A digit of a base up to 16 and its value. -/
def DigitOf (b : Nat) (c : Byte) (n : Nat) : Prop :=
  n < b ∧ ((n < 10 ∧ c.toNat = 48 + n) ∨ (10 ≤ n ∧ (c.toNat = 55 + n ∨ c.toNat = 87 + n)))

/-- Digits, possibly none, and the number they denote. -/
inductive Digits (b : Nat) : Bytes → Nat → Prop
  | nil : Digits b [] 0
  | snoc {ds : Bytes} {m : Nat} {c : Byte} {n : Nat} : Digits b ds m → DigitOf b c n → Digits b (ds ++ [c]) (b * m + n)

/-- At least one digit, with or without a point: the number without regard to the point, and the number of digits after it. -/
inductive Mantissa (b : Nat) : Bytes → Nat → Nat → Prop
  | whole {ds : Bytes} {m : Nat} : Digits b ds m → ds ≠ [] → Mantissa b ds m 0
  | point {a f : Bytes} {m : Nat} : Digits b (a ++ f) m → a ++ f ≠ [] → Mantissa b (a ++ 46 :: f) m f.length

/-- An optional exponent after one of two letters. -/
inductive Exponent (lower upper : Byte) : Bytes → Int → Prop
  | none : Exponent lower upper [] 0
  | some {c : Byte} {sg ds : Bytes} {neg : Bool} {v : Nat} : c = lower ∨ c = upper → Sign sg neg → Decimal ds v →
      Exponent lower upper (c :: (sg ++ ds)) (if neg then -(v : Int) else v)

/-- What a text without its sign denotes. -/
inductive Denotes where
  | number (q : ℚ)
  | infinity
  | notANumber

/-- The texts of floating-point numbers, without white space and sign. -/
inductive FloatWord : Bytes → Denotes → Prop
  | decimal {a x : Bytes} {m k : Nat} {z : Int} : Mantissa 10 a m k → Exponent 101 69 x z →
      FloatWord (a ++ x) (.number (m * 10 ^ (z - k)))
  | hex {c : Byte} {a x : Bytes} {m k : Nat} {z : Int} : c = 120 ∨ c = 88 → Mantissa 16 a m k → Exponent 112 80 x z →
      FloatWord (48 :: c :: (a ++ x)) (.number (m * 2 ^ (z - 4 * k)))
  | inf {s : Bytes} : Forall2 SameLetter s (lit "inf") → FloatWord s .infinity
  | infinity {s : Bytes} : Forall2 SameLetter s (lit "infinity") → FloatWord s .infinity
  | nan {s : Bytes} : Forall2 SameLetter s (lit "nan") → FloatWord s .notANumber
  | nanOf {s t : Bytes} : Forall2 SameLetter s (lit "nan") → (∀ c ∈ t, Fl.isWordChar c = true) →
      FloatWord (s ++ 40 :: (t ++ [41])) .notANumber

/-- The texts of floating-point numbers: leading white space, an optional sign, a number. -/
def FloatText (s : Bytes) (neg : Bool) (d : Denotes) : Prop :=
  ∃ ws sg w, s = ws ++ (sg ++ w) ∧ (∀ c ∈ ws, CSpace c) ∧ Sign sg neg ∧ FloatWord w d

/-- `x` is what the format makes of a text with this sign and this meaning. -/
def Rounded (F : Fmt) (neg : Bool) : Denotes → Fl → Prop
  | .number q, x => ∃ m e, x = .fin neg m e ∧ Nearest F q m e ∧ e ≤ F.emax
  | .infinity, x => x = .inf neg
  | .notANumber, x => x = .nan neg

/-- A text of a signed decimal or hexadecimal number. -/
def ReadsNumber (s : Bytes) (q : ℚ) : Prop := ∃ neg p, FloatText s neg (.number p) ∧ q = if neg then -p else p

end Coil.Spec
