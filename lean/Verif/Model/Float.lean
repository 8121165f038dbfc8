import Verif.Model.Conv

/-!
# Floating-point numbers

StringConv.cpp leaves the conversions of floating-point types to `strtof`, `strtod`, `strtold` and `%g`, `%Lg` (StringConv.cpp 12-18,
65-79, 136-158). This file models these functions of the C library for binary formats, in the "C" locale and with rounding to the nearest value
(C11 7.22.1.3, 7.21.6.1, F.5: correctly rounded, as in glibc and musl), so that properties of texts of numbers can be stated.
A number is exact here: a natural number times a power of two.
-/

namespace Coil

/-- A binary format: the numbers are `m * 2^e` with `m < 2^prec` and `emin ≤ e ≤ emax`. -/
structure Fmt where
  prec : Nat
  emin : Int
  emax : Int
  deriving DecidableEq, Repr

namespace Fmt

/-- `float` (IEEE 754 binary32). -/
def single : Fmt := ⟨24, -149, 104⟩

/-- `double` (IEEE 754 binary64). -/
def double : Fmt := ⟨53, -1074, 971⟩

/-- `long double` of x86 (80 bits). -/
def extended : Fmt := ⟨64, -16445, 16320⟩

end Fmt

/-- A floating-point value: `(-1)^neg * m * 2^e`, an infinity, or a NaN. -/
inductive Fl where
  | fin (neg : Bool) (m : Nat) (e : Int)
  | inf (neg : Bool)
  | nan (neg : Bool)
  deriving DecidableEq, Repr

namespace Fl

/-! ## Fractions and rounding -/

/-- `n * b^e` as a fraction. -/
def frac (b n : Nat) : Int → Nat × Nat
  | .ofNat k => (n * b ^ k, 1)
  | .negSucc k => (n, b ^ (k + 1))

/-- `(n / d) / b^e` as a fraction. -/
def scale (b n d : Nat) : Int → Nat × Nat
  | .ofNat k => (n, d * b ^ k)
  | .negSucc k => (n * b ^ (k + 1), d)

/-- The natural number nearest to `n / d`; of two, the even one. -/
def roundDiv (n d : Nat) : Nat :=
  if 2 * (n % d) < d then n / d
  else if d < 2 * (n % d) then n / d + 1
  else if n / d % 2 = 0 then n / d else n / d + 1

/-- The greatest `k` with `2^k ≤ n / d`. -/
def ilog2 (n d : Nat) : Int :=
  let k : Int := (Nat.log2 n : Int) - Nat.log2 d
  let p := scale 2 n d k
  if p.1 < p.2 then k - 1 else k

/-- `n / d` rounded to the precision of the format, without regard to its greatest exponent. -/
def roundFmt (F : Fmt) (n d : Nat) : Nat × Int :=
  if n = 0 then (0, F.emin)
  else
    let e := max F.emin (ilog2 n d - (F.prec - 1))
    let p := scale 2 n d e
    let m := roundDiv p.1 p.2
    if m = 2 ^ F.prec then (2 ^ (F.prec - 1), e + 1) else (m, e)

/-- `n / d` is less than the least normal number and is not a number of the format with this mantissa and exponent. -/
def underflows (F : Fmt) (n d m : Nat) (e : Int) : Bool :=
  let p := scale 2 n d (F.emin + (F.prec - 1))
  let r := scale 2 n d e
  decide (p.1 < p.2) && decide (r.1 ≠ m * r.2)

/-- The conversion of the exact value `n / d`: the rounded value and whether `errno` is set. Overflow gives an infinity and `ERANGE`; on
underflow `errno` is set or not as the implementation likes (`tiny`). -/
def ofFrac (F : Fmt) (tiny : Nat → Nat → Bool) (neg : Bool) (n d : Nat) : Fl × Bool :=
  let r := roundFmt F n d
  if r.2 > F.emax then (.inf neg, true) else (.fin neg r.1 r.2, underflows F n d r.1 r.2 && tiny n d)

/-! ## `strtod` -/

/-- `isxdigit`. -/
def isHexDigit (c : Byte) : Bool :=
  isDigit c || (decide (65 ≤ c) && decide (c ≤ 70)) || (decide (97 ≤ c) && decide (c ≤ 102))

/-- The value of a digit. -/
def digitVal (c : Byte) : Nat := if c ≤ 57 then c.toNat - 48 else if c ≤ 70 then c.toNat - 55 else c.toNat - 87

/-- The number that digits denote. -/
def digitsValue (b : Nat) (ds : Bytes) : Nat := ds.foldl (fun a c => a * b + digitVal c) 0

/-- Digits with an optional point: the digits before and after it, and the number of characters; nothing if there is no digit. -/
def scanMantissa (digit : Byte → Bool) (s : Bytes) : Option (Bytes × Bytes × Nat) :=
  let n := countWhile digit s
  let r := s.drop n
  if r.head? = some 46 then
    let k := countWhile digit (r.drop 1)
    if n + k = 0 then none else some (s.take n, (r.drop 1).take k, n + 1 + k)
  else if n = 0 then none else some (s.take n, [], n)

/-- An exponent after the letter `lower` or `upper`: its value and the number of characters, 0 if there is none. -/
def scanExponent (lower upper : Byte) (s : Bytes) : Int × Nat :=
  if s.head? = some lower ∨ s.head? = some upper then
    let r := s.drop 1
    let sign := if r.head? = some 45 ∨ r.head? = some 43 then 1 else 0
    let n := countWhile isDigit (r.drop sign)
    if n = 0 then (0, 0)
    else
      let v : Nat := digitsValue 10 ((r.drop sign).take n)
      (if r.head? = some 45 then -(v : Int) else v, 1 + sign + n)
  else (0, 0)

/-- A letter of a text compared without regard to its case. -/
def sameLetter (c l : Byte) : Bool := c == l || (decide (65 ≤ c) && decide (c ≤ 90) && c + 32 == l)

/-- The text starts with the word, in any letter case. -/
def startsWith (w : Bytes) (s : Bytes) : Bool :=
  decide (w.length ≤ s.length) && (s.zip w).all (fun p => sameLetter p.1 p.2)

/-- The characters that may stand in `nan(...)`. -/
def isWordChar (c : Byte) : Bool :=
  isDigit c || (decide (65 ≤ c) && decide (c ≤ 90)) || (decide (97 ≤ c) && decide (c ≤ 122)) || c == 95

/-- What follows the sign: the value, the number of characters and whether `errno` is set. -/
def scanBody (F : Fmt) (tiny : Nat → Nat → Bool) (neg : Bool) (s : Bytes) : Option (Fl × Nat × Bool) :=
  let hex : Option (Fl × Nat × Bool) :=
    if startsWith (lit "0x") s then
      (scanMantissa isHexDigit (s.drop 2)).map (fun r =>
        let x := scanExponent 112 80 (s.drop (2 + r.2.2))
        let q := frac 2 (digitsValue 16 (r.1 ++ r.2.1)) (x.1 - 4 * r.2.1.length)
        let v := ofFrac F tiny neg q.1 q.2
        (v.1, 2 + r.2.2 + x.2, v.2))
    else none
  match hex with
  | some r => some r
  | none =>
    if startsWith (lit "infinity") s then some (.inf neg, 8, false)
    else if startsWith (lit "inf") s then some (.inf neg, 3, false)
    else if startsWith (lit "nan") s then
      let r := s.drop 3
      let n := countWhile isWordChar (r.drop 1)
      if r.head? = some 40 ∧ (r.drop (1 + n)).head? = some 41 then some (.nan neg, 3 + 1 + n + 1, false)
      else some (.nan neg, 3, false)
    else
      (scanMantissa isDigit s).map (fun r =>
        let x := scanExponent 101 69 (s.drop r.2.2)
        let q := frac 10 (digitsValue 10 (r.1 ++ r.2.1)) (x.1 - r.2.1.length)
        let v := ofFrac F tiny neg q.1 q.2
        (v.1, r.2.2 + x.2, v.2))

/-- `strtof`, `strtod`, `strtold` (C11 7.22.1.3). -/
def strtofl (F : Fmt) (tiny : Nat → Nat → Bool) (s : Bytes) : StrtoResult Fl :=
  let ws := countWhile isSpaceC s
  let s1 := s.drop ws
  let neg := s1.head? == some 45
  let sign := if s1.head? = some 45 ∨ s1.head? = some 43 then 1 else 0
  match scanBody F tiny neg (s1.drop sign) with
  | none => ⟨.fin false 0 F.emin, 0, false⟩
  | some (v, n, errno) => ⟨v, ws + sign + n, errno⟩

/-! ## `%g` -/

/-- The greatest `k` with `10^k ≤ n / d`. -/
def ilog10 (n d : Nat) : Int :=
  if d ≤ n then ((natDec (n / d)).length : Int) - 1 else -((natDec ((d - 1) / n)).length : Int)

/-- Six significant digits of `n / d`, as a number, and the exponent of the first one. -/
def sixDigits (n d : Nat) : Nat × Int :=
  let k := ilog10 n d
  let p := scale 10 n d (k - 5)
  let m := roundDiv p.1 p.2
  if m = 10 ^ 6 then (10 ^ 5, k + 1) else (m, k)

/-- Without trailing zeros. -/
def strip (ds : Bytes) : Bytes := (ds.reverse.dropWhile (· == 48)).reverse

/-- The digits after the point, and the point if there are any. -/
def fraction (ds : Bytes) : Bytes := if strip ds = [] then [] else 46 :: strip ds

/-- Six digits and a decimal exponent in the style of `%g`. -/
def layoutG (ds : Bytes) (x : Int) : Bytes :=
  if -4 ≤ x ∧ x < 6 then
    if 0 ≤ x then ds.take (x.toNat + 1) ++ fraction (ds.drop (x.toNat + 1))
    else 48 :: fraction (List.replicate ((-x).toNat - 1) 48 ++ ds)
  else
    let a := x.natAbs
    ds.take 1 ++ fraction (ds.drop 1) ++ [101, if x < 0 then 45 else 43] ++ (if a < 10 then 48 :: natDec a else natDec a)

/-- The sign of a printed number. -/
def signText (neg : Bool) : Bytes := if neg then [45] else []

/-- `%g` and `%Lg` (C11 7.21.6.1 p8; precision 6). -/
def printG : Fl → Bytes
  | .fin neg m e =>
    if m = 0 then signText neg ++ [48]
    else
      let q := frac 2 m e
      let r := sixDigits q.1 q.2
      signText neg ++ layoutG (natDec r.1) r.2
  | .inf neg => signText neg ++ lit "inf"
  | .nan neg => signText neg ++ lit "nan"

/-! ## The comparison in `toString` -/

/-- The constant `1e-6` of type `double` (StringConv.cpp 138, 146, 154). -/
def bound : Nat × Int := roundFmt .double 1 1000000

/-- `value > -1e-6 && value < 1e-6` (StringConv.cpp 138, 146, 154). Both operands are converted to the wider of the two types, which is exact. -/
def almostZero : Fl → Bool
  | .fin _ m e =>
    let x := frac 2 m e
    let b := frac 2 bound.1 bound.2
    decide (x.1 * b.2 < b.1 * x.2)
  | _ => false

/-- The C library for a format. -/
def lib (F : Fmt) (tiny : Nat → Nat → Bool) : FloatLib Fl := ⟨strtofl F tiny, almostZero, printG⟩

end Fl
end Coil
