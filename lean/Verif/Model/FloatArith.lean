import Verif.Model.Float

/-!
# Floating-point arithmetic

`+`, `*`, `/` and the conversions between floating-point and integer types as IEEE 754 has them (C11 F.3, F.4), rounding to the nearest number. The
sign of a NaN that an operation gives is left open (`nan`, a function of the operands).

Simplification: operations are performed in the type of the operands (`FLT_EVAL_METHOD` is 0), and products are not fused with sums.
-/

namespace Coil.Fl

/-- The number of the format nearest to `n / d`, or an infinity. -/
def roundTo (F : Fmt) (neg : Bool) (q : Nat × Nat) : Fl := (ofFrac F (fun _ _ => false) neg q.1 q.2).1

/-- An integer with a sign. -/
def signed (neg : Bool) (n : Nat) : Int := if neg then -(n : Int) else n

/-- `a + b` for finite numbers: the exact sum is `z * 2^k`, where `k` is the lesser exponent. -/
def addFin (F : Fmt) (s : Bool) (m : Nat) (e : Int) (t : Bool) (n : Nat) (f : Int) : Fl :=
  let k := min e f
  let z := signed s (m * 2 ^ (e - k).toNat) + signed t (n * 2 ^ (f - k).toNat)
  if z = 0 then .fin (s && t) 0 F.emin else roundTo F (decide (z < 0)) (frac 2 z.natAbs k)

/-- `a + b`. -/
def add (F : Fmt) (nan : Fl → Fl → Bool) (a b : Fl) : Fl :=
  match a, b with
  | .nan _, _ => .nan (nan a b)
  | _, .nan _ => .nan (nan a b)
  | .inf s, .inf t => if s = t then .inf s else .nan (nan a b)
  | .inf s, .fin _ _ _ => .inf s
  | .fin _ _ _, .inf t => .inf t
  | .fin s m e, .fin t n f => addFin F s m e t n f

/-- `a * b`. -/
def mul (F : Fmt) (nan : Fl → Fl → Bool) (a b : Fl) : Fl :=
  match a, b with
  | .nan _, _ => .nan (nan a b)
  | _, .nan _ => .nan (nan a b)
  | .inf s, .inf t => .inf (s ^^ t)
  | .inf s, .fin t n _ => if n = 0 then .nan (nan a b) else .inf (s ^^ t)
  | .fin s m _, .inf t => if m = 0 then .nan (nan a b) else .inf (s ^^ t)
  | .fin s m e, .fin t n f => roundTo F (s ^^ t) (frac 2 (m * n) (e + f))

/-- `a / b`. -/
def div (F : Fmt) (nan : Fl → Fl → Bool) (a b : Fl) : Fl :=
  match a, b with
  | .nan _, _ => .nan (nan a b)
  | _, .nan _ => .nan (nan a b)
  | .inf _, .inf _ => .nan (nan a b)
  | .inf s, .fin t _ _ => .inf (s ^^ t)
  | .fin s _ _, .inf t => .fin (s ^^ t) 0 F.emin
  | .fin s m e, .fin t n f =>
    if n = 0 then (if m = 0 then .nan (nan a b) else .inf (s ^^ t))
    else
      let q := frac 2 m (e - f)
      roundTo F (s ^^ t) (q.1, q.2 * n)

/-- The conversion of an unsigned integer. -/
def ofNat (F : Fmt) (n : Nat) : Fl := roundTo F false (n, 1)

/-- The conversion to an unsigned type of the given number of bits: the fraction is dropped; a number that does not fit then is undefined
behaviour (C++17 [conv.fpint] p1). -/
def toUnsigned (bits : Nat) : Fl → Res Nat
  | .fin neg m e =>
    let q := frac 2 m e
    let t := q.1 / q.2
    if t = 0 ∨ (neg = false ∧ t < 2 ^ bits) then .ok t else .ub .castRange
  | _ => .ub .castRange

end Coil.Fl
