import Verif.Model.FloatCommands
import Verif.Model.NamedCommands

/-!
# Commands that report errors

The functions of examples/errors/ErrorsExample.cpp.

Simplifications: `std::sqrt` of a `float` is correctly rounded (IEEE 754-2008 5.4.1, C11 F.10.4.5); the sign of a NaN it gives is a parameter. The
exception thrown is one derived from `std::exception` with the text given as its `what()`.
-/

namespace Coil

namespace Fl

/-- The greatest `s` with `s * s ≤ n`, for `n < 4^k`: two binary digits of `n` for one of `s`. -/
def isqrt : Nat → Nat → Nat
  | 0, _ => 0
  | k + 1, n =>
    let s := 2 * isqrt k (n / 4)
    if (s + 1) * (s + 1) ≤ n then s + 1 else s

/-- The square root of `m * 2^e`, rounded, for `0 < m < 2^prec`: the number is written with an even exponent and with at least `2 * prec - 1`
binary digits, and its root is rounded to a whole number. A root is never halfway between two whole numbers. -/
def sqrtFin (F : Fmt) (m : Nat) (e : Int) : Fl :=
  let i : Nat := 2 * F.prec - 2 - Nat.log2 m
  let j : Nat := if (e - i) % 2 = 0 then i else i + 1
  let n := m * 2 ^ j
  let s := isqrt F.prec n
  roundTo F false (frac 2 (if n ≤ s * s + s then s else s + 1) ((e - j) / 2))

/-- `std::sqrt` (ErrorsExample.cpp 20, 28). -/
def sqrt (F : Fmt) (nan : Fl → Bool) : Fl → Fl
  | .fin neg m e => if m = 0 then .fin neg m e else if neg then .nan (nan (.fin neg m e)) else sqrtFin F m e
  | .inf neg => if neg then .nan (nan (.inf neg)) else .inf neg
  | .nan neg => .nan (nan (.nan neg))

/-- `x < 0.0f` (ErrorsExample.cpp 14, 25). -/
def isNegative : Fl → Bool
  | .fin neg m _ => neg && decide (m ≠ 0)
  | .inf neg => neg
  | .nan _ => false

end Fl

variable {W C D : Type}

/-- The constant `0.0f` (ErrorsExample.cpp 17, 38). -/
def zeroF : Fl := .fin false 0 Fmt.single.emin

/-- The function object of `sqrt_context` (ErrorsExample.cpp 12-21, 88). -/
def sqrtContextDef (tiny : Nat → Nat → Bool) (nan : Fl → Bool) : FunctorDef W C D where
  params := [⟨Fl, singleConv tiny⟩]
  R := Fl
  retName := lit "float"
  print := some (singleConv tiny).toString
  body := fun a =>
    if Fl.isNegative a.1 then .reportError (lit "Value should be non-negative!") (.ret zeroF) else .ret (Fl.sqrt .single nan a.1)

/-- The function object of `sqrt_except` (ErrorsExample.cpp 23-29, 89). -/
def sqrtExceptDef (tiny : Nat → Nat → Bool) (nan : Fl → Bool) : FunctorDef W C D where
  params := [⟨Fl, singleConv tiny⟩]
  R := Fl
  retName := lit "float"
  print := some (singleConv tiny).toString
  body := fun a =>
    if Fl.isNegative a.1 then .throw (.std (lit "Value should be non-negative!")) else .ret (Fl.sqrt .single nan a.1)

/-- The function object of `get_float` (ErrorsExample.cpp 31-39, 90). -/
def getFloatDef (tiny : Nat → Nat → Bool) : FunctorDef W C D where
  params := [⟨Value, valueConv⟩]
  R := Fl
  retName := lit "float"
  print := some (singleConv tiny).toString
  body := fun a => (Prog.ofRes ((singleConv tiny).fromString a.1)).bind fun
    | .ok x => .ret x
    | .error e => .reportError e (.ret zeroF)

/-- The function object of `get_type_name` (ErrorsExample.cpp 41-53, 91). -/
def getTypeNameDef (pl : Platform) (tiny : Nat → Nat → Bool) : FunctorDef W C D where
  params := [⟨Value, valueConv⟩]
  R := Bytes
  retName := stringConv.name
  print := some stringConv.toString
  body := fun a => (Prog.ofRes ((boolConv pl).fromString a.1)).bind fun
    | .ok _ => .ret (lit "bool")
    | .error eb => (Prog.ofRes ((intConv pl .int).fromString a.1)).bind fun
      | .ok _ => .ret (lit "int")
      | .error ei => (Prog.ofRes ((singleConv tiny).fromString a.1)).bind fun
        | .ok _ => .ret (lit "float")
        | .error ef =>
          .reportError (lit "Unknown type") <| .reportError eb <| .reportError ei <| .reportError ef <| .ret []

/-- The function object of `test_named_args` (ErrorsExample.cpp 55-81, 92). -/
def testNamedArgsDef (pl : Platform) (tiny : Nat → Nat → Bool) : FunctorDef W C D :=
  ⟨[], Unit, lit "void", none, fun _ =>
    (namedGetOrReport (lit "any_arg") true).bind fun
    | none => .ret ()
    | some any => (namedGetOrReportT (singleConv tiny) (lit "float_arg") true none).bind fun
      | none => .ret ()
      | some x => (namedGetOrReportT (intConv pl .int) (lit "int_arg") false none).bind fun z =>
        .hasErrors fun wrong =>
          if wrong then .ret ()
          else .log (cstr any.str ++ lit ", " ++ Fl.printG x) <|
            match z with
            | none => .ret ()
            | some z => .log (lit ", " ++ intDec z) (.ret ())⟩

end Coil
