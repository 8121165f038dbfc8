import Verif.Model.Float
import Verif.Proofs.LexMain

/-!
# The tests of the conversions, replayed on the model

The expectations of tests/runtime/StringConvTests.cpp and TypeSerializerTests.cpp. They are tests of the model, not proofs about it.
Where the tests compare floating-point numbers up to a tolerance, the exact nearest number is expected here.
-/

namespace Coil
namespace RepoTests
open Fl

/-- 64-bit Linux, or a platform that differs from it in the width of `long` and the sign of `char`. -/
def plat (long64 charSigned : Bool) : Platform := ⟨long64, charSigned, false, true⟩

/-- All integer types. -/
def intTypes : List IntType := [.char, .schar, .uchar, .short, .ushort, .int, .uint, .long, .ulong, .llong, .ullong]

/-- The largest value of each type on such a platform (`limits.h`). -/
def maxOf (long64 charSigned : Bool) : IntType → Int
  | .char => if charSigned then 127 else 255
  | .schar => 127
  | .uchar => 255
  | .short => 32767
  | .ushort => 65535
  | .int => 2147483647
  | .uint => 4294967295
  | .long => if long64 then 9223372036854775807 else 2147483647
  | .ulong => if long64 then 18446744073709551615 else 4294967295
  | .llong => 9223372036854775807
  | .ullong => 18446744073709551615

/-- The least value of each type. -/
def minOf (long64 charSigned : Bool) : IntType → Int
  | .char => if charSigned then -128 else 0
  | .schar => -128
  | .short => -32768
  | .int => -2147483648
  | .long => if long64 then -9223372036854775808 else -2147483648
  | .llong => -9223372036854775808
  | _ => 0

/-- Something holds of all platforms considered here and all integer types. -/
def everywhere (p : Bool → Bool → IntType → Bool) : Bool :=
  [true, false].all fun l => [true, false].all fun c => intTypes.all fun t => p l c t

/-! ## StringConvTests.cpp -/

/-! `TestIntegerToString` (11) -/

example : [IntType.int, .long, .llong].all (fun t => t.toString 314 == lit "314" && t.toString (-314) == lit "-314") &&
    [IntType.uint, .ulong, .ullong].all (fun t => t.toString 314 == lit "314") = true := by decide +kernel

/-- The number nearest to the decimal fraction `n / d` in a format, with a sign: what a literal in the source means. -/
def num (F : Fmt) (neg : Bool) (n d : Nat) : Fl := (ofFrac F (fun _ _ => false) neg n d).1

/-- `coil::toString` of it. -/
def shown (F : Fmt) (neg : Bool) (n d : Nat) : Bytes := floatToString (lib F (fun _ _ => false)) (num F neg n d)

/-- The three formats. -/
def formats : List Fmt := [.single, .double, .extended]

/-! `TestFloatToString` (26), `TestFloatToStringEdgeCases` (33), `TestFloatToStringZero` (49), `TestFloatToStringSpecial` (71) -/

example : formats.map (fun F => shown F false 314 100) = [lit "3.14", lit "3.14", lit "3.14"] := by decide +kernel
example : shown .single false 100000 1 = lit "100000" := by decide +kernel
example : shown .single false 1000000 1 = lit "1e+06" := by decide +kernel
example : shown .single false 1 10000 = lit "0.0001" := by decide +kernel
example : shown .single false 1 100000 = lit "1e-05" := by decide +kernel
example : shown .single false 299999 100000 = lit "2.99999" := by decide +kernel
example : shown .single false 2999999 1000000 = lit "3" := by decide +kernel
example : shown .single false 3000001 1000000 = lit "3" := by decide +kernel
example : shown .single false 300001 100000 = lit "3.00001" := by decide +kernel
example : formats.all (fun F => shown F false 0 1 == lit "0" && shown F true 0 1 == lit "0" &&
    shown F false 1 10000000 == lit "0" && shown F true 1 10000000 == lit "0") = true := by decide +kernel
example : printG (.inf false) = lit "inf" ∧ printG (.inf true) = lit "-inf" := by decide +kernel
example (sign : Bool) : floatToString (lib .single (fun _ _ => false)) (.inf sign) = printG (.inf sign) := rfl

/-! `TestIntegerFromStringValidPositive` (80), `TestIntegerFromStringValidNegative` (139) -/

example : everywhere (fun l c t => t.fromString (plat l c) (lit "16") == some 16) = true := by decide +kernel
example : everywhere (fun l c t => if t ∈ [IntType.schar, .short, .int, .long, .llong] then
    t.fromString (plat l c) (lit "-16") == some (-16) else true) = true := by decide +kernel

/-! `TestIntegerFromStringOutOfRangePositive` (168), `TestIntegerFromStringOutOfRangeNegative` (216): a zero after the largest or
least value; "-1" for types without negative values. -/

example : everywhere (fun l c t => t.fromString (plat l c) (intDec (maxOf l c t) ++ lit "0") == none) = true := by decide +kernel
example : everywhere (fun l c t => t.fromString (plat l c) (if minOf l c t = 0 then lit "-1" else
    intDec (minOf l c t) ++ lit "0") == none) = true := by decide +kernel

/-! `TestIntegerFromStringNoDigits` (271), `TestIntegerFromStringPartialNumber` (330) -/

example : everywhere (fun l c t => t.fromString (plat l c) (lit "string") == none && t.fromString (plat l c) [] == none) = true := by
  decide +kernel
example : everywhere (fun l c t => t.fromString (plat l c) (lit "16string") == none) = true := by decide +kernel

/-- `coil::fromString` for a floating-point type. -/
def reads (F : Fmt) (t : String) : Option Fl := floatFromString (strtofl F (fun _ _ => false)) (lit t)

/-! `TestFloatFromStringValid` (378), `TestFloatFromStringOutOfRange` (425), `TestFloatFromStringNoDigits` (441),
`TestFloatFromStringPartialNumber` (460) -/

example : formats.all (fun F => reads F "3.14" == some (num F false 314 100)) = true := by decide +kernel
example : formats.all (fun F => reads F "0.0000001" == some (num F false 1 10000000)) = true := by decide +kernel
example : formats.all (fun F => reads F "123456789" == some (num F false 123456789 1)) = true := by decide +kernel
example : formats.all (fun F => reads F "1e16" == some (num F false (10 ^ 16) 1) &&
    reads F "1e+16" == some (num F false (10 ^ 16) 1) && reads F "1e-16" == some (num F false 1 (10 ^ 16))) = true := by
  decide +kernel
/-- `FLT_MAX`, `DBL_MAX`. -/
def largest (F : Fmt) : Fl := .fin false (2 ^ F.prec - 1) F.emax

example : printG (largest .single) = lit "3.40282e+38" ∧ reads .single "3.40282e+380" = none := by
  constructor <;> decide +kernel
example : printG (largest .double) = lit "1.79769e+308" ∧ reads .double "1.79769e+3080" = none := by
  constructor <;> decide +kernel
example : formats.all (fun F => reads F "string" == none && reads F "" == none && reads F "3.14string" == none) = true := by
  decide +kernel

/-! ## TypeSerializerTests.cpp -/

/-- A value with the given texts. -/
def val (texts : List String) : Value := ⟨texts.map lit⟩

/-- A conversion without undefined behaviour gives this result. -/
def gives {α : Type} [DecidableEq α] (c : Conv α) (texts : List String) (x : α) : Bool :=
  decide (c.fromString (val texts) = .ok (.ok x))

/-- A conversion fails with this message. -/
def fails {α : Type} [DecidableEq α] (c : Conv α) (texts : List String) (message : String) : Bool :=
  decide (c.fromString (val texts) = .ok (.error (lit message)))

/-- The serializer of an integer type on 64-bit Linux. -/
abbrev conv (t : IntType) : Conv Int := intConv (plat true true) t

/-! `TestIntValidInputFromString` (123), `TestIntInvalidInputFromString` (131), `TestIntToString` (139) -/

example : gives (conv .int) ["-2147483648"] (-2147483648) = true := by decide +kernel
example : gives (conv .int) ["2147483647"] 2147483647 = true := by decide +kernel
example : gives (conv .uint) ["0"] 0 = true := by decide +kernel
example : gives (conv .uint) ["4294967295"] 4294967295 = true := by decide +kernel
example : fails (conv .int) ["42", "314"] "Unable to convert '42 314' to type 'int': Expected 1 subvalues, got 2" = true := by
  decide +kernel
example : fails (conv .int) ["foo", "bar"] "Unable to convert 'foo bar' to type 'int': Expected 1 subvalues, got 2" = true := by
  decide +kernel
example : fails (conv .int) ["foo"] "Unable to convert 'foo' to type 'int'" = true := by decide +kernel
example : fails (conv .int) ["42foo"] "Unable to convert '42foo' to type 'int'" = true := by decide +kernel
example : (conv .int).toString (-2147483648) = lit "-2147483648" := by decide +kernel
example : (conv .int).toString 2147483647 = lit "2147483647" := by decide +kernel
example : (conv .uint).toString 0 = lit "0" := by decide +kernel
example : (conv .uint).toString 4294967295 = lit "4294967295" := by decide +kernel

/-- The serializer of `float`. -/
abbrev convF : Conv Fl := floatConv (lit "float") (lib .single (fun _ _ => false))

/-! `TestFloatValidInputFromString` (147), `TestFloatInvalidInputFromString` (173) -/

example : gives convF ["1.0e-37"] (num .single false 1 (10 ^ 37)) = true := by decide +kernel
example : gives convF ["-1.0e-37"] (num .single true 1 (10 ^ 37)) = true := by decide +kernel
example : gives convF ["1.0e37"] (num .single false (10 ^ 37) 1) = true := by decide +kernel
example : gives convF ["-1.0e37"] (num .single true (10 ^ 37) 1) = true := by decide +kernel
example : gives convF ["0"] (num .single false 0 1) = true := by decide +kernel
example : gives convF ["-0"] (num .single true 0 1) = true := by decide +kernel
example : gives convF ["3.14"] (num .single false 314 100) = true := by decide +kernel
example : gives convF ["-3.14"] (num .single true 314 100) = true := by decide +kernel
example : gives convF ["314"] (num .single false 314 1) = true := by decide +kernel
example : gives convF ["-314"] (num .single true 314 1) = true := by decide +kernel
example : ["inf", "INF", "infinity", "INFINITY"].all (fun t => gives convF [t] (.inf false)) = true := by decide +kernel
example : ["-inf", "-INF", "-infinity", "-INFINITY"].all (fun t => gives convF [t] (.inf true)) = true := by decide +kernel
example : ["nan", "NAN"].all (fun t => match convF.fromString (val [t]) with
  | .ok (.ok (.nan _)) => true
  | _ => false) = true := by decide +kernel
example : fails convF ["42.0", "314.0"] "Unable to convert '42.0 314.0' to type 'float': Expected 1 subvalues, got 2" = true := by
  decide +kernel
example : fails convF ["foo", "bar"] "Unable to convert 'foo bar' to type 'float': Expected 1 subvalues, got 2" = true := by
  decide +kernel
example : fails convF ["foo"] "Unable to convert 'foo' to type 'float'" = true := by decide +kernel
example : fails convF ["42.0foo"] "Unable to convert '42.0foo' to type 'float'" = true := by decide +kernel

/-! `TestPointersToString` (181) -/

example : ptrToString (conv .int) (some 42) = lit "42" ∧ ptrToString (conv .int) none = lit "null" := by
  constructor <;> decide +kernel

/-! `TestOutOfRangeInputFromString` (190) -/

example : fails (conv .char) ["-129"] "Unable to convert '-129' to type 'char'" = true := by decide +kernel
example : fails (conv .char) ["128"] "Unable to convert '128' to type 'char'" = true := by decide +kernel
example : fails (conv .uchar) ["-1"] "Unable to convert '-1' to type 'unsigned char'" = true := by decide +kernel
example : fails (conv .uchar) ["256"] "Unable to convert '256' to type 'unsigned char'" = true := by decide +kernel

/-! `TestBoolValidInputFromString` (198), `TestBoolInvalidInputFromString` (213), `TestBoolToString` (222) -/

example : ["false", "False", "FALse", "FALSE", "0"].all (fun t => gives (boolConv (plat true true)) [t] false) = true := by
  decide +kernel
example : ["true", "True", "TRue", "TRUE", "1"].all (fun t => gives (boolConv (plat true true)) [t] true) = true := by
  decide +kernel
example : fails (boolConv (plat true true)) ["foo", "bar"]
    "Unable to convert 'foo bar' to type 'bool': Expected 1 subvalues, got 2" = true := by decide +kernel
example : fails (boolConv (plat true true)) ["2"] "Unable to convert '2' to type 'bool'" = true := by decide +kernel
example : fails (boolConv (plat true true)) ["none"] "Unable to convert 'none' to type 'bool'" = true := by decide +kernel
example : fails (boolConv (plat true true)) ["-1"] "Unable to convert '-1' to type 'bool'" = true := by decide +kernel
example : (boolConv (plat true true)).toString true = lit "true" ∧ (boolConv (plat true true)).toString false = lit "false" := by
  constructor <;> decide +kernel

/-! `TestStringTypesValidInputFromString` (228), `TestStringTypesInvalidInputFromString` (234), `TestStringTypesToString` (240) -/

example : gives stringConv ["foo"] (lit "foo") = true := by decide +kernel
example : fails stringConv ["foo", "bar"] "Unable to convert 'foo bar' to type 'string': Expected 1 subvalues, got 2" = true := by
  decide +kernel
example : stringConv.toString (lit "foo") = lit "foo" := by decide +kernel

/-! `TestArithmeticFromString` (289) -/

example : intTypes.all (fun t => gives (conv t) ["0"] 0) = true := by decide +kernel

end RepoTests
end Coil
