import Verif.Model.FloatCommands
import Verif.Model.Enums

/-!
# Commands with named arguments

The functions `printArgs`, `printFloats`, `saveGame` and `requiredAndOptional` of examples/named/NamedExample.cpp.

Simplification: `%f` is rounded to the nearest text, of two to the even one (C11 7.21.6.1 p13, F.5, as in glibc and musl).
-/

namespace Coil

/-- The last `k` decimal digits of a number. -/
def lastDigits : Nat → Nat → Bytes
  | 0, _ => []
  | k + 1, n => lastDigits k (n / 10) ++ [UInt8.ofNat (48 + n % 10)]

/-- `%f` (C11 7.21.6.1 p8; precision 6). A `float` is promoted to `double`, which is exact. -/
def Fl.printF : Fl → Bytes
  | .fin neg m e =>
    let q := Fl.frac 2 m e
    let n := Fl.roundDiv (q.1 * 10 ^ 6) q.2
    Fl.signText neg ++ (natDec (n / 10 ^ 6) ++ 46 :: lastDigits 6 n)
  | .inf neg => Fl.signText neg ++ lit "inf"
  | .nan neg => Fl.signText neg ++ lit "nan"

/-- The loop of `printArgs` (NamedExample.cpp 115-116). -/
def printArgsLoop {W C D : Type} : List Named → Prog W C D Unit
  | [] => .ret ()
  | arg :: rest => .logline (cstr arg.key ++ lit ": " ++ cstr arg.value.str) (printArgsLoop rest)

/-- The function object of `print_args` (NamedExample.cpp 113-117, 182). -/
def printArgsDef {W C D : Type} : FunctorDef W C D :=
  ⟨[], Unit, lit "void", none, fun _ => .named printArgsLoop⟩

/-- The loop of `printFloats` (NamedExample.cpp 121-123). -/
def printFloatsLoop {W C D : Type} (tiny : Nat → Nat → Bool) : List Named → Prog W C D Unit
  | [] => .ret ()
  | arg :: rest => (Prog.ofRes ((singleConv tiny).fromString arg.value)).bind fun
    | .error _ => printFloatsLoop tiny rest
    | .ok val => .logline (cstr arg.key ++ lit ": " ++ Fl.printF val) (printFloatsLoop tiny rest)

/-- The function object of `print_floats` (NamedExample.cpp 119-124, 183). -/
def printFloatsDef {W C D : Type} (tiny : Nat → Nat → Bool) : FunctorDef W C D :=
  ⟨[], Unit, lit "void", none, fun _ => .named (printFloatsLoop tiny)⟩

/-- `enum class SaveGameType` (NamedExample.cpp 126-130). -/
def saveGameDecl : EnumDecl := ⟨lit "SaveGameType", .int, true, [(lit "Disk", 0), (lit "Memory", 1)]⟩

/-- The function object of `save_game` (NamedExample.cpp 132-144, 184). -/
def saveGameDef {W C D : Type} (pl : Platform) (tiny : Nat → Nat → Bool) : FunctorDef W C D :=
  ⟨[], Unit, lit "void", none, fun _ =>
    (namedGetOrReportT (enumConv pl saveGameDecl) (lit "type") true none).bind fun type =>
    (namedGetOrReportT (singleConv tiny) (lit "delay") false (some (.fin false 0 Fmt.single.emin))).bind fun delay =>
    match type, delay with
    | some t, some d =>
      .logline (lit "Saving game with type " ++ enumName (saveGameDecl.entries pl) t ++ lit " and delay " ++ Fl.printF d ++ lit " ms") (.ret ())
    | _, _ => .ret ()⟩

/-- What is done with a value that is there (NamedExample.cpp 154-159, 164-169). -/
def showAny {W C D : Type} (pl : Platform) (label : Bytes) (v : Value) (k : Prog W C D Unit) : Prog W C D Unit :=
  (Prog.ofRes ((boolConv pl).fromString v)).bind fun
    | .ok b => .logline (label ++ if b then lit "true" else lit "false") k
    | .error eb => (Prog.ofRes ((intConv pl .int).fromString v)).bind fun
      | .ok z => .logline (label ++ intDec z) k
      | .error ei => .reportError eb (.reportError ei k)

/-- The function object of `required_and_optional` (NamedExample.cpp 146-171, 185). -/
def requiredAndOptionalDef {W C D : Type} (pl : Platform) : FunctorDef W C D :=
  ⟨[], Unit, lit "void", none, fun _ =>
    (namedGetOrReport (lit "required") true).bind fun
    | none => .ret ()
    | some r => showAny pl (lit "Required: ") r <|
      (namedGetOrReport (lit "optional") false).bind fun
      | none => .ret ()
      | some o => showAny pl (lit "Optional: ") o (.ret ())⟩

end Coil
