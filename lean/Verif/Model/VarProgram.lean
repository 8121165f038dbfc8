import Verif.Model.FloatCommands
import Verif.Model.NamedCommands
import Verif.Model.Enums

/-!
# Programs of variables

Programs that bind any number of variables with `coil::variable`, commands like the `toggle` of examples/variables/VariablesExample.cpp, and
commands that write a line about the variables; in the end the program of that example.

Simplification: a variable is a place in the state of the program that can be read and written (`VarRef`); that the places are apart is a
hypothesis of the theorems.
-/

namespace Coil

/-- The functions of such a program: `T k` is the type of the variable `k`. -/
inductive VarCode (K : Type) (T : K → Type) where
  /-- the first lambda of `coil::variable` (Variable.h 9-19) -/
  | read (k : K)
  /-- the second lambda of `coil::variable` (Variable.h 9-19), the setter of `toggle` (VariablesExample.cpp 31-34) -/
  | set (k : K)
  /-- the first lambda of a command like `toggle` (VariablesExample.cpp 27-30), with `f` instead of `!` -/
  | change (k : K) (f : T k → T k)
  /-- a lambda that writes one line (VariablesExample.cpp 55-58) -/
  | line (text : (∀ k, T k) → Bytes)

/-- The variables of a program: how they are converted and where they are. -/
structure Vars (K : Type) (T : K → Type) (W : Type) where
  conv : ∀ k, Conv (T k)
  ref : ∀ k, VarRef W (T k)

/-- The values of the variables. -/
def Vars.values {K : Type} {T : K → Type} {W : Type} (V : Vars K T W) (w : W) : ∀ k, T k := fun k => (V.ref k).read w

/-- The function objects (Variable.h 9-19; VariablesExample.cpp 25-38, 55-58). -/
def Vars.functions {K : Type} {T : K → Type} {W : Type} (V : Vars K T W) : VarCode K T → FunctorDef W (VarCode K T) Unit
  | .read k => ⟨[], T k, (V.conv k).name, some (V.conv k).toString, fun _ => .get fun w => .ret ((V.ref k).read w)⟩
  | .set k => ⟨[⟨T k, V.conv k⟩], T k, (V.conv k).name, some (V.conv k).toString, fun a =>
      .get fun w => .set ((V.ref k).write a.1 w) (.get fun w' => .ret ((V.ref k).read w'))⟩
  | .change k f => ⟨[], T k, (V.conv k).name, some (V.conv k).toString, fun _ =>
      .get fun w => .set ((V.ref k).write (f ((V.ref k).read w)) w) (.get fun w' => .ret ((V.ref k).read w'))⟩
  | .line text => ⟨[], Unit, lit "void", none, fun _ => .get fun w => .logline (text (V.values w)) (.ret ())⟩

/-- What a command is bound to. -/
inductive VarKind (K : Type) (T : K → Type) where
  /-- `coil::variable(&k)` -/
  | plain (k : K)
  /-- `toggle(&k)`, with `f` instead of `!` -/
  | toggle (k : K) (f : T k → T k)
  /-- a command that writes a line -/
  | line (text : (∀ k, T k) → Bytes)

/-- The functions of a command (Variable.h 18; VariablesExample.cpp 37, 55). -/
def VarKind.codes {K : Type} {T : K → Type} : VarKind K T → List (VarCode K T × Unit)
  | .plain k => [(.read k, ()), (.set k, ())]
  | .toggle k f => [(.change k f, ()), (.set k, ())]
  | .line text => [(.line text, ())]

/-- The table of a program. -/
def varTable {K : Type} {T : K → Type} (cs : List (Bytes × VarKind K T)) : List (Bytes × List (VarCode K T × Unit)) :=
  cs.map fun c => (c.1, c.2.codes)

/-- The functions of a variable are those of `coil::variable`. -/
example {K : Type} {T : K → Type} {W : Type} (V : Vars K T W) (k : K) :
    variableDefs (V.conv k) (V.ref k) = [V.functions (.read k), V.functions (.set k)] := rfl

/-! ## The program of the example -/

/-- The variables of `VariablesExample::run` (VariablesExample.cpp 45-48). -/
inductive ExampleVar where
  | timeScale
  | city
  | type
  | godMode
  deriving DecidableEq

/-- `enum class Type` (VariablesExample.cpp 12-17). -/
def exampleDecl : EnumDecl := ⟨lit "Type", .int, true, [(lit "Type1", 0), (lit "Type2", 1), (lit "Type3", 2)]⟩

/-- The types of the variables (VariablesExample.cpp 45-48). -/
abbrev ExampleVar.Ty : ExampleVar → Type
  | .timeScale => Fl
  | .city => Bytes
  | .type => Int
  | .godMode => Bool

/-- The state of the program (VariablesExample.cpp 45-48). -/
structure VarWorld where
  timeScale : Fl
  city : Bytes
  type : Int
  godMode : Bool
  deriving DecidableEq

/-- The variables: serializers and addresses (VariablesExample.cpp 50-54). -/
def exampleVars (pl : Platform) (tiny : Nat → Nat → Bool) : Vars ExampleVar ExampleVar.Ty VarWorld where
  conv
    | .timeScale => singleConv tiny
    | .city => stringConv
    | .type => enumConv pl exampleDecl
    | .godMode => boolConv pl
  ref
    | .timeScale => ⟨fun w => w.timeScale, fun x w => { w with timeScale := x }⟩
    | .city => ⟨fun w => w.city, fun x w => { w with city := x }⟩
    | .type => ⟨fun w => w.type, fun x w => { w with type := x }⟩
    | .godMode => ⟨fun w => w.godMode, fun x w => { w with godMode := x }⟩

/-- The line of `print_variables` (VariablesExample.cpp 55-58); `%s` ends at a NUL, `%.*s` at the length of the name or at a NUL. -/
def exampleLine (pl : Platform) (x : ∀ k : ExampleVar, k.Ty) : Bytes :=
  let name := enumName (exampleDecl.entries pl) (x .type)
  lit "Time scale: " ++ Fl.printF (x .timeScale) ++ lit ", city: " ++ cstr (x .city) ++ lit ", type: " ++ cstr name

/-- The commands (VariablesExample.cpp 50-58). -/
def exampleCommands (pl : Platform) : List (Bytes × VarKind ExampleVar ExampleVar.Ty) :=
  [(lit "time_scale", .plain .timeScale), (lit "city", .plain .city), (lit "type", .plain .type), (lit "god_var", .plain .godMode),
   (lit "god_toggle", .toggle .godMode not), (lit "print_variables", .line (exampleLine pl))]

/-- The values at the beginning (VariablesExample.cpp 45-48). -/
def VarWorld.start : VarWorld := ⟨.fin false 8388608 (-23), lit "Moscow", 1, false⟩

end Coil
