import Verif.Model.TypeName
import Verif.Model.Registry
import Verif.Proofs.LexMain
import Verif.Props.UMap

/-!
# The tests of the registry, replayed on the model

The expectations of tests/runtime/BindingsTests.cpp and PropertyTests.cpp, in the order of these files. They are tests of the
model, not proofs about it. Left out: the tests that count copies and moves of arguments (`Test*Stats`, of which only the
number of calls is checked here), and what the compiler checks.
-/

namespace Coil
namespace RepoTests

/-- 64-bit Linux. -/
def pl : Platform := ⟨true, true, false, true⟩

/-- The program state of a test: one `int`. The code of a function is its place in the list of commands. -/
abbrev Fn := FunctorDef Int (Nat × Nat) Unit

/-- The body of a function of a test. -/
abbrev Body := Prog Int (Nat × Nat) Unit

abbrev int : Param := ⟨Int, intConv pl .int⟩
abbrev str : Param := ⟨Bytes, stringConv⟩

/-- A lambda without result. -/
def void (ps : List Param) (body : Args ps → Body Unit) : Fn := ⟨ps, Unit, lit "void", none, body⟩

/-- A lambda that returns a value with a serializer. -/
def fn {T : Type} (c : Conv T) (ps : List Param) (body : Args ps → Body T) : Fn := ⟨ps, T, c.name, some c.toString, body⟩

/-- The functions of a list of commands. -/
def code (cmds : List (String × List Fn)) (c : Nat × Nat) : Fn :=
  ((cmds[c.1]?.bind fun x => x.2[c.2]?).getD (void [] fun _ => .ret ()))

abbrev Reg := UMap Bytes (Command (Nat × Nat) Unit)

/-- The container of the code. -/
abbrev ops : RegOps Reg (Nat × Nat) Unit := mapOps false true overOne

/-- `bindings[name] = ...` for every command of the list, from number `i` on. -/
def register : List (String × List Fn) → Nat → Sys Reg Int (Nat × Nat) Unit → Res (Sys Reg Int (Nat × Nat) Unit)
  | [], _, s => .ok s
  | (name, fs) :: rest, i, s => do
    let s' ← bindingsAdd ops s (lit name) ((List.range fs.length).map fun j => ((i, j), ()))
    register rest (i + 1) s'

/-- What a test looks at: the errors, the returned value and the output. -/
structure Seen where
  errors : List Bytes
  value : Option Bytes
  output : Bytes
  deriving DecidableEq

/-- The result of `execute` as a test sees it; an exception is an error here. -/
def seen : ExecOut → Except Exn Seen
  | .ok r => .ok ⟨r.errors, r.returnValue, r.output⟩
  | .error e => .error e

/-- A test: register the commands in a new `Bindings`, do something with it, execute lines one after the other. Gives the results, the
variable and the number of calls of registered functions. -/
def runWith (catching : Bool) (cmds : List (String × List Fn)) (between : List (Action Int (Nat × Nat) Unit))
    (w : Int) (lines : List String) : Res (List (Except Exn Seen) × Int × Nat) := do
  let s ← newBindings true (some (lexRead (LexCfg.default true))) w
  let s ← register cmds 0 s
  let s ← actAll (code cmds) ops catching 2 s between
  let (s, out) ← executeAll (code cmds) ops catching 2 s (lines.map fun t => .line (lit t))
  .ok (out.map seen, s.user, s.calls.length)

abbrev run := runWith true

/-- No errors, a returned value, no output. -/
def value (v : String) : Except Exn Seen := .ok ⟨[], some (lit v), []⟩

/-- No errors and no value. -/
def done : Except Exn Seen := .ok ⟨[], none, []⟩

/-- Errors. -/
def errors (es : List String) : Except Exn Seen := .ok ⟨es.map lit, none, []⟩

/-- Output. -/
def output (t : String) : Except Exn Seen := .ok ⟨[], none, lit t⟩

/-- `&variable` of a test. -/
def variableRef : VarRef Int Int := ⟨id, fun x _ => x⟩

/-- `TypeSerializer<CompoundType>` (BindingsTests.cpp 131-155). -/
def compoundConv : Conv (Int × Int) where
  name := lit "CompoundType"
  fromString v :=
    match v.subvalues with
    | [a, b] => do
      let f1 ← (intConv pl .int).onTemporary a
      let f2 ← (intConv pl .int).onTemporary b
      match f1, f2 with
      | .ok x, .ok y => .ok (.ok (x, y))
      | .error e, _ => .ok (.error (genericError (lit "CompoundType") v e))
      | .ok _, .error e => .ok (.error (genericError (lit "CompoundType") v e))
    | _ => .ok (.error (mismatchError (lit "CompoundType") v 2))
  toString p := lit "CompoundType{" ++ intDec p.1 ++ lit "," ++ intDec p.2 ++ lit "}"

/-! ## BindingsTests.cpp -/

/-! `TestVoidFunctionCallStats` (263), `TestVoidFunctionWithDotsCallStats` (278) -/

example : run [("func", [void [] fun _ => .ret ()])] [] 0 ["func"] = .ok ([done], 0, 1) := by decide +kernel
example : run [("namespace.func", [void [] fun _ => .ret ()])] [] 0 ["namespace.func"] = .ok ([done], 0, 1) := by
  decide +kernel

/-! `TestErrorStats` (359): no call for a bad command -/

example : run [("func_without_args", [void [] fun _ => .ret ()]), ("func_with_arg", [void [int] fun _ => .ret ()]),
      ("var", variableDefs (intConv pl .int) variableRef)] [] 0
      ["func_without_args arg", "func_with_arg string_arg", "var string_arg", "var 42 43"] =
    .ok ([errors ["Wrong number of arguments to 'func_without_args': expected 0, got 1"],
      errors ["Unable to convert 'string_arg' to type 'int'"], errors ["Unable to convert 'string_arg' to type 'int'"],
      errors ["Wrong number of arguments to 'var': expected 0 or 1, got 2"]], 0, 0) := by decide +kernel
example : run [("func_without_args", [void [] fun _ => .ret ()]), ("func_with_arg", [void [int] fun _ => .ret ()]),
      ("var", variableDefs (intConv pl .int) variableRef)] [] 0 ["var 42", "func_without_args", "func_with_arg 42"] =
    .ok ([value "42", done, done], 42, 3) := by decide +kernel

/-! `TestFunctionWithStringArgument` (399) -/

example : run [("func", [fn stringConv [str] fun a => .ret a.1])] [] 0 ["func foo", "func \"foo bar baz\""] =
    .ok ([value "foo", value "foo bar baz"], 0, 2) := by decide +kernel

/-! `TestVariableRead` (420) to `TestReadonlyVariableWrite` (462) -/

example : run [("var", variableDefs (intConv pl .int) variableRef)] [] 42 ["var"] = .ok ([value "42"], 42, 1) := by
  decide +kernel
example : run [("var", variableDefs (intConv pl .int) variableRef)] [] 42 ["var 365"] = .ok ([value "365"], 365, 1) := by
  decide +kernel
example : run [("var", constVariableDefs (intConv pl .int) id)] [] 42 ["var"] = .ok ([value "42"], 42, 1) := by
  decide +kernel
example : run [("var", constVariableDefs (intConv pl .int) id)] [] 42 ["var 365"] =
    .ok ([errors ["This variable is read-only"]], 42, 1) := by decide +kernel

/-! `TestOverloaded` (475) -/

example : run [("func", [returnsCStr pl [int] fun _ => .ret (some (lit "func1")),
      returnsCStr pl [int, int] fun _ => .ret (some (lit "func2")),
      returnsCStr pl [int, int, int] fun _ => .ret (some (lit "func3"))])] [] 0
      ["func 42", "func 42 42", "func 42 42 42"] = .ok ([value "func1", value "func2", value "func3"], 0, 3) := by
  decide +kernel

/-! `TestOptionalEmpty` (501), `TestOptionalWithValue` (513), `TestOptionalWithError` (525) -/

example : run [("func", [fn (optConv (intConv pl .int)) [⟨_, optConv (intConv pl .int)⟩] fun a => .ret a.1])] [] 0
      ["func ()", "func 42", "func foo"] =
    .ok ([value "", value "42",
      errors ["Unable to convert 'foo' to type 'optional<int>': Unable to convert 'foo' to type 'int'"]], 0, 2) := by
  decide +kernel

/-! `TestCompoundSyntax` (536) -/

example : run [("get_compound", [fn compoundConv [⟨_, compoundConv⟩] fun a => .ret a.1])] [] 0
      ["get_compound ( 6 , 28 )", "get_compound (6 , 28)", "get_compound (6, 28)", "get_compound (6 28)",
        "get_compound (6,28)", "get_compound 6,28"] =
    .ok (List.replicate 6 (value "CompoundType{6,28}"), 0, 6) := by decide +kernel

/-! `TestErrorNoFunction` (557), `TestErrorUndefinedFunction` (566) -/

example : run [] [] 0 ["", "foo"] =
    .ok ([errors ["No function name is specified"], errors ["No function 'foo' is registered"]], 0, 0) := by decide +kernel

/-! `TestErrorWrongArgumentsCountWithNonUserArgs` (575): the `Context` is not counted. `TestErrorWrongArgumentsCount` (585) -/

example : run [("func", [void [int] fun _ => .ret ()])] [] 0 ["func foo bar"] =
    .ok ([errors ["Wrong number of arguments to 'func': expected 1, got 2"]], 0, 0) := by decide +kernel
example : run [("func", [void [int, int] fun _ => .ret ()])] [] 0 ["func 1 2 3"] =
    .ok ([errors ["Wrong number of arguments to 'func': expected 2, got 3"]], 0, 0) := by decide +kernel

/-! `TestErrorWrongArgumentsCountOverload2` (595), `TestErrorWrongArgumentsCountOverload3` (609) -/

example : run [("func", [void [int] fun _ => .ret (), void [int, int] fun _ => .ret ()])] [] 0 ["func"] =
    .ok ([errors ["Wrong number of arguments to 'func': expected 1 or 2, got 0"]], 0, 0) := by decide +kernel
example : run [("func", [void [int] fun _ => .ret (), void [int, int] fun _ => .ret (),
      void [int, int, int] fun _ => .ret ()])] [] 0 ["func"] =
    .ok ([errors ["Wrong number of arguments to 'func': expected 1, 2 or 3, got 0"]], 0, 0) := by decide +kernel

/-! `TestErrorWrongArgumentTypes` (624), `...Vector` (635), `...Variable` (645) -/

example : run [("func", [void [int, int] fun _ => .ret ()])] [] 0 ["func foo bar"] =
    .ok ([errors ["Unable to convert 'foo' to type 'int'", "Unable to convert 'bar' to type 'int'"]], 0, 0) := by
  decide +kernel
example : run [("sum", [void [⟨_, vecConv (intConv pl .int)⟩] fun _ => .ret ()])] [] 0 ["sum (foo bar baz)"] =
    .ok ([errors ["Unable to convert 'foo bar baz' to type 'vector<int>': Unable to convert 'foo' to type 'int'"]], 0, 0) := by
  decide +kernel
example : run [("var", variableDefs (intConv pl .int) variableRef)] [] 42 ["var foo"] =
    .ok ([errors ["Unable to convert 'foo' to type 'int'"]], 42, 0) := by decide +kernel

/-! `TestFunctionReturnValue` (658) -/

example : run [("sum", [fn (intConv pl .int) [int, int] fun a => .ret (a.1 + a.2.1)])] [] 0 ["sum 8 800"] =
    .ok ([value "808"], 0, 1) := by decide +kernel

/-! `TestOutput` (669): `logf("%s", ...)` is `log` and `loglinef` is `logline` -/

example : run [("func_log", [void [str, str] fun a => .log a.1 (.log a.2.1 (.ret ()))]),
      ("func_logline", [void [str, str] fun a => .logline a.1 (.logline a.2.1 (.ret ()))])] [] 0
      ["func_log value1 value2", "func_logline value1 value2"] =
    .ok ([output "value1value2", output "value1\nvalue2\n"], 0, 2) := by decide +kernel

/-! `TestContextError` (711) -/

example : run [("func", [void [str] fun a => .reportError (lit "Custom error: " ++ a.1) (.ret ())])] [] 0 ["func Test"] =
    .ok ([errors ["Custom error: Test"]], 0, 1) := by decide +kernel

/-! `TestVectorFunctionReturnValue` (721) -/

example : run [("sum", [fn (intConv pl .int) [⟨_, vecConv (intConv pl .int)⟩] fun a => .ret (a.1.foldl (· + ·) 0)])] [] 0
    ["sum (1 1 2 3 5 8)"] = .ok ([value "20"], 0, 1) := by decide +kernel

/-! `TestUnbind` (732), `TestClear` (749) -/

example : run [("func1", [void [] fun _ => .ret ()]), ("func2", [void [] fun _ => .ret ()])] [.remove (lit "func1")] 0
    ["func1", "func2"] = .ok ([errors ["No function 'func1' is registered"], done], 0, 1) := by decide +kernel
example : run [("func1", [void [] fun _ => .ret ()]), ("func2", [void [] fun _ => .ret ()])] [.clear] 0
      ["func1", "func2"] =
    .ok ([errors ["No function 'func1' is registered"], errors ["No function 'func2' is registered"]], 0, 0) := by
  decide +kernel

/-! `TestSyntaxError` (767) -/

example : run [] [] 0 ["func = arg"] =
    .ok ([errors ["Syntax error: Unexpected token '=': no name for the named argument is provided"]], 0, 0) := by
  decide +kernel

/-! `TestStdException` (777), `TestNonStdException` (793) -/

example : run [("func", [void [] fun _ => .throw (.std (lit "Test runtime exception"))])] [] 0 ["func"] =
    .ok ([errors ["Exception caught during execution: Test runtime exception"]], 0, 1) := by decide +kernel
example : runWith false [("func", [void [] fun _ => .throw (.std (lit "Test runtime exception"))])] [] 0 ["func"] =
    .ok ([.error (.std (lit "Test runtime exception"))], 0, 1) := by decide +kernel
example : run [("func", [void [] fun _ => .throw .other])] [] 0 ["func"] =
    .ok ([errors ["Exception caught during execution"]], 0, 1) := by decide +kernel
example : runWith false [("func", [void [] fun _ => .throw .other])] [] 0 ["func"] = .ok ([.error .other], 0, 1) := by
  decide +kernel

/-! `TestValue` (809): `value.get<int>()` is `TypeSerializer<int>::fromString(value)` (Value.h 27-31) -/

example : run [("func_receive", [fn (intConv pl .int) [⟨_, valueConv⟩] fun a =>
        (Prog.ofRes ((intConv pl .int).fromString a.1)).bind fun
          | .ok x => .ret x
          | .error _ => .ub .deadObject]),
      ("func_return", [fn valueConv [⟨_, valueConv⟩] fun a => .ret a.1])] [] 0 ["func_receive 42", "func_return Value"] =
    .ok ([value "42", value "Value"], 0, 2) := by decide +kernel

/-! `TestNamedArgsGet` (825): the body ends with 7 in the variable when all expectations hold -/

example : run [("func", [void [] fun _ =>
      (namedGetT (intConv pl .int) (lit "non_existent_arg")).bind fun e1 =>
      (namedGetT (intConv pl .int) (lit "arg1")).bind fun e2 =>
      (namedGetT (intConv pl .int) (lit "arg2")).bind fun e3 =>
      if e1 = .error (.missingKey (lit "Missing named argument 'non_existent_arg'")) ∧
          e2 = .error (.typeMismatch (lit "Unable to convert 'str' to type 'int'")) ∧ e3 = .ok 42
      then .set 7 (.ret ()) else .ret ()])] [] 0 ["func arg1 = str arg2 = 42"] = .ok ([done], 7, 1) := by decide +kernel

/-! `TestNamedArgsGetOrReport` (849) -/

example : run [("func", [void [] fun _ =>
      (namedGetOrReportT (intConv pl .int) (lit "arg2") false none).bind fun o1 =>
      (namedGetOrReportT (intConv pl .int) (lit "arg2") true none).bind fun o2 =>
      (namedGetOrReportT (intConv pl .int) (lit "non_existent_arg") false (some 18)).bind fun o3 =>
      (namedGetOrReport (lit "arg1") true).bind fun o4 =>
      (namedGetOrReport (lit "non_existent_arg") false).bind fun o5 =>
      .hasErrors fun bad =>
      if o1 = some 42 ∧ o2 = some 42 ∧ o3 = some 18 ∧ o4.map GValue.str = some (lit "str") ∧ o5 = none ∧ bad = false
      then .set 7 (.ret ()) else .ret ()])] [] 0 ["func arg1 = str arg2 = 42"] = .ok ([done], 7, 1) := by decide +kernel

/-! `TestNamedArgsTypedGetOrReportContextErrors` (895), `TestNamedArgsAnyGetOrReportContextErrors` (913) -/

example : run [("func", [void [] fun _ => (namedGetOrReportT (intConv pl .int) (lit "arg") true (some 18)).bind fun _ => .ret ()])]
      [] 0 ["func", "func arg = str"] =
    .ok ([errors ["Missing named argument 'arg'"], errors ["Unable to convert 'str' to type 'int'"]], 0, 2) := by decide +kernel
example : run [("func", [void [] fun _ => (namedGetOrReport (lit "arg") true).bind fun _ => .ret ()])] [] 0 ["func"] =
    .ok ([errors ["Missing named argument 'arg'"]], 0, 1) := by decide +kernel

/-! `TestNamedArgsSize` (925) -/

example : run [("func", [fn (intConv pl .ulong) [] fun _ => .named fun l => .ret l.length])] [] 0
    ["func", "func arg1=foo arg2=bar"] = .ok ([value "0", value "2"], 0, 2) := by decide +kernel

/-! `TestBind` (943) -/

example : run [("func", [fn (intConv pl .int) [] fun _ => .ret 42])] [] 0 ["func"] = .ok ([value "42"], 0, 1) := by
  decide +kernel

/-! `TestMoveConstructor` (963), `TestMoveAssignment` (975): the moved object has the commands of its source -/

example (b : BindingsObj (Nat × Nat) Unit) : b.moveConstruct.1 = b := rfl
example (b1 b2 : BindingsObj (Nat × Nat) Unit) : (b2.moveAssign b1).1 = b1 := rfl

/-! `TestTypeNames` (991) -/

example : [CTy.void, .bool, .int .char, .int .schar, .int .uchar, .int .short, .int .ushort, .int .int, .int .uint, .int .long,
      .int .ulong, .int .llong, .int .ullong, .float, .double, .longDouble].map (CTy.name pl) =
    ["void", "bool", "char", "signed char", "unsigned char", "short", "unsigned short", "int", "unsigned int", "long",
      "unsigned long", "long long", "unsigned long long", "float", "double", "long double"].map lit := by decide +kernel

/-! `TestAnyArgToString` (1014) -/

example : (⟨[lit "foo", lit "bar"]⟩ : Value).str = lit "foo bar" := by decide +kernel

/-! `TestPointers` (1020) -/

example : run [("func_non_const", [returnsPtr compoundConv [⟨_, boolConv pl⟩] fun a =>
      .ret (if a.1 then none else some (6, 28))])] [] 0 ["func_non_const false", "func_non_const true"] =
    .ok ([value "CompoundType{6,28}", value "null"], 0, 2) := by decide +kernel

/-! `TestCustomLexer` (1051) -/

example : run [("func with spaces", [fn (intConv pl .int) [] fun _ => .ret 42])]
    [.setLexer (some fun t => .ok (.ok ⟨t, [], []⟩))] 0 ["func with spaces"] = .ok ([value "42"], 0, 1) := by decide +kernel

/-! `TestFunctorMetadata` (1074), `TestEmptyFunctorMetadata` (1096) -/

/-- The command `func` of a registry, if any: the parameter types and return types of its functions. -/
def metadata (cmds : List (String × List Fn)) : Res (Option (List (List Bytes × Bytes))) := do
  let s ← newBindings true none 0
  let s ← register cmds 0 s
  let c ← bindingsGet ops s (lit "func")
  .ok (c.map fun c => c.functors.map fun f => (parameterTypes (code cmds) f, returnType (code cmds) f))

example : metadata [("func", [fn (boolConv pl) [int, ⟨Unit, arithConv (lit "float") (fun _ => none) (fun _ => [])⟩]
    fun _ => .ret true])] = .ok (some [([lit "int", lit "float"], lit "bool")]) := by decide +kernel
example : metadata [] = .ok none := by decide +kernel

/-! ## PropertyTests.cpp -/

/-- `createProperty` (7-13) and `bindProperty(&Object::get, &Object::set, &object)` (112-114). -/
def propertyOf : List Fn := propertyDefs (intConv pl .int) (.get fun w => .ret w) (fun x => .set x (.ret ()))

/-! `TestValidGet` (38), `TestValidSet` (53), `TestWrongArguments` (98), and the same `OnObject` (112, 127, 169) -/

example : run [("func", propertyOf)] [] 17 ["func"] = .ok ([value "17"], 17, 1) := by decide +kernel
example : run [("func", propertyOf)] [] 17 ["func 42"] = .ok ([value "42"], 42, 1) := by decide +kernel
example : run [("func", propertyOf)] [] 17 ["func 1 2"] =
    .ok ([errors ["Wrong number of arguments to 'func': expected 0 or 1, got 2"]], 17, 0) := by decide +kernel

/-! `TestReadonlyGet` (68), `TestReadonlySet` (83), `TestReadonlyGetOnObject` (142), `TestReadonlySetOnObject` (157) -/

example : run [("func", constPropertyDefs (intConv pl .int) (.get fun w => .ret w))] [] 17 ["func", "func 42"] =
    .ok ([value "17", errors ["This property is read-only"]], 17, 2) := by decide +kernel
example : run [("func", constBoundPropertyDefs (intConv pl .int) (.get fun w => .ret w))] [] 17 ["func", "func 42"] =
    .ok ([value "17", errors ["This property is read-only"]], 17, 2) := by decide +kernel

end RepoTests
end Coil
