import Verif.Proofs.LexMain

/-!
# The lexer tests of the repository, replayed on the model

The expectations of tests/runtime/LexerTests.cpp, in the order of that file. They are tests of the model, not
proofs about it: they show that the definitions in `Model/Lexer.lean` give the results the authors of the library
expect of it. `TestGenerated` (428-446) draws random commands and is covered by C01.
-/

namespace Coil
namespace RepoTests

/-- `createInput` (LexerTests.cpp 26-34). -/
def cmd (name : String) (args : List (List String)) (named : List (String × List String)) :
    Except Bytes (GInput Bytes) :=
  .ok ⟨lit name, args.map fun a => ⟨a.map lit⟩, named.map fun n => ⟨lit n.1, ⟨n.2.map lit⟩⟩⟩

/-- `coil::makeUnexpected`. -/
def err (message : String) : Except Bytes (GInput Bytes) := .error (lit message)

/-- `lexer.parse(text)` with the default lexer gives `r`, whether `char` is signed or not. -/
def Parses (text : String) (r : Except Bytes (GInput Bytes)) : Prop :=
  ∀ signed, lexRead (LexCfg.default signed) (lit text) = .ok r

instance (text : String) (r : Except Bytes (GInput Bytes)) : Decidable (Parses text r) :=
  decidable_of_iff
    (lexRead (LexCfg.default false) (lit text) = .ok r ∧ lexRead (LexCfg.default true) (lit text) = .ok r)
    ⟨fun h b => by cases b <;> simp [h], fun h => ⟨h false, h true⟩⟩

/-! `TestSpacesEmpty` (LexerTests.cpp 190) -/

example : Parses "" (cmd "" [] []) := by decide +kernel
example : Parses " " (cmd "" [] []) := by decide +kernel
example : Parses "\t" (cmd "" [] []) := by decide +kernel
example : Parses "  " (cmd "" [] []) := by decide +kernel
example : Parses "\t\t" (cmd "" [] []) := by decide +kernel
example : Parses " \t" (cmd "" [] []) := by decide +kernel
example : Parses "\t " (cmd "" [] []) := by decide +kernel

/-! `TestSpacesNoArgs` (LexerTests.cpp 203) -/

example : Parses " foo.bar.func " (cmd "foo.bar.func" [] []) := by decide +kernel

/-! `TestSpacesArgs` (LexerTests.cpp 210) -/

example : Parses " func arg1 arg2 " (cmd "func" [["arg1"], ["arg2"]] []) := by decide +kernel
example : Parses " func  arg1 arg2 " (cmd "func" [["arg1"], ["arg2"]] []) := by decide +kernel
example : Parses " func arg1  arg2 " (cmd "func" [["arg1"], ["arg2"]] []) := by decide +kernel

/-! `TestSpacesNamedArgs` (LexerTests.cpp 221) -/

example : Parses " func arg1=foo arg2=bar "
    (cmd "func" [] [("arg1", ["foo"]), ("arg2", ["bar"])]) := by decide +kernel
example : Parses " func  arg1=foo arg2=bar "
    (cmd "func" [] [("arg1", ["foo"]), ("arg2", ["bar"])]) := by decide +kernel
example : Parses " func  arg1 =foo arg2=bar "
    (cmd "func" [] [("arg1", ["foo"]), ("arg2", ["bar"])]) := by decide +kernel
example : Parses " func  arg1= foo arg2=bar "
    (cmd "func" [] [("arg1", ["foo"]), ("arg2", ["bar"])]) := by decide +kernel
example : Parses " func  arg1 = foo arg2=bar "
    (cmd "func" [] [("arg1", ["foo"]), ("arg2", ["bar"])]) := by decide +kernel
example : Parses " func  arg1 = foo arg2 =bar "
    (cmd "func" [] [("arg1", ["foo"]), ("arg2", ["bar"])]) := by decide +kernel
example : Parses " func  arg1 = foo arg2= bar "
    (cmd "func" [] [("arg1", ["foo"]), ("arg2", ["bar"])]) := by decide +kernel
example : Parses " func  arg1 = foo arg2 = bar "
    (cmd "func" [] [("arg1", ["foo"]), ("arg2", ["bar"])]) := by decide +kernel
example : Parses " func  arg1 = foo  arg2 = bar "
    (cmd "func" [] [("arg1", ["foo"]), ("arg2", ["bar"])]) := by decide +kernel

/-! `TestCompoundArgs` (LexerTests.cpp 238) -/

example : Parses "func arg1,arg2" (cmd "func" [["arg1", "arg2"]] []) := by decide +kernel
example : Parses "func (arg1 arg2)" (cmd "func" [["arg1", "arg2"]] []) := by decide +kernel
example : Parses "func (arg1,arg2)" (cmd "func" [["arg1", "arg2"]] []) := by decide +kernel
example : Parses "func (arg1, arg2)" (cmd "func" [["arg1", "arg2"]] []) := by decide +kernel
example : Parses "func (arg1 , arg2)" (cmd "func" [["arg1", "arg2"]] []) := by decide +kernel
example : Parses "func ( arg1 , arg2 )" (cmd "func" [["arg1", "arg2"]] []) := by decide +kernel
example : Parses "func ( arg1 arg2 )" (cmd "func" [["arg1", "arg2"]] []) := by decide +kernel

/-! `TestCompoundNamedArgs` (LexerTests.cpp 251) -/

example : Parses "func arg=arg1,arg2" (cmd "func" [] [("arg", ["arg1", "arg2"])]) := by decide +kernel
example : Parses "func arg=(arg1 arg2)" (cmd "func" [] [("arg", ["arg1", "arg2"])]) := by decide +kernel
example : Parses "func arg=(arg1,arg2)" (cmd "func" [] [("arg", ["arg1", "arg2"])]) := by decide +kernel
example : Parses "func arg=(arg1, arg2)" (cmd "func" [] [("arg", ["arg1", "arg2"])]) := by decide +kernel
example : Parses "func arg=(arg1 , arg2)" (cmd "func" [] [("arg", ["arg1", "arg2"])]) := by decide +kernel
example : Parses "func arg=( arg1 , arg2 )" (cmd "func" [] [("arg", ["arg1", "arg2"])]) := by decide +kernel
example : Parses "func arg=( arg1 arg2 )" (cmd "func" [] [("arg", ["arg1", "arg2"])]) := by decide +kernel

/-! `TestCompoundNamedArgsEdgeCases` (LexerTests.cpp 264) -/

example : Parses "func arg=arg(um)ent" (cmd "func" [["um"], ["ent"]] [("arg", ["arg"])]) := by decide +kernel
example : Parses "func arg=()" (cmd "func" [] [("arg", [])]) := by decide +kernel
example : Parses "func arg=( )" (cmd "func" [] [("arg", [])]) := by decide +kernel
example : Parses "func arg=(,)" (cmd "func" [] [("arg", [])]) := by decide +kernel
example : Parses "func arg=( , )" (cmd "func" [] [("arg", [])]) := by decide +kernel

/-! `TestEmpty` (LexerTests.cpp 275) -/

example : Parses "" (cmd "" [] []) := by decide +kernel

/-! `TestNoArgs` (LexerTests.cpp 282) -/

example : Parses "func" (cmd "func" [] []) := by decide +kernel

/-! `TestArgs` (LexerTests.cpp 289) -/

example : Parses "func arg1" (cmd "func" [["arg1"]] []) := by decide +kernel
example : Parses "func arg1 arg2" (cmd "func" [["arg1"], ["arg2"]] []) := by decide +kernel

/-! `TestNamedArgs` (LexerTests.cpp 297) -/

example : Parses "func arg1=foo" (cmd "func" [] [("arg1", ["foo"])]) := by decide +kernel
example : Parses "func arg1=foo arg2=bar" (cmd "func" [] [("arg1", ["foo"]), ("arg2", ["bar"])]) := by decide +kernel

/-! `TestArgsAndNamedArgs` (LexerTests.cpp 305) -/

example : Parses "func arg1 arg2 arg3=foo arg4=bar"
    (cmd "func" [["arg1"], ["arg2"]] [("arg3", ["foo"]), ("arg4", ["bar"])]) := by decide +kernel

/-! `TestIntegerArgs` (LexerTests.cpp 312) -/

example : Parses "foo.bar.func 1" (cmd "foo.bar.func" [["1"]] []) := by decide +kernel
example : Parses "foo.bar.func 1 arg" (cmd "foo.bar.func" [["1"], ["arg"]] []) := by decide +kernel
example : Parses "foo.bar.func 1 arg 2" (cmd "foo.bar.func" [["1"], ["arg"], ["2"]] []) := by decide +kernel

/-! `TestIntegerNamedArgs` (LexerTests.cpp 321) -/

example : Parses "foo.bar.func arg1=1" (cmd "foo.bar.func" [] [("arg1", ["1"])]) := by decide +kernel
example : Parses "foo.bar.func arg1=1 arg2=arg"
    (cmd "foo.bar.func" [] [("arg1", ["1"]), ("arg2", ["arg"])]) := by decide +kernel
example : Parses "foo.bar.func arg1=1 arg2=arg arg3=2"
    (cmd "foo.bar.func" [] [("arg1", ["1"]), ("arg2", ["arg"]), ("arg3", ["2"])]) := by decide +kernel

/-! `TestFloatArgs` (LexerTests.cpp 330) -/

example : Parses "foo.bar.func 3.14" (cmd "foo.bar.func" [["3.14"]] []) := by decide +kernel
example : Parses "foo.bar.func 3.14 arg" (cmd "foo.bar.func" [["3.14"], ["arg"]] []) := by decide +kernel
example : Parses "foo.bar.func 3.14 arg 2.0" (cmd "foo.bar.func" [["3.14"], ["arg"], ["2.0"]] []) := by decide +kernel

/-! `TestFloatNamedArgs` (LexerTests.cpp 339) -/

example : Parses "foo.bar.func arg1=3.14" (cmd "foo.bar.func" [] [("arg1", ["3.14"])]) := by decide +kernel
example : Parses "foo.bar.func arg1=3.14 arg2=arg"
    (cmd "foo.bar.func" [] [("arg1", ["3.14"]), ("arg2", ["arg"])]) := by decide +kernel
example : Parses "foo.bar.func arg1=3.14 arg2=arg arg3=2.0"
    (cmd "foo.bar.func" [] [("arg1", ["3.14"]), ("arg2", ["arg"]), ("arg3", ["2.0"])]) := by decide +kernel

/-! `TestShortFloatArgs` (LexerTests.cpp 348) -/

example : Parses "foo.bar.func .14" (cmd "foo.bar.func" [[".14"]] []) := by decide +kernel
example : Parses "foo.bar.func .14 arg" (cmd "foo.bar.func" [[".14"], ["arg"]] []) := by decide +kernel
example : Parses "foo.bar.func .14 arg .0" (cmd "foo.bar.func" [[".14"], ["arg"], [".0"]] []) := by decide +kernel

/-! `TestShortFloatNamedArgs` (LexerTests.cpp 357) -/

example : Parses "foo.bar.func arg1=.14" (cmd "foo.bar.func" [] [("arg1", [".14"])]) := by decide +kernel
example : Parses "foo.bar.func arg1=.14 arg2=arg"
    (cmd "foo.bar.func" [] [("arg1", [".14"]), ("arg2", ["arg"])]) := by decide +kernel
example : Parses "foo.bar.func arg1=.14 arg2=arg arg3=.0"
    (cmd "foo.bar.func" [] [("arg1", [".14"]), ("arg2", ["arg"]), ("arg3", [".0"])]) := by decide +kernel

/-! `TestStrings` (LexerTests.cpp 366) -/

example : Parses "foo.bar.func foo 'bar' baz" (cmd "foo.bar.func" [["foo"], ["bar"], ["baz"]] []) := by decide +kernel
example : Parses "foo.bar.func foo ' bar ' baz"
    (cmd "foo.bar.func" [["foo"], [" bar "], ["baz"]] []) := by decide +kernel
example : Parses "foo.bar.func 'foo bar baz'" (cmd "foo.bar.func" [["foo bar baz"]] []) := by decide +kernel
example : Parses "foo.bar.func 'foo,bar,baz'" (cmd "foo.bar.func" [["foo,bar,baz"]] []) := by decide +kernel
example : Parses "foo.bar.func 'foo;bar;baz'" (cmd "foo.bar.func" [["foo;bar;baz"]] []) := by decide +kernel
example : Parses "foo.bar.func 'foo|bar|baz'" (cmd "foo.bar.func" [["foo|bar|baz"]] []) := by decide +kernel
example : Parses "foo.bar.func 'foo=bar=baz'" (cmd "foo.bar.func" [["foo=bar=baz"]] []) := by decide +kernel
example : Parses "foo.bar.func '(foo bar baz)'" (cmd "foo.bar.func" [["(foo bar baz)"]] []) := by decide +kernel
example : Parses "foo.bar.func ('foo   bar' baz)" (cmd "foo.bar.func" [["foo   bar", "baz"]] []) := by decide +kernel
example : Parses "foo.bar.func foo \"bar\" baz"
    (cmd "foo.bar.func" [["foo"], ["bar"], ["baz"]] []) := by decide +kernel
example : Parses "foo.bar.func foo \" bar \" baz"
    (cmd "foo.bar.func" [["foo"], [" bar "], ["baz"]] []) := by decide +kernel
example : Parses "foo.bar.func \"foo bar baz\"" (cmd "foo.bar.func" [["foo bar baz"]] []) := by decide +kernel
example : Parses "foo.bar.func \"foo,bar,baz\"" (cmd "foo.bar.func" [["foo,bar,baz"]] []) := by decide +kernel
example : Parses "foo.bar.func \"foo;bar;baz\"" (cmd "foo.bar.func" [["foo;bar;baz"]] []) := by decide +kernel
example : Parses "foo.bar.func \"foo|bar|baz\"" (cmd "foo.bar.func" [["foo|bar|baz"]] []) := by decide +kernel
example : Parses "foo.bar.func \"foo=bar=baz\"" (cmd "foo.bar.func" [["foo=bar=baz"]] []) := by decide +kernel
example : Parses "foo.bar.func \"(foo bar baz)\"" (cmd "foo.bar.func" [["(foo bar baz)"]] []) := by decide +kernel
example : Parses "foo.bar.func (\"foo   bar\" baz)"
    (cmd "foo.bar.func" [["foo   bar", "baz"]] []) := by decide +kernel

/-! `TestErrors` (LexerTests.cpp 390) -/

example : Parses "=val" (err "Unexpected token '=' at the beginning of the expression") := by decide +kernel
example : Parses "command=arg"
    (err "Unexpected token '=': no name for the named argument is provided") := by decide +kernel
example : Parses "command arg=val=foo"
    (err "Unexpected token '=': no name for the named argument is provided") := by decide +kernel
example : Parses "command arg=" (err "Expected an argument value, found end of string") := by decide +kernel
example : Parses "command arg==" (err "Expected an argument value, found '='") := by decide +kernel
example : Parses "command arg==value" (err "Expected an argument value, found '='") := by decide +kernel
example : Parses "==value" (err "Unexpected token '=' at the beginning of the expression") := by decide +kernel

/-! `TestCompoundArgsErrors` (LexerTests.cpp 403) -/

example : Parses "func (arg,arg"
    (err "Token '(' doesn't have a corresponding opening/closing token") := by decide +kernel
example : Parses "func arg,arg)"
    (err "Token ')' doesn't have a corresponding opening/closing token") := by decide +kernel
example : Parses "func arg(ument"
    (err "Token '(' doesn't have a corresponding opening/closing token") := by decide +kernel
example : Parses "func argum)ent"
    (err "Token ')' doesn't have a corresponding opening/closing token") := by decide +kernel
example : Parses "func (" (err "Token '(' doesn't have a corresponding opening/closing token") := by decide +kernel
example : Parses "func )" (err "Token ')' doesn't have a corresponding opening/closing token") := by decide +kernel

/-! `TestStringsErrors` (LexerTests.cpp 417) -/

example : Parses "func arg,arg\""
    (err "Token '\"' doesn't have a corresponding opening/closing quote") := by decide +kernel
example : Parses "func arg arg\""
    (err "Token '\"' doesn't have a corresponding opening/closing quote") := by decide +kernel
example : Parses "func \"arg,arg"
    (err "Token '\"' doesn't have a corresponding opening/closing quote") := by decide +kernel
example : Parses "func \"arg arg"
    (err "Token '\"' doesn't have a corresponding opening/closing quote") := by decide +kernel
example : Parses "func argum\"ent"
    (err "Token '\"' doesn't have a corresponding opening/closing quote") := by decide +kernel
example : Parses "func \"" (err "Token '\"' doesn't have a corresponding opening/closing quote") := by decide +kernel

end RepoTests
end Coil
