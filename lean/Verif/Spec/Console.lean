import Verif.Spec.Semantics
import Verif.Model.Console

/-!
# What the console of the examples does

A session is a list of lines with the text that answers them. There are no registries, function objects, call contexts or streams here; a
line is read with the grammar of command lines. From the model: what an example is (`Console.Sample`).
-/

namespace Coil
namespace Spec
namespace Console

open Coil.Console (Sample)

variable {X : Type}

/-- How the program reacts to a line: the text it prints, the new state of the examples, whether it was asked to exit, and the
exception that kills it. -/
structure Reply (X : Type) where
  text : Bytes
  state : X
  exit : Bool
  dies : Option Exn
  deriving DecidableEq

/-- Just an error message. -/
def complain (x : X) (message : Bytes) : Reply X := ⟨lit "Error: " ++ message ++ lit "\n", x, false, none⟩

/-- The help text. -/
def helpText (es : List (Sample X)) : Bytes :=
  lit "Available examples:\n" ++ es.flatMap (fun e => lit "    " ++ e.name ++ lit "\n") ++
    lit "\nType the example name to run it\nType 'help' for this help\nType 'exit' to exit\n\n"

/-- One example: what it prints, and the exception as an error, or as the end. -/
def runOne (catching : Bool) (e : Sample X) (x : X) : Reply X :=
  match (e.run x).2.2 with
  | none => ⟨(e.run x).2.1, (e.run x).1, false, none⟩
  | some err =>
    if catching then ⟨(e.run x).2.1 ++ lit "Error: " ++ exceptionError err ++ lit "\n", (e.run x).1, false, none⟩
    else ⟨(e.run x).2.1, (e.run x).1, false, some err⟩

/-- All examples: what they print; exceptions that are caught are not shown. -/
def runEach (catching : Bool) : List (Sample X) → X → Reply X
  | [], x => ⟨[], x, false, none⟩
  | e :: es, x =>
    match catching, (e.run x).2.2 with
    | false, some err => ⟨(e.run x).2.1, (e.run x).1, false, some err⟩
    | _, _ =>
      let r := runEach catching es (e.run x).1
      { r with text := (e.run x).2.1 ++ r.text }

/-- The reaction to a command. -/
def reply (catching : Bool) (es : List (Sample X)) (x : X) (i : Input) : Reply X :=
  if i.name = [] then complain x (lit "No function name is specified")
  else if i.name ∉ [lit "help", lit "exit", lit "run_all"] ++ es.map (·.name) then
    complain x (lit "No function '" ++ upToNul i.name ++ lit "' is registered")
  else if i.arguments ≠ [] then
    complain x (lit "Wrong number of arguments to '" ++ i.name ++ lit "': expected 0, got " ++ natDec i.arguments.length)
  else if i.name = lit "help" then ⟨helpText es, x, false, none⟩
  else if i.name = lit "exit" then ⟨[], x, true, none⟩
  else if i.name = lit "run_all" then runEach catching es x
  else
    match es.find? (fun e => e.name = i.name) with
    | none => ⟨[], x, false, none⟩
    | some e => runOne catching e x

/-- The reaction to a line. A line that the grammar neither accepts nor rejects has none. -/
inductive Answers (d : Delims) (catching : Bool) (es : List (Sample X)) (x : X) (line : Bytes) : Reply X → Prop
  | wrong {m} : ReadsAs d line (.error m) → Answers d catching es x line (complain x (lit "Syntax error: " ++ m))
  | command {i} : ReadsAs d line (.ok i) → Answers d catching es x line (reply catching es x i)

/-- How far a session got: it waits for the next line, it has ended, or an exception has killed it. -/
inductive Ending where
  | waits
  | exited
  | died (e : Exn)
  deriving DecidableEq

/-- `Session d catching es x lines text x' ending`: with the examples in the state `x`, the program reads at most these lines, prints `text`
and leaves the examples in the state `x'`. Lines after the end are not read. -/
inductive Session (d : Delims) (catching : Bool) (es : List (Sample X)) : X → List Bytes → Bytes → X → Ending → Prop
  | waits {x} : Session d catching es x [] [] x .waits
  | line {x line r lines text x' e} : Answers d catching es x line r → r.exit = false → r.dies = none →
      Session d catching es r.state lines text x' e → Session d catching es x (line :: lines) (lit ">>> " ++ r.text ++ text) x' e
  | exit {x line r lines} : Answers d catching es x line r → r.exit = true → r.dies = none →
      Session d catching es x (line :: lines) (lit ">>> " ++ r.text) r.state .exited
  | dies {x line r lines err} : Answers d catching es x line r → r.dies = some err →
      Session d catching es x (line :: lines) (lit ">>> " ++ r.text) r.state (.died err)

/-- An input: lines that end in a line feed, and a rest without. -/
def asInput (lines : List Bytes) (rest : Bytes) : Bytes := lines.flatMap (· ++ [10]) ++ rest

/-- No line feed inside. -/
def OneLine (t : Bytes) : Prop := ∀ c ∈ t, c ≠ 10

/-- The lines of an input as the program sees them: the rest counts as a line, and then there are empty lines for ever. The first `n` of
them. -/
def firstLines (lines : List Bytes) (rest : Bytes) (n : Nat) : List Bytes := (lines ++ rest :: List.replicate n []).take n

/-- The line asks to exit: it is the command `exit`, without arguments. -/
def AsksExit (d : Delims) (line : Bytes) : Prop := ∃ named, ReadsAs d line (.ok ⟨lit "exit", [], named⟩)

/-- The names of the examples are words, different from each other and from the other commands. -/
structure Sensible (d : Delims) (es : List (Sample X)) : Prop where
  words : ∀ e ∈ es, e.name ≠ [] ∧ (∀ c ∈ e.name, c ≠ 0) ∧ ReadsAs d e.name (.ok ⟨e.name, [], []⟩)
  fresh : ∀ e ∈ es, e.name ≠ lit "help" ∧ e.name ≠ lit "exit" ∧ e.name ≠ lit "run_all"
  distinct : (es.map (·.name)).Nodup

end Console
end Spec
end Coil
