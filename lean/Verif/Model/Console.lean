import Verif.Model.Registry

/-!
# The console of the examples

`examples/main.cpp`: a program that reads lines from the standard input, executes them and prints the results.

Simplifications. An example is a function that changes the state of the examples, prints something and may throw; it has its own
registry. Printing to `std::cout` does not fail, and reading from `std::cin` fails only at the end of the input. Lines are shorter than
2^31 bytes.
-/

namespace Coil
namespace Console

/-- One of the examples (main.cpp 57-72): its name, and what `run` does: the new state `X` of the examples, the text it prints, and
the exception it throws. -/
structure Sample (X : Type) where
  name : Bytes
  run : X → X × Bytes × Option Exn

/-- The state of the program: `shouldExit` (main.cpp 76), the text printed to `std::cout` so far, the state of the examples. -/
structure Con (X : Type) where
  exit : Bool
  out : Bytes
  state : X
  deriving DecidableEq

/-- The functions the program registers (main.cpp 27, 80-94). -/
inductive Code where
  | help
  | exit
  | runAll
  /-- an example, by its position -/
  | sample (i : Nat)
  deriving DecidableEq, Repr

variable {X S : Type}

/-- The loop of `help` (main.cpp 82-83). -/
def helpLoop : List (Sample X) → Prog (Con X) Code Unit Unit → Prog (Con X) Code Unit Unit
  | [], k => k
  | e :: es, k => .log (lit "    " ++ cstr e.name ++ lit "\n") (helpLoop es k)

/-- `help` (main.cpp 80-89). -/
def helpBody (es : List (Sample X)) : Prog (Con X) Code Unit Unit :=
  .logline (lit "Available examples:") <| helpLoop es <|
    .logline [] <| .logline (lit "Type the example name to run it") <| .logline (lit "Type 'help' for this help") <|
      .logline (lit "Type 'exit' to exit") <| .logline [] <| .ret ()

/-- `exit` (main.cpp 90). -/
def exitBody : Prog (Con X) Code Unit Unit := .get fun w => .set { w with exit := true } (.ret ())

/-- `run_all` (main.cpp 91-94): the results are not looked at; an exception leaves the loop. -/
def runAllBody : List (Sample X) → Prog (Con X) Code Unit Unit
  | [] => .ret ()
  | e :: es => .execLine e.name fun
    | .ok _ => runAllBody es
    | .error x => .throw x

/-- `Example::run` (main.cpp 27). -/
def sampleBody (es : List (Sample X)) (i : Nat) : Prog (Con X) Code Unit Unit :=
  match es[i]? with
  | none => .ub .oobRead
  | some e => .get fun w => .set { w with out := w.out ++ (e.run w.state).2.1, state := (e.run w.state).1 } <|
      match (e.run w.state).2.2 with
      | none => .ret ()
      | some x => .throw x

/-- The code of the registered functions: none takes arguments, none returns a value. -/
def program (es : List (Sample X)) (c : Code) : FunctorDef (Con X) Code Unit where
  params := []
  R := Unit
  retName := lit "void"
  print := none
  body := fun _ =>
    match c with
    | .help => helpBody es
    | .exit => exitBody
    | .runAll => runAllBody es
    | .sample i => sampleBody es i

/-- `bindExamples` (main.cpp 24-40): from position `i` on. -/
def bindSamples (ops : RegOps S Code Unit) : Sys S (Con X) Code Unit → List (Sample X) → Nat → Res (Sys S (Con X) Code Unit)
  | s, [], _ => .ok s
  | s, e :: es, i => do
    let s' ← bindingsAdd ops s e.name [(.sample i, ())]
    bindSamples ops s' es (i + 1)

/-- The registrations (main.cpp 78-97), in a new registry. -/
def setup (ops : RegOps S Code Unit) (m : S) (lexer : Lexer) (x : X) (es : List (Sample X)) : Res (Sys S (Con X) Code Unit) := do
  let s ← bindingsAdd ops ⟨m, some lexer, ⟨false, [], x⟩, [], 0, [], []⟩ (lit "help") [(.help, ())]
  let s ← bindingsAdd ops s (lit "exit") [(.exit, ())]
  let s ← bindingsAdd ops s (lit "run_all") [(.runAll, ())]
  bindSamples ops s es 0

/-- `std::cout << text`. -/
def print (s : Sys S (Con X) Code Unit) (t : Bytes) : Sys S (Con X) Code Unit := { s with user := { s.user with out := s.user.out ++ t } }

/-- The loop that prints the errors (main.cpp 102-103). -/
def printErrors : List Bytes → Bytes
  | [] => []
  | e :: es => lit "Error: " ++ e ++ lit "\n" ++ printErrors es

/-- `back()` of a non-empty text is not a line feed (main.cpp 106). -/
def unfinished (t : Bytes) : Bool :=
  match t.getLast? with
  | none => false
  | some c => c != 10

/-- What is printed about a result (main.cpp 102-110). -/
def printResult (r : ExecResult) : Bytes :=
  printErrors r.errors ++ r.output ++ (if unfinished r.output then lit "\n" else []) ++
    (match r.returnValue with
      | none => []
      | some v => lit "Return value: '" ++ v ++ lit "'\n")

/-- How a step of the program ends: it goes on, or an exception leaves `main`. -/
inductive Outcome (S X : Type) where
  | goes (s : Sys S (Con X) Code Unit)
  | terminated (s : Sys S (Con X) Code Unit) (e : Exn)

/-- The function `execute` (main.cpp 99-111). -/
def runLine (es : List (Sample X)) (ops : RegOps S Code Unit) (catching : Bool) (fuel : Nat) (s : Sys S (Con X) Code Unit) (line : Bytes) :
    Res (Outcome S X) := do
  let (s', o) ← execute (program es) ops catching fuel s (.line line)
  match o with
  | .ok r => .ok (.goes (print s' (printResult r)))
  | .error e => .ok (.terminated s' e)

/-- `std::getline(std::cin, line)` into an empty string (main.cpp 118-119): the line, and what is left of the input. At the end of the input
the line stays empty. -/
def getline : Bytes → Bytes × Bytes
  | [] => ([], [])
  | c :: cs => if c = 10 then ([], cs) else (c :: (getline cs).1, (getline cs).2)

/-- Where the program is: in the loop with this much input left, out of the loop, or terminated. -/
inductive Status (S X : Type) where
  | looping (s : Sys S (Con X) Code Unit) (input : Bytes)
  | ended (s : Sys S (Con X) Code Unit)
  | terminated (s : Sys S (Con X) Code Unit) (e : Exn)

/-- The condition of the loop (main.cpp 115). -/
def check (s : Sys S (Con X) Code Unit) (input : Bytes) : Status S X := if s.user.exit then .ended s else .looping s input

/-- The body of the loop, and the condition after it (main.cpp 115-122). -/
def round (es : List (Sample X)) (ops : RegOps S Code Unit) (catching : Bool) (fuel : Nat) : Status S X → Res (Status S X)
  | .ended s => .ok (.ended s)
  | .terminated s e => .ok (.terminated s e)
  | .looping s input => do
    match ← runLine es ops catching fuel (print s (lit ">>> ")) (getline input).1 with
    | .goes s' => .ok (check s' (getline input).2)
    | .terminated s' e => .ok (.terminated s' e)

/-- `n` rounds. -/
def rounds (es : List (Sample X)) (ops : RegOps S Code Unit) (catching : Bool) (fuel : Nat) : Nat → Status S X → Res (Status S X)
  | 0, st => .ok st
  | n + 1, st => do
    let st' ← round es ops catching fuel st
    rounds es ops catching fuel n st'

/-- `main` (main.cpp 54-125) for `n` rounds of the loop; `made` is the construction of the registry. -/
def main (es : List (Sample X)) (ops : RegOps S Code Unit) (made : Res S) (catching : Bool) (fuel : Nat) (lexer : Lexer) (x : X)
    (input : Bytes) (n : Nat) : Res (Status S X) := do
  let m ← made
  let s ← setup ops m lexer x es
  match ← runLine es ops catching fuel s (lit "help") with
  | .goes s' => rounds es ops catching fuel n (check s' input)
  | .terminated s' e => .ok (.terminated s' e)

end Console
end Coil
