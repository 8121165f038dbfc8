import Verif.Proofs.Overloading
import Verif.Props.Answered
import Verif.Props.Format

/-!
# The program of examples/overloading (C119)
-/

namespace Coil
open Spec

variable {pl : Platform} {tiny : Nat → Nat → Bool} {catching charSigned fixed : Bool} {cfg : LexCfg}
  {reqs : List Request} {exceeds : Nat → Nat → Bool} {outs : List ExecOut}
  {s : Sys (UMap Bytes (Command OverCode Unit)) OverWorld OverCode Unit}

/-- **C119.** Whatever is entered, the number of the arguments decides which function answers, the answers are as told, and what is not understood
is an error. Nothing changes. -/
theorem C119_run (hp : Proper cfg) (hex : ∀ b, 0 < b → exceeds 1 b = false) {fuel : Nat}
    (h : observed (overFunctions pl tiny) (mapOps fixed charSigned exceeds) (UMap.create (djb2 charSigned) 1) catching fuel (some (fitting cfg))
      OverWorld.start (fixedProgram overTable reqs) = .ok (s, outs)) :
    Chronicle (OverTold pl tiny) (delims cfg) () reqs outs () ∧ s.user = OverWorld.start := by
  have st : ∃ n, Chronicle (OverTold pl tiny) (delims cfg) () reqs outs n ∧ OverKeeps s.user n :=
    over_telltale.story ((C110_run hp hex over_quiet).1 ⟨fuel, s, h, rfl⟩) rfl
  obtain ⟨_, h1, h2⟩ := st
  exact ⟨h1, h2⟩

/-- **C119, partial.** When the program answers: exactly if every line fits and has no lone quote in a group, and, where `char` is signed, no odd word
is given to `mixed_func` as the third argument. The full claim, that it always answers, is false: see `C119_total_false`. -/
theorem C119_total_partial (hp : Proper cfg) (hex : ∀ b, 0 < b → exceeds 1 b = false) :
    (∃ fuel s outs, observed (overFunctions pl tiny) (mapOps fixed charSigned exceeds) (UMap.create (djb2 charSigned) 1) catching fuel
      (some (fitting cfg)) OverWorld.start (fixedProgram overTable reqs) = .ok (s, outs)) ↔
    ∀ r ∈ reqs, Enterable (delims cfg) r ∧ ∀ i, Enters (delims cfg) r i → ¬ OverTrouble pl i := by
  rw [C117_iff hp hex over_quiet over_steady trivial]
  constructor
  · exact fun h r hr => ⟨(h r hr).1, fun i hi => (over_answerable i).1 ((h r hr).2 i hi)⟩
  · exact fun h r hr => ⟨(h r hr).1, fun i hi => (over_answerable i).2 ((h r hr).2 i hi)⟩

/-- **C119.** What a command returns depends on its name and the number of its arguments alone: not on the arguments, nor on when it is entered. -/
theorem C119_count {i : Input} {r : Option Bytes} {o : Bytes} (h : OverTold pl tiny () i () r o) : r = overReturns i.name i.arguments.length := by
  cases h <;> simp only [List.length_cons, List.length_nil] <;> decide +kernel

/-- **C119.** The lines without a number are those that `sprintf` makes from the format string (OverloadingExample.cpp 46). -/
theorem C119_format {t rest : Bytes} (h : t.length < 2 ^ 31) :
    Fmt.format (lit "Creating an explosion '%.*s' with the default radius") (Fmt.viewArgs t.length (t ++ rest)) =
      .ok (explosionText t ++ lit "default radius") := by
  have e1 : Fmt.compile ((lit "Creating an explosion '%.*s' with the default radius").length + 1)
      (lit "Creating an explosion '%.*s' with the default radius") [] =
      some [.text (lit "Creating an explosion '"), .dir .precS, .text (lit "' with the default radius")] := by decide +kernel
  have e2 : lit "' with the default radius" = lit "' with the " ++ lit "default radius" := by decide +kernel
  simp [Fmt.format, e1, Fmt.output, Fmt.convert, Fmt.viewArgs, Fmt.precText_view h, explosionText, e2]

/-! ## Examples -/

namespace Overloads

/-- The program with these lines, on the hash map as it is. -/
abbrev entered (lines : List Bytes) : Res (Sys (UMap Bytes (Command OverCode Unit)) OverWorld OverCode Unit × List ExecOut) :=
  observed (overFunctions linux64 (fun _ _ => false)) (mapOps false true overOne) (UMap.create (djb2 true) 1)
    true 5 (some (fitting (LexCfg.default true))) OverWorld.start (fixedProgram overTable (lines.map .line))

/-- The answers: errors, and return value or output. -/
abbrev answers (lines : List String) : Res (List (Option (List Bytes × Bytes))) :=
  (entered (lines.map lit)).map fun x => x.2.map fun o => o.toOption.map fun r => (r.errors, r.returnValue.getD r.output)

/-- An answer without errors. -/
abbrev said (t : String) : Option (List Bytes × Bytes) := some ([], lit t)

/-- Errors. -/
abbrev wrong (ts : List String) : Option (List Bytes × Bytes) := some (ts.map lit, [])

end Overloads

open Overloads

/-- **C119**, a witness: four bytes as the third argument of `mixed_func`. -/
theorem C119_total_false : (entered [lit "mixed_func foo 3.14 tru" ++ [128]]).map (fun x => x.2.length) = .ub .toLowerRange := by decide +kernel

/-- The lines of the example (OverloadingExample.cpp 83-89). -/
example : answers ["func", "func 42", "func 42 3.14", "mixed_func", "mixed_func 42", "mixed_func foo 3.14", "mixed_func foo 3.14 true"] =
    .ok [said "func1", said "func2", said "func3", said "lambda1", said "func2", said "Object::func1 from object_one",
      said "Object::func2 from object_two"] := by
  decide +kernel

/-- The lines of the example (OverloadingExample.cpp 92-97). -/
example : answers ["explosions.create small", "explosions.create small 1.5", "func 1 2 3 4", "mixed_func 1 2 3 4"] =
    .ok [said "Creating an explosion 'small' with the default radius\n", said "Creating an explosion 'small' with the radius 1.500000\n",
      wrong ["Wrong number of arguments to 'func': expected 0, 1 or 2, got 4"],
      wrong ["Wrong number of arguments to 'mixed_func': expected 0, 1, 2 or 3, got 4"]] := by
  decide +kernel

/-- The number decides, not the kind: a text where `func` takes a number is an error, though `mixed_func` would take it elsewhere. -/
example : answers ["func foo", "mixed_func foo", "func 42 foo", "mixed_func 42 3.14"] =
    .ok [wrong ["Unable to convert 'foo' to type 'int'"], wrong ["Unable to convert 'foo' to type 'int'"],
      wrong ["Unable to convert 'foo' to type 'float'"], said "Object::func1 from object_one"] := by
  decide +kernel

end Coil
