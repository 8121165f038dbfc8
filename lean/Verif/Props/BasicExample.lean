import Verif.Proofs.BasicExample
import Verif.Props.Answered
import Verif.Props.Format

/-!
# The program of examples/basic (C118)
-/

namespace Coil
open Spec

variable {pl : Platform} {sz : IntType} {tiny : Nat → Nat → Bool} {nan : Fl → Fl → Bool} {catching charSigned fixed : Bool} {cfg : LexCfg}
  {reqs : List Request} {exceeds : Nat → Nat → Bool} {outs : List ExecOut}
  {s : Sys (UMap Bytes (Command BasicCode Unit)) BasicWorld BasicCode Unit}

/-- **C118.** Whatever is entered, the commands do what is told, what is not understood does nothing, and the console shows one line for each
`hello`. -/
theorem C118_run (hp : Proper cfg) (hex : ∀ b, 0 < b → exceeds 1 b = false) (hsz : SizeType pl sz) {fuel : Nat}
    (h : observed (basicFunctions pl sz tiny nan) (mapOps fixed charSigned exceeds) (UMap.create (djb2 charSigned) 1) catching fuel (some (fitting cfg))
      BasicWorld.start (fixedProgram basicTable reqs) = .ok (s, outs)) :
    ∃ n, Chronicle (BasicTold pl tiny nan) (delims cfg) 0 reqs outs n ∧ s.user.console = (List.replicate n (lit "Hello, world!\n")).flatten := by
  have st : ∃ n, Chronicle (BasicTold pl tiny nan) (delims cfg) 0 reqs outs n ∧ BasicKeeps s.user n :=
    (basic_telltale hsz).story ((C110_run hp hex basic_quiet).1 ⟨fuel, s, h, rfl⟩) ⟨rfl, rfl, rfl⟩
  obtain ⟨n, h1, h2⟩ := st
  exact ⟨n, h1, h2.1⟩

/-- **C118, partial.** When the program answers: exactly if every line fits and has no lone quote in a group, no product leaves `int`, and, where
`char` is signed, no odd word is given to `invert`. The full claim, that it always answers, is false: see `C118_total_false`. -/
theorem C118_total_partial (hp : Proper cfg) (hex : ∀ b, 0 < b → exceeds 1 b = false) :
    (∃ fuel s outs, observed (basicFunctions pl sz tiny nan) (mapOps fixed charSigned exceeds) (UMap.create (djb2 charSigned) 1) catching fuel
      (some (fitting cfg)) BasicWorld.start (fixedProgram basicTable reqs) = .ok (s, outs)) ↔
    ∀ r ∈ reqs, Enterable (delims cfg) r ∧ ∀ i, Enters (delims cfg) r i → ¬ BasicTrouble pl i := by
  rw [C117_iff hp hex basic_quiet basic_steady ⟨rfl, rfl⟩]
  constructor
  · exact fun h r hr => ⟨(h r hr).1, fun i hi => (basic_answerable i).1 ((h r hr).2 i hi)⟩
  · exact fun h r hr => ⟨(h r hr).1, fun i hi => (basic_answerable i).2 ((h r hr).2 i hi)⟩

/-- **C118.** What is told depends on the command alone, and only `hello` adds to the console. -/
theorem C118_anytime {h k : Nat} {i : Input} {r : Option Bytes} {o : Bytes} (t : BasicTold pl tiny nan h i k r o) (h' : Nat) :
    ∃ k', BasicTold pl tiny nan h' i k' r o ∧ k' - h' = k - h ∧ (k = h ∨ (k = h + 1 ∧ i.name = lit "hello")) := by
  cases t with
  | hello => exact ⟨h' + 1, .hello, by omega, .inr ⟨rfl, rfl⟩⟩
  | greeting => exact ⟨h', .greeting, by omega, .inl rfl⟩
  | repeated a => exact ⟨h', .repeated a, by omega, .inl rfl⟩
  | quoted => exact ⟨h', .quoted, by omega, .inl rfl⟩
  | invert a => exact ⟨h', .invert a, by omega, .inl rfl⟩
  | add a b => exact ⟨h', .add a b, by omega, .inl rfl⟩
  | concat => exact ⟨h', .concat, by omega, .inl rfl⟩
  | speak a b => exact ⟨h', .speak a b, by omega, .inl rfl⟩
  | scale a b c => exact ⟨h', .scale a b c, by omega, .inl rfl⟩

/-- **C118.** The texts that the model writes are those that `sprintf` makes from the format strings (BasicExample.cpp 24-25, 27, 38). -/
theorem C118_formats {t rest : Bytes} (h : t.length < 2 ^ 31) :
    Fmt.format (lit "'%.*s'") (Fmt.viewArgs t.length (t ++ rest)) = .ok (lit "'" ++ cstr t ++ lit "'") ∧
    Fmt.format (lit "logf: %s automatic") [.ptr (lit "no" ++ 0 :: rest)] = .ok (lit "logf: no automatic") ∧
    Fmt.format (lit " line break, but %s") [.ptr (lit "formatted\n" ++ 0 :: rest)] = .ok (lit " line break, but formatted\n") ∧
    Fmt.format (lit "loglinef: automatic line break and formatted") [] = .ok (lit "loglinef: automatic line break and formatted") := by
  have e1 : Fmt.compile ((lit "'%.*s'").length + 1) (lit "'%.*s'") [] = some [.text (lit "'"), .dir .precS, .text (lit "'")] := by decide +kernel
  have e2 : Fmt.compile ((lit "logf: %s automatic").length + 1) (lit "logf: %s automatic") [] =
      some [.text (lit "logf: "), .dir .s, .text (lit " automatic")] := by decide +kernel
  have e3 : Fmt.compile ((lit " line break, but %s").length + 1) (lit " line break, but %s") [] =
      some [.text (lit " line break, but "), .dir .s, .text []] := by decide +kernel
  have c2 : lit "logf: " ++ (cstr (lit "no") ++ (lit " automatic" ++ [])) = lit "logf: no automatic" := by decide +kernel
  have c3 : lit " line break, but " ++ (cstr (lit "formatted\n") ++ ([] ++ [])) = lit " line break, but formatted\n" := by decide +kernel
  refine ⟨?_, ?_, ?_, C57_plain (by decide +kernel) []⟩
  · simp [Fmt.format, e1, Fmt.output, Fmt.convert, Fmt.viewArgs, Fmt.precText_view h]
  · simp only [Fmt.format, e2, Fmt.output, Fmt.convert, Fmt.strText_nul, Res.bind_ok, c2]
  · simp only [Fmt.format, e3, Fmt.output, Fmt.convert, Fmt.strText_nul, Res.bind_ok, c3]

/-! ## Examples -/

namespace Basics

/-- The program with these lines, on the hash map as it is. -/
abbrev entered (lines : List Bytes) : Res (Sys (UMap Bytes (Command BasicCode Unit)) BasicWorld BasicCode Unit × List ExecOut) :=
  observed (basicFunctions linux64 .ulong (fun _ _ => false) (fun _ _ => false)) (mapOps false true overOne) (UMap.create (djb2 true) 1)
    true 5 (some (fitting (LexCfg.default true))) BasicWorld.start (fixedProgram basicTable (lines.map .line))

/-- The answers: errors, and return value or output. -/
abbrev answers (lines : List String) : Res (List (Option (List Bytes × Bytes))) :=
  (entered (lines.map lit)).map fun x => x.2.map fun o => o.toOption.map fun r => (r.errors, r.returnValue.getD r.output)

/-- An answer without errors. -/
abbrev said (t : String) : Option (List Bytes × Bytes) := some ([], lit t)

/-- Errors. -/
abbrev wrong (ts : List String) : Option (List Bytes × Bytes) := some (ts.map lit, [])

end Basics

open Basics

/-- **C118**, a witness: a product of 3000000000 is no `int`. -/
theorem C118_total_false : (entered [lit "scaler2.scale 300000000"]).map (fun x => x.2.length) = .ub .intOverflow := by decide +kernel

/-- **C118**, a witness: four bytes as the argument of `invert`. -/
theorem C118_invert_false : (entered [lit "invert tru" ++ [128]]).map (fun x => x.2.length) = .ub .toLowerRange := by decide +kernel

/-- The lines of the example (BasicExample.cpp 113-124). -/
example : answers ["hello", "hello_with_context", "print_quoted coil", "print_repeated hi 10", "print_quoted 'I have spaces'",
      "print_repeated \"I also have spaces \" 5"] =
    .ok [said "",
      said "log: no automatic line break\nlogline: line break is added automatically\nlogf: no automatic line break, but formatted\nloglinef: automatic line break and formatted\n",
      said "'coil'\n", said "hihihihihihihihihihi", said "'I have spaces'\n",
      said "I also have spaces I also have spaces I also have spaces I also have spaces I also have spaces "] := by
  decide +kernel

/-- The lines of the example (BasicExample.cpp 127-134). -/
example : answers ["invert true", "invert True", "invert 0", "invert FALSE", "add 3.14 2.72", "concat abc 123"] =
    .ok [said "false", said "false", said "true", said "true", said "5.86", said "abc123"] := by
  decide +kernel

/-- The lines of the example (BasicExample.cpp 137-144). -/
example : answers ["plain_function 101", "lambda 102", "custom_functor 103", "std_function 104", "scaler1.scale 10", "scaler2.scale 10"] =
    .ok [said "I am a function: 101", said "I am a lambda: 102", said "I am a custom functor: 103", said "I am a std::function: 104", said "20",
      said "100"] := by
  decide +kernel

/-- The lines of the example (BasicExample.cpp 147-151). -/
example : answers ["hello 1 2", "add 3.14", "add one two"] =
    .ok [wrong ["Wrong number of arguments to 'hello': expected 0, got 2"], wrong ["Wrong number of arguments to 'add': expected 2, got 1"],
      wrong ["Unable to convert 'one' to type 'float'", "Unable to convert 'two' to type 'float'"]] := by
  decide +kernel

/-- What is on the console after two greetings and a failed one. -/
example : (entered (["hello", "hello 1", "concat a b", "hello"].map lit)).map (fun x => x.1.user.console) = .ok (lit "Hello, world!\nHello, world!\n") := by
  decide +kernel

/-- The greatest number that may be scaled by 10 is answered: the hypotheses of the criterion can be met by a scaling. -/
example : answers ["scaler2.scale 214748364", "scaler1.scale -1073741824"] = .ok [said "2147483640", said "-2147483648"] := by decide +kernel

end Coil
