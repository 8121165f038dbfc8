import Verif.Proofs.ErrorProgram
import Verif.Props.Answered

/-!
# The program of examples/errors (C123)
-/

namespace Coil
open Spec Fl Floats

variable {pl : Platform} {tiny : Nat → Nat → Bool} {nan : Fl → Bool} {catching charSigned fixed : Bool} {cfg : LexCfg}
  {reqs : List Request} {exceeds : Nat → Nat → Bool} {outs : List ExecOut} {s : Sys (UMap Bytes (Command ErrorCode Unit)) Unit ErrorCode Unit}
  {name t : Bytes} {named : List Named} {o : Outcome} {q : ℚ}

/-- **C123.** Whatever is entered, the commands answer and report errors as told; an exception is told to the user as an error if exceptions are
caught, and goes on to the caller otherwise; the program goes on after it in either case. -/
theorem C123_run (hp : Proper cfg) (hex : ∀ b, 0 < b → exceeds 1 b = false) {fuel : Nat}
    (h : observed (errorFunctions pl tiny nan) (mapOps fixed charSigned exceeds) (UMap.create (djb2 charSigned) 1) catching fuel (some (fitting cfg)) ()
      (fixedProgram errorTable reqs) = .ok (s, outs)) :
    Annals (ErrorTold pl tiny nan) catching (delims cfg) () reqs outs () := by
  obtain ⟨_, g, _⟩ := error_accounts.annals ((C110_run hp hex error_quiet).1 ⟨fuel, s, h, rfl⟩) trivial
  exact g

/-- **C123, partial.** When the program answers: exactly if every line fits and has no lone quote in a group and, where `char` is signed,
`get_type_name` is given no odd word. The full claim, that it always answers, is false: see `C123_total_false`. -/
theorem C123_total_partial (hp : Proper cfg) (hex : ∀ b, 0 < b → exceeds 1 b = false) :
    (∃ fuel s outs, observed (errorFunctions pl tiny nan) (mapOps fixed charSigned exceeds) (UMap.create (djb2 charSigned) 1) catching fuel
      (some (fitting cfg)) () (fixedProgram errorTable reqs) = .ok (s, outs)) ↔
    ∀ r ∈ reqs, Enterable (delims cfg) r ∧ ∀ i, Enters (delims cfg) r i → ¬ ErrorTrouble pl i := by
  rw [C117_iff hp hex error_quiet error_steady trivial]
  constructor
  · exact fun h r hr => ⟨(h r hr).1, fun i hi => (error_answerable i).1 ((h r hr).2 i hi)⟩
  · exact fun h r hr => ⟨(h r hr).1, fun i hi => (error_answerable i).2 ((h r hr).2 i hi)⟩

/-- **C123.** The same request has the same answer whenever it is entered: an error or an exception leaves nothing behind. -/
theorem C123_same (hp : Proper cfg) (hex : ∀ b, 0 < b → exceeds 1 b = false) {fuel : Nat}
    (h : observed (errorFunctions pl tiny nan) (mapOps fixed charSigned exceeds) (UMap.create (djb2 charSigned) 1) catching fuel (some (fitting cfg)) ()
      (fixedProgram errorTable reqs) = .ok (s, outs)) {m n : Nat} {o o' : ExecOut} (hm : outs[m]? = some o) (hn : outs[n]? = some o')
    (hr : reqs[m]? = reqs[n]?) : o = o' :=
  talk_same hp ((C110_run hp hex error_quiet).1 ⟨fuel, s, h, rfl⟩) hm hn hr

/-- **C123.** A number that is not negative: both commands tell its root, the same text. -/
theorem C123_root (hn : name = lit "sqrt_context" ∨ name = lit "sqrt_except") (h : ErrorTold pl tiny nan () ⟨name, [⟨[t]⟩], named⟩ () o)
    (ht : FloatFits t q) (h0 : 0 ≤ q) :
    ∃ text, o = .good (some text) [] ∧ TellsRoot text q ∧ ∀ n : Nat, q = n * n → n ≤ 4096 → text = natDec n := by
  obtain ⟨x, text, x1, x2, rfl, x4, x5⟩ := root_text (tiny := tiny) (nan := nan) ht h0
  have one : ∀ y, ReadsFloat tiny t y → y = x := fun y hy => by
    have := (show _ = _ from hy).symm.trans x1
    simpa using this
  have no : ∀ {a : Bytes}, name = a → a ≠ lit "sqrt_context" → a ≠ lit "sqrt_except" → False := fun h1 h2 h3 => by
    subst h1
    exact hn.elim h2 h3
  generalize hi : (⟨name, [⟨[t]⟩], named⟩ : Input) = i at h
  cases h with
  | root _ hx _ =>
    cases hi
    cases one _ hx
    exact ⟨_, rfl, x4, x5⟩
  | reported hx hneg | thrown hx hneg =>
    cases hi
    cases one _ hx
    rw [x2] at hneg
    cases hneg
  | float => exact (no (congrArg GInput.name hi) (by dsimp only; decide +kernel) (by dsimp only; decide +kernel)).elim
  | noFloat => exact (no (congrArg GInput.name hi) (by dsimp only; decide +kernel) (by dsimp only; decide +kernel)).elim
  | type => exact (no (congrArg GInput.name hi) (by dsimp only; decide +kernel) (by dsimp only; decide +kernel)).elim
  | named => exact (no (congrArg GInput.name hi) (by dsimp only; decide +kernel) (by dsimp only; decide +kernel)).elim

/-- **C123.** A negative number: `sqrt_context` reports an error. -/
theorem C123_negative (h : ErrorTold pl tiny nan () ⟨lit "sqrt_context", [⟨[t]⟩], named⟩ () o) (ht : FloatFits t q) (h0 : q < 0) :
    o = .bad [lit "Value should be non-negative!"] := by
  obtain ⟨x, x1, x2⟩ := negative_read (tiny := tiny) ht h0
  have key : ∀ i : Input, i.name = lit "sqrt_context" → i.arguments = [⟨[t]⟩] → ErrorTold pl tiny nan () i () o →
      o = .bad [lit "Value should be non-negative!"] := by
    intro i h1 h2 h
    have no : ∀ {a : Bytes}, i.name = a → a ≠ lit "sqrt_context" → False := fun h3 h4 => h4 (h3.symm.trans h1)
    cases h with
    | root _ hx hneg =>
      cases h2
      have := (show _ = _ from hx).symm.trans x1
      simp only [Res.ok.injEq, Except.ok.injEq] at this
      subst this
      rw [x2] at hneg
      cases hneg
    | reported hx _ => rfl
    | thrown => exact (no rfl (by dsimp only; decide +kernel)).elim
    | float => exact (no rfl (by dsimp only; decide +kernel)).elim
    | noFloat => exact (no rfl (by dsimp only; decide +kernel)).elim
    | type => exact (no rfl (by dsimp only; decide +kernel)).elim
    | named => exact (no rfl (by dsimp only; decide +kernel)).elim
  exact key _ rfl rfl h

/-- **C123.** A negative number: `sqrt_except` throws. -/
theorem C123_throws (h : ErrorTold pl tiny nan () ⟨lit "sqrt_except", [⟨[t]⟩], named⟩ () o) (ht : FloatFits t q) (h0 : q < 0) :
    o = ⟨[], none, [], some (.std (lit "Value should be non-negative!"))⟩ := by
  obtain ⟨x, x1, x2⟩ := negative_read (tiny := tiny) ht h0
  have key : ∀ i : Input, i.name = lit "sqrt_except" → i.arguments = [⟨[t]⟩] → ErrorTold pl tiny nan () i () o →
      o = ⟨[], none, [], some (.std (lit "Value should be non-negative!"))⟩ := by
    intro i h1 h2 h
    have no : ∀ {a : Bytes}, i.name = a → a ≠ lit "sqrt_except" → False := fun h3 h4 => h4 (h3.symm.trans h1)
    cases h with
    | root _ hx hneg =>
      cases h2
      have := (show _ = _ from hx).symm.trans x1
      simp only [Res.ok.injEq, Except.ok.injEq] at this
      subst this
      rw [x2] at hneg
      cases hneg
    | thrown hx _ => rfl
    | reported => exact (no rfl (by dsimp only; decide +kernel)).elim
    | float => exact (no rfl (by dsimp only; decide +kernel)).elim
    | noFloat => exact (no rfl (by dsimp only; decide +kernel)).elim
    | type => exact (no rfl (by dsimp only; decide +kernel)).elim
    | named => exact (no rfl (by dsimp only; decide +kernel)).elim
  exact key _ rfl rfl h

/-! ## Examples -/

namespace Errs

/-- The program with these lines, on the hash map as it is. -/
abbrev entered (catching : Bool) (lines : List Bytes) : Res (Sys (UMap Bytes (Command ErrorCode Unit)) Unit ErrorCode Unit × List ExecOut) :=
  observed (errorFunctions linux64 (fun _ _ => true) (fun _ => false)) (mapOps false true overOne) (UMap.create (djb2 true) 1)
    catching 5 (some (fitting (LexCfg.default true))) () (fixedProgram errorTable (lines.map .line))

/-- The answers: errors, and return value or output; `none` for an exception. -/
abbrev answers (catching : Bool) (lines : List String) : Res (List (Option (List Bytes × Bytes))) :=
  (entered catching (lines.map lit)).map fun x => x.2.map fun o => o.toOption.map fun r => (r.errors, r.returnValue.getD r.output)

/-- An answer without errors. -/
abbrev said (t : String) : Option (List Bytes × Bytes) := some ([], lit t)

/-- Errors. -/
abbrev wrong (ts : List String) : Option (List Bytes × Bytes) := some (ts.map lit, [])

end Errs

open Errs

/-- **C123**, a witness: four bytes as the argument of `get_type_name`. -/
theorem C123_total_false : (entered true [lit "get_type_name tru" ++ [128]]).map (fun x => x.2.length) = .ub .toLowerRange := by decide +kernel

/-- Lines of the example (ErrorsExample.cpp 95-118). -/
example : answers true ["foo arg", "foo.bar arg", "ns.foo arg=", "foo = 1", ".foo", "sqrt_context 9.8596", "sqrt_context -1", "sqrt_except 9.8596",
      "sqrt_except -1", "get_float 0.1", "get_float true", "get_type_name true", "get_type_name 3.14", "get_type_name string"] =
    .ok [wrong ["No function 'foo' is registered"], wrong ["No function 'foo.bar' is registered"],
      wrong ["Syntax error: Expected an argument value, found end of string"],
      wrong ["Syntax error: Unexpected token '=': no name for the named argument is provided"], wrong ["No function '.foo' is registered"],
      said "3.14", wrong ["Value should be non-negative!"], said "3.14", wrong ["Exception caught during execution: Value should be non-negative!"],
      said "0.1", wrong ["Unable to convert 'true' to type 'float'"], said "bool", said "float",
      wrong ["Unknown type", "Unable to convert 'string' to type 'bool'", "Unable to convert 'string' to type 'int'",
        "Unable to convert 'string' to type 'float'"]] := by
  decide +kernel

/-- The rest of the lines (ErrorsExample.cpp 121-127). -/
example : answers true ["test_named_args", "test_named_args any_arg=something", "test_named_args any_arg=something float_arg=non-float",
      "test_named_args any_arg=something float_arg=3.14", "test_named_args any_arg=something float_arg=3.14 int_arg=non-int",
      "test_named_args any_arg=something float_arg=3.14 int_arg=42", "test_named_args any_arg=(foo, bar) float_arg=3.14 int_arg=42"] =
    .ok [wrong ["Missing named argument 'any_arg'"], wrong ["Missing named argument 'float_arg'"],
      wrong ["Unable to convert 'non-float' to type 'float'"], said "something, 3.14", wrong ["Unable to convert 'non-int' to type 'int'"],
      said "something, 3.14, 42", said "foo bar, 3.14, 42"] := by
  decide +kernel

/-- Without catching, the exception reaches the caller, and the program goes on. A number too large for `float` is refused, one that is rounded to
the nearest is not; a number too small may be refused. -/
example : answers false ["sqrt_except -1", "sqrt_except 16", "get_float 1e39", "get_float 16777217", "get_float 1e-60", "get_type_name 1e39",
      "get_type_name 1", "get_type_name 2"] =
    .ok [none, said "4", wrong ["Unable to convert '1e39' to type 'float'"], said "1.67772e+07", wrong ["Unable to convert '1e-60' to type 'float'"],
      wrong ["Unknown type", "Unable to convert '1e39' to type 'bool'", "Unable to convert '1e39' to type 'int'",
        "Unable to convert '1e39' to type 'float'"], said "bool", said "int"] := by
  decide +kernel

end Coil
