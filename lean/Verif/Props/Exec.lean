import Verif.Proofs.Exec
import Verif.Props.UMap
import Verif.Props.Lexer

/-!
# Properties of executing commands (C26-C31, C33, C39, C41)

`(nested P ops catching fuel depth).exec s req` is `bindings.execute(req)` in the program `s`, called at nesting depth
`depth` (0: from outside). `fuel` bounds the depth of recursion: an equation with `.ok` on the right means that
the recursion ends, and what is claimed does not depend on the bound. The theorems hold for any container of
commands (`ops`); what `ops.find` finds in the container of the code is the subject of C24, C25 and C32. `P` gives the parameters, the
result type and the body of each function; bodies are arbitrary, and may themselves execute, add and remove commands.
-/

namespace Coil
open Spec

/-! ## A program for the examples -/

namespace Demo

/-- 64-bit Linux. -/
def pl : Platform := ⟨true, true, false, true⟩

/-- `int` as a parameter. -/
abbrev int : Param := ⟨Int, intConv pl .int⟩

/-- A void function. -/
def void (ps : List Param) (body : Args ps → Prog Int Nat Nat Unit) : FunctorDef Int Nat Nat :=
  ⟨ps, Unit, lit "void", none, body⟩

/-- A function that returns `int`. -/
def fn (ps : List Param) (body : Args ps → Prog Int Nat Nat Int) : FunctorDef Int Nat Nat :=
  ⟨ps, Int, lit "int", some (intConv pl .int).toString, body⟩

/-- The functions. The program state is one number; captured data is a number. -/
def P : Nat → FunctorDef Int Nat Nat
  | 0 => fn [] fun _ => .get fun w => .ret w
  | 1 => fn [int] fun a => .get fun w => .set (w + a.1) (.ret (w + a.1))
  | 2 => fn [int, int] fun a => .log (lit "a") (.logline (lit "b") (.ret (a.1 + a.2.1)))
  | 3 => fn [int] fun a => .log (lit "x") (.reportError (lit "bad") (.set a.1 (.ret a.1)))
  | 4 => fn [] fun _ => .log (lit "y") (.reportError (lit "first") (.set 7 (.throw (.std (lit "boom")))))
  | 5 => void [] fun _ => .setNamed 0 ⟨lit "k", ⟨[lit "changed"]⟩⟩ (.ret ())
  | 6 => fn [] fun _ => .execLine (lit "add 5") fun _ => .execLine (lit "two 1 2") fun o =>
      match o with
      | .ok r => .log (r.output ++ r.returnValue.getD []) (.ret 1)
      | .error _ => .ret 2
  | 7 => void [] fun _ => .remove (lit "gone") (.captured fun d => .set d (.ret ()))
  | 8 => void [] fun _ => .add (lit "new") [(0, 0)] (.remove (lit "add") (.captured fun d => .set d (.ret ())))
  | _ => void [] fun _ => .ret ()

abbrev Reg := UMap Bytes (Command Nat Nat)

/-- The container of the code. -/
abbrev ops : RegOps Reg Nat Nat := mapOps false true overOne

/-- A program after registering some commands. -/
def start : Res (Sys Reg Int Nat Nat) := do
  let m ← UMap.create (djb2 true) 1
  let s ← bindingsAdd ops ⟨m, some (lexRead (LexCfg.default true)), 10, [], 0, [], []⟩ (lit "add") [(0, 0), (1, 0), (1, 0)]
  let s ← bindingsAdd ops s (lit "two") [(2, 0)]
  let s ← bindingsAdd ops s (lit "bad") [(3, 0)]
  let s ← bindingsAdd ops s (lit "throws") [(4, 0)]
  let s ← bindingsAdd ops s (lit "named") [(5, 0)]
  let s ← bindingsAdd ops s (lit "calls") [(6, 0)]
  let s ← bindingsAdd ops s (lit "gone") [(7, 42)]
  bindingsAdd ops s (lit "safe") [(8, 42)]

/-- Executing a line: the result, the program state, and the calls made. -/
def exec (catching : Bool) (t : String) : Res (ExecOut × Int × List (Nat × Nat)) := do
  let s ← start
  let (s', o) ← execute P ops catching 5 s (.line (lit t))
  .ok (o, s'.user, s'.calls)

/-- A result. -/
def result (name : String) (args : List String) (errors : List String) (ret : Option String) (output : String) :
    ExecResult :=
  ⟨⟨lit name, args.map fun a => ⟨[lit a]⟩, []⟩, errors.map lit, ret.map lit, lit output⟩

end Demo

variable {S W C D : Type} {P : C → FunctorDef W C D} {ops : RegOps S C D} {catching : Bool} {fuel depth : Nat}
  {s s' : Sys S W C D} {req : Request} {input : Input} {out : ExecOut} {res : ExecResult} {cmd : Command C D}
  {f : Inst C D}

/-! ## C26 -/

/-- **C26.** When the arguments convert, the first function object with as many parameters as there are arguments is
called with the converted values, and nothing else is called except by that function itself. -/
theorem C26_one_call (hm : Means s.lexer req input) (hn : input.name ≠ [])
    (hf : ops.find s.reg input.name = .ok (some cmd)) (hs : FirstOfArity P input.arguments.length cmd.functors f)
    {xs : Args (P f.code).params} (hx : ConvertTo (P f.code).params input.arguments xs)
    (h : (nested P ops catching fuel depth).exec s req = .ok (s', out)) :
    ∃ deeper es e, s'.calls = s.calls ++ (depth, f.id) :: deeper ∧ (∀ c ∈ deeper, depth < c.1) ∧
      Runs ops (nested P ops catching (fuel - 1) (depth + 1)) f input.namedArguments [] ((P f.code).body xs)
        { s with calls := s.calls ++ [(depth, f.id)] } es e s' := by
  obtain ⟨fuel, rfl, _⟩ := exec_ok h
  rw [exec_means hm] at h
  have hl : f.id ∉ s.freed := by
    rw [executeInput_selected hn hf hs] at h
    obtain ⟨x, h1, _⟩ := Res.bind_eq_ok.1 h
    exact (invoke_ok (by obtain ⟨_, _, _, h, _⟩ := hs; exact h) h1).1
  obtain ⟨es, e, h1, _⟩ := (executeInput_called hn hf hs hl hx).1 h
  obtain ⟨new, a, b⟩ := runs_calls (exec_calls fuel (depth + 1)) h1
  exact ⟨new, es, e, by simp [a], b, h1⟩

/-- **C26**, converse: such a call does take place, provided the function object has not been destroyed. -/
theorem C26_call_happens (hm : Means s.lexer req input) (hn : input.name ≠ [])
    (hf : ops.find s.reg input.name = .ok (some cmd)) (hs : FirstOfArity P input.arguments.length cmd.functors f)
    (hl : f.id ∉ s.freed) {xs : Args (P f.code).params} (hx : ConvertTo (P f.code).params input.arguments xs)
    {es : List CtxEvent} {e : End (P f.code).R}
    (h : Runs ops (nested P ops catching fuel (depth + 1)) f input.namedArguments [] ((P f.code).body xs)
        { s with calls := s.calls ++ [(depth, f.id)] } es e s') :
    ∃ out, (nested P ops catching (fuel + 1) depth).exec s req = .ok (s', out) := by
  refine ⟨endResult catching input (P f.code).print es e, ?_⟩
  rw [exec_means hm]
  exact (executeInput_called hn hf hs hl hx).2 ⟨es, e, h, rfl⟩

/-- **C26**, for any execution: at most one function object is called by it (not counting what that function
executes itself), and it is the first one of the named command that has as many parameters as there are arguments, and all
arguments convert. -/
theorem C26_at_most_one (h : (nested P ops catching fuel depth).exec s req = .ok (s', out)) :
    s'.calls = s.calls ∨
      ∃ input cmd f xs deeper, Means s.lexer req input ∧ ops.find s.reg input.name = .ok (some cmd) ∧
        FirstOfArity P input.arguments.length cmd.functors f ∧ ConvertTo (P f.code).params input.arguments xs ∧
        s'.calls = s.calls ++ (depth, f.id) :: deeper ∧ ∀ c ∈ deeper, depth < c.1 := by
  obtain ⟨fuel, rfl, h'⟩ := exec_ok h
  clear h
  rcases h' with ⟨_, _, _, _, _, _, rfl, _⟩ | ⟨i, hm, h⟩
  · exact .inl rfl
  · rcases executeInput_cases h with ⟨_, rfl, _⟩ | ⟨_, _, rfl, _⟩ | ⟨_, _, _, _, rfl, _⟩ |
      ⟨_, _, _, _, _, _, _, _, rfl, _⟩ | ⟨_, cmd, f, xs, _, _, hf, hs, _, hx, hr, _⟩
    · exact .inl rfl
    · exact .inl rfl
    · exact .inl rfl
    · exact .inl rfl
    · obtain ⟨new, a, b⟩ := runs_calls (exec_calls fuel (depth + 1)) hr
      exact .inr ⟨i, cmd, f, xs, new, hm, hf, hs, hx, by simp [a], b⟩

/-- `add` has overloads without and (twice) with one parameter: function objects 0, 1, 2. -/
example : Demo.exec true "add 5" = .ok (.ok (Demo.result "add" ["5"] [] (some "15") ""), 15, [(0, 1)]) := by
  decide +kernel

/-- A command that executes two others: both calls are one level deeper. -/
example : Demo.exec true "calls" =
    .ok (.ok (Demo.result "calls" [] [] (some "1") "ab\n3"), 15, [(0, 7), (1, 1), (1, 3)]) := by decide +kernel

/-! ## C27 -/

/-- **C27.** Without an overload for the number of arguments nothing runs, the program is unchanged, and the error names the command, the
accepted counts in registration order and the given count. -/
theorem C27_wrong_count (hm : Means s.lexer req input) (hn : input.name ≠ []) (hnul : NulFree input.name)
    (hf : ops.find s.reg input.name = .ok (some cmd))
    (hno : ∀ g ∈ cmd.functors, (P g.code).params.length ≠ input.arguments.length) :
    (nested P ops catching (fuel + 1) depth).exec s req = .ok (s, .ok ⟨input,
      [lit "Wrong number of arguments to '" ++ input.name ++ lit "': expected " ++
        countsInWords (cmd.functors.map (fun g => (P g.code).params.length)) ++ lit ", got " ++
        natDec input.arguments.length], none, []⟩) := by
  rw [exec_means hm, executeInput_count hn hf hno, countError_eq _ hnul]

example : Demo.exec true "add 1 2 3" = .ok (.ok (Demo.result "add" ["1", "2", "3"]
    ["Wrong number of arguments to 'add': expected 0, 1 or 1, got 3"] none ""), 10, []) := by decide +kernel

example : Demo.exec true "two" = .ok (.ok (Demo.result "two" []
    ["Wrong number of arguments to 'two': expected 2, got 0"] none ""), 10, []) := by decide +kernel

/-- **C27**, for any name: the name is quoted up to its first NUL byte. -/
theorem C27_wrong_count_any_name (hm : Means s.lexer req input) (hn : input.name ≠ []) {pre : Bytes} (hpre : NulFree pre)
    (hcut : input.name = pre ∨ ∃ rest, input.name = pre ++ 0 :: rest)
    (hf : ops.find s.reg input.name = .ok (some cmd))
    (hno : ∀ g ∈ cmd.functors, (P g.code).params.length ≠ input.arguments.length) :
    (nested P ops catching (fuel + 1) depth).exec s req = .ok (s, .ok ⟨input,
      [lit "Wrong number of arguments to '" ++ pre ++ lit "': expected " ++
        countsInWords (cmd.functors.map (fun g => (P g.code).params.length)) ++ lit ", got " ++
        natDec input.arguments.length], none, []⟩) := by
  rw [exec_means hm, executeInput_count hn hf hno, countError_cut _ hpre hcut]

/-! ## C28 -/

/-- **C28.** If some argument does not convert, nothing runs, the program is unchanged, and the errors are the errors of all arguments that do not convert, in
order. -/
theorem C28_conversion_failure (hm : Means s.lexer req input) (hn : input.name ≠ [])
    (hf : ops.find s.reg input.name = .ok (some cmd)) (hs : FirstOfArity P input.arguments.length cmd.functors f)
    (hl : f.id ∉ s.freed) (hd : ConversionsDefined (P f.code).params input.arguments)
    (he : conversionErrors (P f.code).params input.arguments ≠ []) :
    (nested P ops catching (fuel + 1) depth).exec s req =
      .ok (s, .ok ⟨input, conversionErrors (P f.code).params input.arguments, none, []⟩) := by
  rw [exec_means hm, executeInput_rejected hn hf hs hl hd he]

example : Demo.exec true "two x 99999999999" = .ok (.ok (Demo.result "two" ["x", "99999999999"]
    ["Unable to convert 'x' to type 'int'", "Unable to convert '99999999999' to type 'int'"] none ""), 10, []) := by
  decide +kernel

example : Demo.exec true "two 1 y" = .ok (.ok (Demo.result "two" ["1", "y"]
    ["Unable to convert 'y' to type 'int'"] none ""), 10, []) := by decide +kernel

/-! ## C29 -/

/-- **C29.** A result never has both a return value and an error. -/
theorem C29_exclusive (h : (nested P ops catching fuel depth).exec s req = .ok (s', .ok res)) :
    res.returnValue = none ∨ res.errors = [] := by
  obtain ⟨fuel, rfl, h'⟩ := exec_ok h
  clear h
  rcases h' with ⟨_, _, _, _, _, _, _, h⟩ | ⟨i, hm, h⟩
  · cases h
    exact .inl rfl
  · rcases executeInput_cases h with ⟨_, _, h⟩ | ⟨_, _, _, h⟩ | ⟨_, _, _, _, _, h⟩ |
      ⟨_, _, _, _, _, _, _, _, _, h⟩ | ⟨_, cmd, f, xs, es, e, hf, hs, _, hx, hr, h⟩
    · cases h; exact .inl rfl
    · cases h; exact .inl rfl
    · cases h; exact .inl rfl
    · cases h; exact .inl rfl
    · cases e with
      | ret r =>
        simp only [endResult, Except.ok.injEq] at h
        subst h
        by_cases he : errorsOf es = []
        · exact .inr he
        · simp [he]
      | exn x =>
        cases catching with
        | true =>
          simp only [endResult, if_true, Except.ok.injEq] at h
          subst h
          exact .inl rfl
        | false => simp [endResult] at h

/-- **C29.** A call that ends normally gives the errors it reported; without errors it gives its return value as text (nothing
for `void`). -/
theorem C29_returned (hm : Means s.lexer req input) (hn : input.name ≠ [])
    (hf : ops.find s.reg input.name = .ok (some cmd)) (hs : FirstOfArity P input.arguments.length cmd.functors f)
    (hl : f.id ∉ s.freed) {xs : Args (P f.code).params} (hx : ConvertTo (P f.code).params input.arguments xs)
    {es : List CtxEvent} {r : (P f.code).R}
    (h : Runs ops (nested P ops catching fuel (depth + 1)) f input.namedArguments [] ((P f.code).body xs)
        { s with calls := s.calls ++ [(depth, f.id)] } es (.ret r) s') :
    ∃ res, (nested P ops catching (fuel + 1) depth).exec s req = .ok (s', .ok res) ∧ res.errors = errorsOf es ∧
      (errorsOf es = [] → ∀ print, (P f.code).print = some print → res.returnValue = some (print r)) ∧
      ((P f.code).print = none → res.returnValue = none) ∧
      (errorsOf es ≠ [] → res.returnValue = none) := by
  refine ⟨⟨{ input with namedArguments := namedAfter input.namedArguments es }, errorsOf es,
    if errorsOf es = [] then (P f.code).print.map (fun p => p r) else none, outputOf es⟩, ?_, ?_⟩
  · rw [exec_means hm]
    exact (executeInput_called hn hf hs hl hx).2 ⟨es, _, h, rfl⟩
  · refine ⟨rfl, ?_, ?_, ?_⟩
    · intro he print hp
      simp [he, hp]
    · intro hp
      simp [hp]
    · intro he
      simp [he]

/-- The function logs, reports an error, changes the state and returns a value: the value is not given. -/
example : Demo.exec true "bad 3" = .ok (.ok (Demo.result "bad" ["3"] ["bad"] none "x"), 3, [(0, 4)]) := by
  decide +kernel

/-! ## C30 -/

/-- **C30.** A name that is not registered. -/
theorem C30_unknown (hm : Means s.lexer req input) (hn : input.name ≠ []) (hnul : NulFree input.name)
    (hf : ops.find s.reg input.name = .ok none) :
    (nested P ops catching (fuel + 1) depth).exec s req =
      .ok (s, .ok ⟨input, [lit "No function '" ++ input.name ++ lit "' is registered"], none, []⟩) := by
  rw [exec_means hm, executeInput_unknown hn hf, cstr_of_nulFree hnul]

/-- **C30.** No name. -/
theorem C30_empty (hm : Means s.lexer req input) (hn : input.name = []) :
    (nested P ops catching (fuel + 1) depth).exec s req =
      .ok (s, .ok ⟨input, [lit "No function name is specified"], none, []⟩) := by
  rw [exec_means hm, executeInput_empty hn]

/-- **C30**, for any name: it is quoted up to its first NUL byte. -/
theorem C30_unknown_any_name (hm : Means s.lexer req input) (hn : input.name ≠ []) {pre : Bytes} (hpre : NulFree pre)
    (hcut : input.name = pre ∨ ∃ rest, input.name = pre ++ 0 :: rest) (hf : ops.find s.reg input.name = .ok none) :
    (nested P ops catching (fuel + 1) depth).exec s req =
      .ok (s, .ok ⟨input, [lit "No function '" ++ pre ++ lit "' is registered"], none, []⟩) := by
  rw [exec_means hm, executeInput_unknown hn hf, cstr_cut hpre hcut]

example : Demo.exec true "nope 1" =
    .ok (.ok (Demo.result "nope" ["1"] ["No function 'nope' is registered"] none ""), 10, []) := by decide +kernel

example : Demo.exec true "  " = .ok (.ok (Demo.result "" [] ["No function name is specified"] none ""), 10, []) := by
  decide +kernel

/-! ## C31 -/

/-- **C31.** A line that the lexer rejects. -/
theorem C31_syntax_error {l : Lexer} {t m : Bytes} (hl : s.lexer = some l) (ht : l t = .ok (.error m)) :
    (nested P ops catching (fuel + 1) depth).exec s (.line t) =
      .ok (s, .ok ⟨⟨[], [], []⟩, [lit "Syntax error: " ++ m], none, []⟩) := by
  simp only [Nested.exec, nested, executeLine, hl, ht, Res.bind_ok]
  rfl

/-- **C31**, the other way round: only a line that the lexer accepts makes a call. -/
theorem C31_accepted {l : Lexer} {t : Bytes} (hl : s.lexer = some l)
    (h : (nested P ops catching fuel depth).exec s (.line t) = .ok (s', out)) (hc : s'.calls ≠ s.calls) :
    ∃ i, l t = .ok (.ok i) := by
  obtain ⟨fuel, rfl, h'⟩ := exec_ok h
  clear h
  rcases h' with ⟨_, _, _, _, _, _, rfl, _⟩ | ⟨i, ⟨l', h1, h2⟩, _⟩
  · exact absurd rfl hc
  · rw [hl] at h1
    cases h1
    exact ⟨i, h2⟩

example : Demo.exec true "add 'x" = .ok (.ok ⟨⟨[], [], []⟩,
    [lit "Syntax error: Token ''' doesn't have a corresponding opening/closing quote"], none, []⟩, 10, []) := by decide +kernel

/-! ## C33 -/

/-- **C33.** With catching enabled no exception leaves `execute`. -/
theorem C33_contained (h : (nested P ops true fuel depth).exec s req = .ok (s', out)) : ∃ res, out = .ok res := by
  obtain ⟨fuel, rfl, h'⟩ := exec_ok h
  clear h
  rcases h' with ⟨_, _, _, _, _, _, _, h⟩ | ⟨i, hm, h⟩
  · exact ⟨_, h⟩
  · rcases executeInput_cases h with ⟨_, _, h⟩ | ⟨_, _, _, h⟩ | ⟨_, _, _, _, _, h⟩ |
      ⟨_, _, _, _, _, _, _, _, _, h⟩ | ⟨_, cmd, f, xs, es, e, hf, hs, _, hx, hr, h⟩
    · exact ⟨_, h⟩
    · exact ⟨_, h⟩
    · exact ⟨_, h⟩
    · exact ⟨_, h⟩
    · cases e with
      | ret r => exact ⟨_, h⟩
      | exn x => exact ⟨_, h⟩

/-- `what()` is a C string. -/
def Exn.IsC : Exn → Prop
  | .std what => NulFree what
  | .other => True

theorem caughtText_eq {x : Exn} (h : x.IsC) : caughtText x = exceptionText x := by
  cases x with
  | std what => simp only [caughtText, exceptionText, cstr_of_nulFree h]
  | other => rfl

/-- **C33.** A caught exception is one more error; the errors and the output before it are kept; there is no return value. -/
theorem C33_caught (hm : Means s.lexer req input) (hn : input.name ≠ [])
    (hf : ops.find s.reg input.name = .ok (some cmd)) (hs : FirstOfArity P input.arguments.length cmd.functors f)
    (hl : f.id ∉ s.freed) {xs : Args (P f.code).params} (hx : ConvertTo (P f.code).params input.arguments xs)
    {es : List CtxEvent} {x : Exn} (hc : x.IsC)
    (h : Runs ops (nested P ops true fuel (depth + 1)) f input.namedArguments [] ((P f.code).body xs)
        { s with calls := s.calls ++ [(depth, f.id)] } es (.exn x) s') :
    ∃ res, (nested P ops true (fuel + 1) depth).exec s req = .ok (s', .ok res) ∧
      res.errors = errorsOf es ++ [exceptionText x] ∧ res.output = outputOf es ∧ res.returnValue = none := by
  refine ⟨⟨{ input with namedArguments := namedAfter input.namedArguments es }, errorsOf es ++ [caughtText x],
    none, outputOf es⟩, ?_, ?_⟩
  · rw [exec_means hm]
    exact (executeInput_called hn hf hs hl hx).2 ⟨es, _, h, rfl⟩
  · exact ⟨by rw [← caughtText_eq hc], rfl, rfl⟩

/-- **C33.** Without catching, the exception leaves `execute`. -/
theorem C33_propagates (hm : Means s.lexer req input) (hn : input.name ≠ [])
    (hf : ops.find s.reg input.name = .ok (some cmd)) (hs : FirstOfArity P input.arguments.length cmd.functors f)
    (hl : f.id ∉ s.freed) {xs : Args (P f.code).params} (hx : ConvertTo (P f.code).params input.arguments xs)
    {es : List CtxEvent} {x : Exn}
    (h : Runs ops (nested P ops false fuel (depth + 1)) f input.namedArguments [] ((P f.code).body xs)
        { s with calls := s.calls ++ [(depth, f.id)] } es (.exn x) s') :
    (nested P ops false (fuel + 1) depth).exec s req = .ok (s', .error x) := by
  rw [exec_means hm]
  exact (executeInput_called hn hf hs hl hx).2 ⟨es, _, h, rfl⟩

example : Demo.exec true "throws" = .ok (.ok (Demo.result "throws" []
    ["first", "Exception caught during execution: boom"] none "y"), 7, [(0, 5)]) := by decide +kernel

example : Demo.exec false "throws" = .ok (.error (.std (lit "boom")), 7, [(0, 5)]) := by decide +kernel

/-! ## C39 -/

/-- **C39.** The output of any execution is what the called function logged, in order, or empty if no function is called; however the function ends. -/
theorem C39_output (h : (nested P ops catching fuel depth).exec s req = .ok (s', .ok res)) :
    (s' = s ∧ res.output = []) ∨
      ∃ input cmd f xs es e, Means s.lexer req input ∧ ops.find s.reg input.name = .ok (some cmd) ∧
        FirstOfArity P input.arguments.length cmd.functors f ∧ ConvertTo (P f.code).params input.arguments xs ∧
        Runs ops (nested P ops catching (fuel - 1) (depth + 1)) f input.namedArguments [] ((P f.code).body xs)
          { s with calls := s.calls ++ [(depth, f.id)] } es e s' ∧ res.output = outputOf es := by
  obtain ⟨fuel, rfl, h'⟩ := exec_ok h
  clear h
  rcases h' with ⟨_, _, _, _, _, _, hs, h⟩ | ⟨i, hm, h⟩
  · cases h
    exact .inl ⟨hs, rfl⟩
  · rcases executeInput_cases h with ⟨_, hs, h⟩ | ⟨_, _, hs, h⟩ | ⟨_, _, _, _, hs, h⟩ |
      ⟨_, _, _, _, _, _, _, _, hs, h⟩ | ⟨_, cmd, f, xs, es, e, hf, hs, _, hx, hr, h⟩
    · cases h; exact .inl ⟨hs, rfl⟩
    · cases h; exact .inl ⟨hs, rfl⟩
    · cases h; exact .inl ⟨hs, rfl⟩
    · cases h; exact .inl ⟨hs, rfl⟩
    · refine .inr ⟨i, cmd, f, xs, es, e, hm, hf, hs, hx, hr, ?_⟩
      cases e with
      | ret r =>
        simp only [endResult, Except.ok.injEq] at h
        rw [h]
      | exn x =>
        cases catching with
        | true =>
          simp only [endResult, if_true, Except.ok.injEq] at h
          rw [h]
        | false => simp [endResult] at h

example : Demo.exec true "two 1 2" = .ok (.ok (Demo.result "two" ["1", "2"] [] (some "3") "ab\n"), 10, [(0, 3)]) := by
  decide +kernel

example : outputOf [.log (lit "a"), .error (lit "e"), .logline (lit "b"), .log []] = lit "ab\n" := by decide

/-! ## C41 -/

/-- **C41.** The result has the command that was executed, except for named arguments that the function itself assigned to through the iterators of `NamedArgs`. Missing for the full
claim: functions that do so, for which it is false. -/
theorem C41_echo_partial (hm : Means s.lexer req input)
    (h : (nested P ops catching fuel depth).exec s req = .ok (s', .ok res)) :
    res.input = input ∨
      ∃ f xs es e, Runs ops (nested P ops catching (fuel - 1) (depth + 1)) f input.namedArguments []
          ((P f.code).body xs) { s with calls := s.calls ++ [(depth, f.id)] } es e s' ∧
        res.input = { input with namedArguments := namedAfter input.namedArguments es } ∧
        ((∀ i v, CtxEvent.setNamed i v ∉ es) → res.input = input) := by
  obtain ⟨fuel, rfl, _⟩ := exec_ok h
  rw [exec_means hm] at h
  rcases executeInput_cases h with ⟨_, hs, h⟩ | ⟨_, _, hs, h⟩ | ⟨_, _, _, _, hs, h⟩ |
      ⟨_, _, _, _, _, _, _, _, hs, h⟩ | ⟨_, cmd, f, xs, es, e, hf, hs, _, hx, hr, h⟩
  · cases h; exact .inl rfl
  · cases h; exact .inl rfl
  · cases h; exact .inl rfl
  · cases h; exact .inl rfl
  · have hi : res.input = { input with namedArguments := namedAfter input.namedArguments es } := by
      cases e with
      | ret r =>
        simp only [endResult, Except.ok.injEq] at h
        rw [h]
      | exn x =>
        cases catching with
        | true =>
          simp only [endResult, if_true, Except.ok.injEq] at h
          rw [h]
        | false => simp [endResult] at h
    refine .inr ⟨f, xs, es, e, hr, hi, ?_⟩
    intro hno
    rw [hi, namedAfter_no_set hno]

/-- **C41.** Name, positional arguments and the number of named arguments are always echoed. -/
theorem C41_echo_rest_partial (hm : Means s.lexer req input)
    (h : (nested P ops catching fuel depth).exec s req = .ok (s', .ok res)) :
    res.input.name = input.name ∧ res.input.arguments = input.arguments ∧
      res.input.namedArguments.length = input.namedArguments.length := by
  rcases C41_echo_partial hm h with h | ⟨_, _, es, _, _, h, _⟩
  · simp [h]
  · simp [h, namedAfter_length]

/-- **C41 is false of the code**: the command `named` assigns to its named argument. -/
theorem C41_echo_false : Demo.exec true "named k=original" = .ok (.ok ⟨⟨lit "named", [],
    [⟨lit "k", ⟨[lit "changed"]⟩⟩]⟩, [], none, []⟩, 10, [(0, 6)]) := by decide +kernel

example : Demo.exec true "safe k=original" = .ok (.ok ⟨⟨lit "safe", [],
    [⟨lit "k", ⟨[lit "original"]⟩⟩]⟩, [], none, []⟩, 42, [(0, 9)]) := by decide +kernel

end Coil
