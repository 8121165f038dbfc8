import Verif.Proofs.SerialPure
import Verif.Props.Exec

/-!
# Properties of serializers that are arbitrary code (C75, C76)

`(nestedSer P order ops catching fuel depth).exec s req` is `bindings.execute(req)` in the program `s`, as in
`Props/Exec.lean`, where `fromString` and `toString` of every parameter and result type are programs that may
change the program state, use the registry, execute commands and throw. `order` says in which order the arguments of
each function are converted; C++ leaves this open.
-/

namespace Coil
open Spec

/-! ## A program for the examples -/

namespace SerDemo

/-- A digit, as a number; each conversion appends its digit to the program state. The letter `t` makes the conversion throw, the
letter `r` removes the command `pair`, the letter `n` executes the command `count`. -/
def digit : SerParam Int Nat Nat := ⟨Int, lit "digit", fun v =>
  match v.subvalues with
  | [[c]] =>
    if c = 116 then .set 99 (.throw (.std (lit "no digit")))
    else if c = 114 then .remove (lit "pair") (.ret (.ok 0))
    else if c = 110 then .execLine (lit "count") fun o =>
      match o with
      | .ok r => .ret (if r.errors = [] then .ok 1 else .error (lit "count failed"))
      | .error e => .throw e
    else if 48 ≤ c ∧ c ≤ 57 then
      .get fun w => .set (10 * w + (c.toNat - 48 : Nat)) (.ret (.ok ((c.toNat - 48 : Nat) : Int)))
    else .ret (.error (c :: lit " is not a digit"))
  | _ => .ret (.error (lit "not one character"))⟩

/-- The result as text; a negative result has no text. -/
def print (r : Int) : Ser Int Nat Nat Bytes :=
  if r < 0 then .throw .other else .ret (intDec r)

/-- The functions. -/
def P : Nat → SerDef Int Nat Nat
  | 0 => ⟨2, fun _ => digit, Int, lit "int", some print, fun (xs : Fin 2 → Int) => .ret (xs 0 + xs 1)⟩
  | 1 => ⟨2, fun _ => digit, Int, lit "int", some print,
      fun (xs : Fin 2 → Int) => .reportError (lit "bad") (.ret (xs 0 - xs 1))⟩
  | _ => ⟨0, fun i => i.elim0, Int, lit "int", some print, fun _ => .get fun w => .set (w + 1) (.ret w)⟩

/-- The arguments from the first to the last, and from the last to the first. -/
def forward (c : Nat) : List (Fin (P c).arity) := List.finRange _
def backward (c : Nat) : List (Fin (P c).arity) := (List.finRange _).reverse

/-- A program after registering the commands. -/
def start : Res (Sys Demo.Reg Int Nat Nat) := do
  let m ← UMap.create (djb2 true) 1
  let s ← bindingsAdd Demo.ops ⟨m, some (lexRead (LexCfg.default true)), 0, [], 0, [], []⟩ (lit "pair") [(0, 0)]
  let s ← bindingsAdd Demo.ops s (lit "minus") [(1, 0)]
  bindingsAdd Demo.ops s (lit "count") [(2, 0)]

/-- Executing a line: the result, the program state, and the calls made. -/
def exec (order : (c : Nat) → List (Fin (P c).arity)) (catching : Bool) (t : String) :
    Res (ExecOut × Int × List (Nat × Nat)) := do
  let s ← start
  let (s', o) ← (nestedSer P order Demo.ops catching 5 0).exec s (.line (lit t))
  .ok (o, s'.user, s'.calls)

end SerDemo

variable {S W C D : Type} {P : C → SerDef W C D} {order : (c : C) → List (Fin (P c).arity)} {ops : RegOps S C D}
  {catching : Bool} {fuel depth : Nat} {s s' s1 : Sys S W C D} {req : Request} {input : Input} {out : ExecOut}
  {res : ExecResult} {cmd : Command C D} {f : Inst C D}

/-! ## C75 -/

/-- **C75.** What a call comes to, exactly: the conversions happen one after the other, in the given order; an exception of one
of them ends the call; otherwise, if some of them fail, all their messages are reported; otherwise the function runs, and its
result is made into text. -/
theorem C75_call_iff (ho : IsOrder P order) (hm : Means s.lexer req input) (hn : input.name ≠ [])
    (hf : ops.find s.reg input.name = .ok (some cmd)) (hs : FirstOfArityS P input.arguments.length cmd.functors f)
    (hl : f.id ∉ s.freed) :
    (nestedSer P order ops catching (fuel + 1) depth).exec s req = .ok (s', out) ↔
      CallGives ops (nestedSer P order ops catching fuel (depth + 1)) catching depth f (P f.code) (order f.code)
        input s s' out := by
  rw [execSer_means hm]
  exact executeInputSer_iff ho hn hf hs hl

example : SerDemo.exec SerDemo.forward true "pair 3 4" =
    .ok (.ok (Demo.result "pair" ["3", "4"] [] (some "7") ""), 34, [(0, 0)]) := by decide +kernel

example : SerDemo.exec SerDemo.forward true "pair n 4" =
    .ok (.ok (Demo.result "pair" ["n", "4"] [] (some "5") ""), 14, [(1, 2), (0, 0)]) := by decide +kernel

/-- **C75.** When the conversion of an argument throws, the function is not called and the arguments after it are not
converted; what the conversions did so far remains. With catching the only error is the exception's message. -/
theorem C75_conversion_throws (ho : IsOrder P order) (hm : Means s.lexer req input) (hn : input.name ≠ [])
    (hf : ops.find s.reg input.name = .ok (some cmd)) (hs : FirstOfArityS P input.arguments.length cmd.functors f)
    (hl : f.id ∉ s.freed) {x : Exn}
    (h : ConvThrows ops (nestedSer P order ops catching fuel (depth + 1)) (P f.code) input.arguments (order f.code) s s' x) :
    (nestedSer P order ops catching (fuel + 1) depth).exec s req =
      .ok (s', if catching then .ok ⟨input, [caughtError x], none, []⟩ else .error x) := by
  rw [C75_call_iff ho hm hn hf hs hl]
  have := CallGives.conversionThrows (catching := catching) (depth := depth) (f := f) h
  simpa [afterThrow, resultOf, errorsOf, outputOf, namedAfter] using this

example : SerDemo.exec SerDemo.forward true "pair 3 t" =
    .ok (.ok (Demo.result "pair" ["3", "t"] ["Exception caught during execution: no digit"] none ""), 99, []) := by
  decide +kernel

example : SerDemo.exec SerDemo.forward false "pair 3 t" = .ok (.error (.std (lit "no digit")), 99, []) := by
  decide +kernel

/-- **C75.** When no conversion throws and some fail, the function is not called, and the errors are the messages of
all failed conversions, in the order of the parameters. -/
theorem C75_conversion_fails (ho : IsOrder P order) (hm : Means s.lexer req input) (hn : input.name ≠ [])
    (hf : ops.find s.reg input.name = .ok (some cmd)) (hs : FirstOfArityS P input.arguments.length cmd.functors f)
    (hl : f.id ∉ s.freed) {r : Results (P f.code)}
    (h : Convs ops (nestedSer P order ops catching fuel (depth + 1)) (P f.code) input.arguments r (order f.code) s s')
    (he : messages r ≠ []) :
    (nestedSer P order ops catching (fuel + 1) depth).exec s req = .ok (s', .ok ⟨input, messages r, none, []⟩) :=
  (C75_call_iff ho hm hn hf hs hl).2 (.rejected h he)

example : SerDemo.exec SerDemo.backward true "pair x y" =
    .ok (.ok (Demo.result "pair" ["x", "y"] ["x is not a digit", "y is not a digit"] none ""), 0, []) := by
  decide +kernel

/-- **C75.** The text of the result is made even when the function has reported errors: if making it throws, the
exception's message comes after the reported errors. -/
theorem C75_print_throws (ho : IsOrder P order) (hm : Means s.lexer req input) (hn : input.name ≠ [])
    (hf : ops.find s.reg input.name = .ok (some cmd)) (hs : FirstOfArityS P input.arguments.length cmd.functors f)
    (hl : f.id ∉ s.freed) {r : Results (P f.code)} {xs} {es : List CtxEvent} {v : (P f.code).R} {s2 : Sys S W C D}
    {print} {x : Exn}
    (hc : Convs ops (nestedSer P order ops catching fuel (depth + 1)) (P f.code) input.arguments r (order f.code) s s1)
    (hx : AreValues r xs) (hl1 : f.id ∉ s1.freed)
    (hr : Runs ops (nestedSer P order ops catching fuel (depth + 1)) f input.namedArguments [] ((P f.code).body xs)
      { s1 with calls := s1.calls ++ [(depth, f.id)] } es (.ret v) s2)
    (hp : (P f.code).print = some print)
    (ht : (print v).run ops (nestedSer P order ops catching fuel (depth + 1)) s2 = .ok (s', .exn x)) :
    (nestedSer P order ops catching (fuel + 1) depth).exec s req =
      .ok (s', if catching then
        .ok ⟨{ input with namedArguments := namedAfter input.namedArguments es }, errorsOf es ++ [caughtError x], none,
          outputOf es⟩
      else .error x) := by
  rw [C75_call_iff ho hm hn hf hs hl]
  have := CallGives.unprintable (catching := catching) (depth := depth) hc hx hl1 hr hp ht
  simpa [afterThrow, resultOf] using this

example : SerDemo.exec SerDemo.forward true "minus 3 4" =
    .ok (.ok (Demo.result "minus" ["3", "4"] ["bad", "Exception caught during execution"] none ""), 34, [(0, 1)]) := by
  decide +kernel

example : SerDemo.exec SerDemo.forward true "minus 4 3" =
    .ok (.ok (Demo.result "minus" ["4", "3"] ["bad"] none ""), 43, [(0, 1)]) := by decide +kernel

/-- **C75.** With catching no exception leaves `execute`, whatever the functions and the serializers throw. -/
theorem C75_contained (ho : IsOrder P order) (h : (nestedSer P order ops true fuel depth).exec s req = .ok (s', out)) :
    ∃ res, out = .ok res := by
  obtain ⟨fuel, rfl, h'⟩ := execSer_ok h
  clear h
  rcases h' with ⟨m, _, rfl⟩ | ⟨i, _, h⟩
  · exact ⟨_, rfl⟩
  · rcases executeInputSer_cases ho h with ⟨_, m, rfl⟩ | ⟨_, cmd, f, _, _, _, h⟩
    · exact ⟨_, rfl⟩
    · cases h <;> exact ⟨_, rfl⟩

/-- **C75.** A result never has both a return value and an error. -/
theorem C75_exclusive (ho : IsOrder P order)
    (h : (nestedSer P order ops catching fuel depth).exec s req = .ok (s', .ok res)) :
    res.returnValue = none ∨ res.errors = [] := by
  obtain ⟨fuel, rfl, h'⟩ := execSer_ok h
  clear h
  generalize ho' : (Except.ok res : ExecOut) = o at h'
  rcases h' with ⟨m, _, rfl⟩ | ⟨i, _, h⟩
  · cases ho'
    exact .inl rfl
  · rcases executeInputSer_cases ho h with ⟨_, m, rfl⟩ | ⟨_, cmd, f, _, _, _, h⟩
    · cases ho'
      exact .inl rfl
    · have throws : ∀ {es : List CtxEvent} {x : Exn}, .ok res = afterThrow catching (resultOf i es none) x →
          res.returnValue = none := by
        intro es x h
        cases catching <;> simp [afterThrow] at h
        rw [h]
      cases h with
      | conversionThrows => exact .inl (throws ho')
      | throws => exact .inl (throws ho')
      | unprintable => exact .inl (throws ho')
      | rejected => cases ho'; exact .inl rfl
      | void => cases ho'; exact .inl (by simp [resultOf])
      | printed =>
        cases ho'
        rename_i es _ _ _ _ _ _ _ _ _ _
        by_cases he : errorsOf es = [] <;> simp [resultOf, he]

/-- **C75.** At most one function object is called by an execution, not counting what serializers and the function execute
themselves; it is the first one of the named command with the right number of parameters, and all conversions
gave values. -/
theorem C75_at_most_one (ho : IsOrder P order)
    (h : (nestedSer P order ops catching fuel depth).exec s req = .ok (s', out)) :
    (∃ deeper, s'.calls = s.calls ++ deeper ∧ ∀ c ∈ deeper, depth < c.1) ∨
      ∃ input cmd f before deeper r xs s1, Means s.lexer req input ∧ ops.find s.reg input.name = .ok (some cmd) ∧
        FirstOfArityS P input.arguments.length cmd.functors f ∧
        Convs ops (nestedSer P order ops catching (fuel - 1) (depth + 1)) (P f.code) input.arguments r (order f.code) s s1 ∧
        AreValues r xs ∧ s'.calls = s.calls ++ before ++ (depth, f.id) :: deeper ∧ (∀ c ∈ before, depth < c.1) ∧
        ∀ c ∈ deeper, depth < c.1 := by
  obtain ⟨fuel, rfl, h'⟩ := execSer_ok h
  clear h
  rcases h' with ⟨_, rfl, _⟩ | ⟨i, hm, h⟩
  · exact .inl ⟨[], by simp, by simp⟩
  · rcases executeInputSer_cases ho h with ⟨rfl, _⟩ | ⟨_, cmd, f, hf, hs, _, h⟩
    · exact .inl ⟨[], by simp, by simp⟩
    · rcases callGives_calls (execSer_calls ho fuel (depth + 1)) h with ⟨new, h1, h2⟩ |
        ⟨before, deeper, r, xs, s1, h1, h2, h3, h4, h5⟩
      · exact .inl ⟨new, h1, h2⟩
      · exact .inr ⟨i, cmd, f, before, deeper, r, xs, s1, hm, hf, hs, h4, h5, h1, h2, h3⟩

/-- **C75**: a serializer that removes the command being executed makes the call a use of a destroyed function
object. -/
theorem C75_removing_serializer_false :
    SerDemo.exec SerDemo.forward true "pair 3 r" = .ub .useAfterFree := by decide +kernel

/-- The same serializer in another command. -/
example : SerDemo.exec SerDemo.forward true "minus 3 r" =
    .ok (.ok (Demo.result "minus" ["3", "r"] ["bad"] none ""), 3, [(0, 1)]) := by decide +kernel

/-! ## C76 -/

/-- **C76.** When the serializers have no effects the order of the conversions does not matter: in every order execution
has the results of the model of C26-C31. -/
theorem C76_pure {Q : C → FunctorDef W C D} {order : (c : C) → List (Fin (Q c).toSer.arity)}
    (ho : IsOrder (fun c => (Q c).toSer) order) :
    (nestedSer (fun c => (Q c).toSer) order ops catching fuel depth).exec s req = .ok (s', out) ↔
      (nested Q ops catching fuel depth).exec s req = .ok (s', out) :=
  nested_pure ho fuel depth s req (s', out)

example : ((do
    let s ← Demo.start
    let (s', o) ← (nestedSer (fun c => (Demo.P c).toSer) (fun _ => (List.finRange _).reverse) Demo.ops true 5 0).exec s
      (.line (lit "two 1 2"))
    .ok (o, s'.user, s'.calls)) : Res (ExecOut × Int × List (Nat × Nat))) = Demo.exec true "two 1 2" := by
  decide +kernel

/-- **C76.** The reported messages come in the order of the parameters: in any two orders in which the conversions end with the
same values and messages, the same errors are reported. -/
theorem C76_errors {o₁ o₂ : (c : C) → List (Fin (P c).arity)} (h1 : IsOrder P o₁) (h2 : IsOrder P o₂)
    (hm : Means s.lexer req input) (hn : input.name ≠ []) (hf : ops.find s.reg input.name = .ok (some cmd))
    (hs : FirstOfArityS P input.arguments.length cmd.functors f) (hl : f.id ∉ s.freed) {r : Results (P f.code)}
    {s₁ s₂ : Sys S W C D}
    (hc1 : Convs ops (nestedSer P o₁ ops catching fuel (depth + 1)) (P f.code) input.arguments r (o₁ f.code) s s₁)
    (hc2 : Convs ops (nestedSer P o₂ ops catching fuel (depth + 1)) (P f.code) input.arguments r (o₂ f.code) s s₂)
    (he : messages r ≠ []) :
    ∃ res, (nestedSer P o₁ ops catching (fuel + 1) depth).exec s req = .ok (s₁, .ok res) ∧
      (nestedSer P o₂ ops catching (fuel + 1) depth).exec s req = .ok (s₂, .ok res) :=
  ⟨_, C75_conversion_fails h1 hm hn hf hs hl hc1 he, C75_conversion_fails h2 hm hn hf hs hl hc2 he⟩

/-- **C76** is false of serializers with effects: the order shows in the program state, and in the commands that
were executed when a conversion throws. -/
theorem C76_order_false :
    IsOrder SerDemo.P SerDemo.forward ∧ IsOrder SerDemo.P SerDemo.backward ∧
    SerDemo.exec SerDemo.forward true "pair 3 4" =
      .ok (.ok (Demo.result "pair" ["3", "4"] [] (some "7") ""), 34, [(0, 0)]) ∧
    SerDemo.exec SerDemo.backward true "pair 3 4" =
      .ok (.ok (Demo.result "pair" ["3", "4"] [] (some "7") ""), 43, [(0, 0)]) ∧
    SerDemo.exec SerDemo.forward true "pair n t" =
      .ok (.ok (Demo.result "pair" ["n", "t"] ["Exception caught during execution: no digit"] none ""), 99, [(1, 2)]) ∧
    SerDemo.exec SerDemo.backward true "pair n t" =
      .ok (.ok (Demo.result "pair" ["n", "t"] ["Exception caught during execution: no digit"] none ""), 99, []) := by
  refine ⟨fun c => List.Perm.refl _, fun c => List.reverse_perm _, ?_, ?_, ?_, ?_⟩ <;> decide +kernel

end Coil
