import Verif.Model.Serial
import Verif.Spec.Exec

/-!
# What it means to convert arguments one after the other

Serializers are arbitrary programs: what they do is what running them gives. This file says how the conversions of
one call follow each other and what the call makes of their results.
-/

namespace Coil
namespace Spec

variable {S W C D : Type}

/-- A value or an error message for each parameter. -/
abbrev Results (d : SerDef W C D) : Type := (i : Fin d.arity) → Except Bytes (d.param i).T

/-- `Convs ops ne d args r is s s'`: the conversions of the arguments `is`, one after the other, lead the program from `s` to `s'`,
and the result of each one is what `r` says. -/
inductive Convs (ops : RegOps S C D) (ne : Nested S W C D) (d : SerDef W C D) (args : List Value) (r : Results d) :
    List (Fin d.arity) → Sys S W C D → Sys S W C D → Prop
  | nil {s} : Convs ops ne d args r [] s s
  | cons {i is s s1 s2 a} : args[i.val]? = some a →
      ((d.param i).fromString a).run ops ne s = .ok (s1, .ret (r i)) →
      Convs ops ne d args r is s1 s2 → Convs ops ne d args r (i :: is) s s2

/-- The conversions before some argument give results, and the conversion of this argument throws. -/
def ConvThrows (ops : RegOps S C D) (ne : Nested S W C D) (d : SerDef W C D) (args : List Value) (is : List (Fin d.arity))
    (s s' : Sys S W C D) (x : Exn) : Prop :=
  ∃ (r : Results d) (pre : List (Fin d.arity)) (i : Fin d.arity) (post : List (Fin d.arity)) (s1 : Sys S W C D)
    (a : Value), is = pre ++ i :: post ∧ Convs ops ne d args r pre s s1 ∧ args[i.val]? = some a ∧
      ((d.param i).fromString a).run ops ne s1 = .ok (s', .exn x)

/-- The error messages, in the order of the parameters. -/
def messages {d : SerDef W C D} (r : Results d) : List Bytes :=
  (List.finRange d.arity).filterMap fun i =>
    match r i with
    | .error m => some m
    | .ok _ => none

/-- Every argument has a value. -/
def AreValues {d : SerDef W C D} (r : Results d) (xs : (i : Fin d.arity) → (d.param i).T) : Prop :=
  ∀ i, r i = .ok (xs i)

/-- `f` is the first function object with `n` parameters. -/
def FirstOfArityS (P : C → SerDef W C D) (n : Nat) (fs : List (Inst C D)) (f : Inst C D) : Prop :=
  ∃ pre post, fs = pre ++ f :: post ∧ (P f.code).arity = n ∧ ∀ g ∈ pre, (P g.code).arity ≠ n

/-- The error made of a caught exception: `what()` is a C string and ends at the first NUL byte. -/
def caughtError : Exn → Bytes
  | .std what => lit "Exception caught during execution: " ++ what.takeWhile (· ≠ 0)
  | .other => lit "Exception caught during execution"

/-- What becomes of an exception: one more error with catching, otherwise it leaves `execute`. -/
def afterThrow (catching : Bool) (res : ExecResult) (x : Exn) : ExecOut :=
  if catching then .ok { res with errors := res.errors ++ [caughtError x], returnValue := none } else .error x

/-- What a result has of a function that made the calls `es`. -/
def resultOf (input : Input) (es : List CtxEvent) (text : Option Bytes) : ExecResult :=
  ⟨{ input with namedArguments := namedAfter input.namedArguments es }, errorsOf es,
    if errorsOf es = [] then text else none, outputOf es⟩

/-- What can come of calling the function object `f` with the command `input` at nesting depth `depth`: the
conversions in the order `is`, the function itself, and its result as text. -/
inductive CallGives (ops : RegOps S C D) (ne : Nested S W C D) (catching : Bool) (depth : Nat) (f : Inst C D)
    (d : SerDef W C D) (is : List (Fin d.arity)) (input : Input) (s : Sys S W C D) : Sys S W C D → ExecOut → Prop
  /-- a conversion throws: nothing else happens -/
  | conversionThrows {s' x} : ConvThrows ops ne d input.arguments is s s' x →
      CallGives ops ne catching depth f d is input s s' (afterThrow catching (resultOf input [] none) x)
  /-- some arguments do not convert: all messages are reported and the function is not called -/
  | rejected {s' r} : Convs ops ne d input.arguments r is s s' → messages r ≠ [] →
      CallGives ops ne catching depth f d is input s s' (.ok ⟨input, messages r, none, []⟩)
  /-- the function throws -/
  | throws {r xs s1 es s' x} : Convs ops ne d input.arguments r is s s1 → AreValues r xs → f.id ∉ s1.freed →
      Runs ops ne f input.namedArguments [] (d.body xs) { s1 with calls := s1.calls ++ [(depth, f.id)] } es (.exn x) s' →
      CallGives ops ne catching depth f d is input s s' (afterThrow catching (resultOf input es none) x)
  /-- a `void` function returns -/
  | void {r xs s1 es v s'} : Convs ops ne d input.arguments r is s s1 → AreValues r xs → f.id ∉ s1.freed →
      Runs ops ne f input.namedArguments [] (d.body xs) { s1 with calls := s1.calls ++ [(depth, f.id)] } es (.ret v) s' →
      d.print = none → CallGives ops ne catching depth f d is input s s' (.ok (resultOf input es none))
  /-- the function returns a value, and making the text of the value throws -/
  | unprintable {r xs s1 es v s2 print s' x} : Convs ops ne d input.arguments r is s s1 → AreValues r xs →
      f.id ∉ s1.freed →
      Runs ops ne f input.namedArguments [] (d.body xs) { s1 with calls := s1.calls ++ [(depth, f.id)] } es (.ret v) s2 →
      d.print = some print → (print v).run ops ne s2 = .ok (s', .exn x) →
      CallGives ops ne catching depth f d is input s s' (afterThrow catching (resultOf input es none) x)
  /-- the function returns a value that is given as text unless the function reported errors -/
  | printed {r xs s1 es v s2 print s' t} : Convs ops ne d input.arguments r is s s1 → AreValues r xs →
      f.id ∉ s1.freed →
      Runs ops ne f input.namedArguments [] (d.body xs) { s1 with calls := s1.calls ++ [(depth, f.id)] } es (.ret v) s2 →
      d.print = some print → (print v).run ops ne s2 = .ok (s', .ret t) →
      CallGives ops ne catching depth f d is input s s' (.ok (resultOf input es (some t)))

/-- The order of evaluation evaluates every argument once. -/
def IsOrder (P : C → SerDef W C D) (order : (c : C) → List (Fin (P c).arity)) : Prop :=
  ∀ c, (order c).Perm (List.finRange (P c).arity)

end Spec
end Coil
