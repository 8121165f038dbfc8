import Verif.Model.Basic

/-!
# How argument objects travel to a user function
(include/coil/detail/FunctorCaller.h 25-43, FunctionWrapper.h 64-90, 124-128, Expected.h 72-75, 95-99, 211-216, 275-282)

One call of a user function, as the list of what happens to the argument objects: constructions, moves, destructions, and the call
itself. Objects are numbered in the order of their construction. The move constructor of an argument type may throw,
and so may serializers and the user function; the exception then leaves the call, and what was constructed is destroyed.

Simplifications. Arguments are converted and parameters initialised from left to right (C++ leaves the order open).
Parameters are destroyed when the function they belong to returns. `Context` parameters and the texts of errors are left
out. A serializer makes the value in place (`return T{...};`): the parameter of `Expected(T value)`.
-/

namespace Coil
namespace Pass

/-- How the user function takes a parameter (`Args` of FunctionWrapper.h 66-67, 124-125): `T`, `T const&` or `T&&`. (`T&` does not compile, as `value() &&` is not an lvalue.) -/
inductive Mode where
  | byValue
  | constRef
  | rvalueRef
  deriving DecidableEq, Repr

/-- How a conversion ends: with a value, with an error, or with an exception out of the serializer
(FunctorCaller.h 42, TypeSerializer.h). -/
inductive Outcome (α : Type) where
  | value (x : α)
  | error
  | throws
  deriving DecidableEq, Repr

/-- What happens to objects (the counters of tests/runtime/BindingsTests.cpp 45-90 count these). -/
inductive Ev (α : Type) where
  /-- constructed from other things -/
  | make (o : Nat) (x : α)
  | copy (src dst : Nat)
  | move (src dst : Nat)
  /-- a move constructor threw -/
  | failed (src : Nat)
  | destroy (o : Nat)
  /-- the user function starts, with these objects as its parameters -/
  | call (os : List Nat)
  /-- the user function moves the object away, for instance into a variable -/
  | take (o : Nat)
  deriving DecidableEq, Repr

/-- The number of objects, the number of move constructions attempted, and what happened; ghost state of FunctorCaller.h 25-43. -/
structure St (α : Type) where
  next : Nat
  tries : Nat
  log : List (Ev α)

/-- A user function (called at FunctionWrapper.h 75-85): which of its parameters it moves from, and whether it throws. -/
abbrev Body (α : Type) := List α → List Nat × Bool

/-- How a call ends (FunctorCaller.h 28-36): with a call of the user function, with errors, or with an exception. -/
inductive Ending where
  | called
  | rejected
  | exn
  deriving DecidableEq, Repr

variable {α : Type}

/-- Something happens; ghost state. -/
def St.emit (s : St α) (e : Ev α) : St α := { s with log := s.log ++ [e] }

/-- A move construction from `coil::move(...)` (Expected.h 73, FunctionWrapper.h 75-85, 127, FunctorCaller.h 34); `fails n`: the `n`-th one throws. -/
def moveTo (fails : Nat → Bool) (src : Nat) (s : St α) : St α × Option Nat :=
  if fails s.tries then ({ s.emit (.failed src) with tries := s.tries + 1 }, none)
  else ({ s.emit (.move src s.next) with next := s.next + 1, tries := s.tries + 1 }, some s.next)

/-- Destructions, of parameters at the end of a function or of objects in `Expected`s (Expected.h 95-99, 275-282). -/
def destroyAll : List Nat → St α → St α
  | [], s => s
  | o :: os, s => destroyAll os (s.emit (.destroy o))

/-- Initialising the parameters of a function from `coil::move(args)...` (FunctionWrapper.h 75-85, 127, FunctorCaller.h 34): a parameter by value is move-constructed, a reference is
bound to the same object. `owned` are the parameter objects constructed so far, the last one first; they are destroyed if a
constructor throws. The results are the objects the parameters stand for and the constructed ones. -/
def bindParams (fails : Nat → Bool) : List (Mode × Nat) → List Nat → St α → St α × Option (List Nat × List Nat)
  | [], owned, s => (s, some ([], owned))
  | (mode, o) :: rest, owned, s =>
    match mode with
    | .byValue =>
      match moveTo fails o s with
      | (s1, none) => (destroyAll owned s1, none)
      | (s1, some p) =>
        match bindParams fails rest (p :: owned) s1 with
        | (s2, none) => (s2, none)
        | (s2, some (ps, owned')) => (s2, some (p :: ps, owned'))
    | _ =>
      match bindParams fails rest owned s with
      | (s2, none) => (s2, none)
      | (s2, some (ps, owned')) => (s2, some (o :: ps, owned'))

/-- A function call (FunctionWrapper.h 66-87, 124-128): parameters, body, destruction of the parameters; `false` if an exception leaves it. -/
def frame (fails : Nat → Bool) (modes : List Mode) (os : List Nat) (body : List Nat → St α → St α × Bool) (s : St α) :
    St α × Bool :=
  match bindParams fails (modes.zip os) [] s with
  | (s1, none) => (s1, false)
  | (s1, some (ps, owned)) =>
    match body ps s1 with
    | (s2, r) => (destroyAll owned s2, r)

/-- The user function moves from some of its parameters (as the setter in Variable.h 13-16 does); it cannot move from a `T const&`. -/
def takeParams (modes : List Mode) (ps : List Nat) : List Nat → St α → St α
  | [], s => s
  | i :: is, s =>
    match modes[i]?, ps[i]? with
    | some .constRef, _ => takeParams modes ps is s
    | some _, some o => takeParams modes ps is (s.emit (.take o))
    | _, _ => takeParams modes ps is s

/-- The body of the user function, entered from FunctionWrapper.h 75-85. -/
def userBody (modes : List Mode) (act : List Nat × Bool) (ps : List Nat) (s : St α) : St α × Bool :=
  (takeParams modes ps act.1 (s.emit (.call ps)), !act.2)

/-- `FunctionWrapper::invoke` (FunctionWrapper.h 124-128), `typedCall` (66-87) and the user function. -/
def invokeWrapped (fails : Nat → Bool) (modes : List Mode) (act : List Nat × Bool) (os : List Nat) (s : St α) : St α × Bool :=
  frame fails modes os (fun ps => frame fails modes ps (fun qs => frame fails modes qs (userBody modes act))) s

/-- `TypeSerializer<T>::fromString(...)` (FunctorCaller.h 42) and `Expected(T value)` (Expected.h 72-75): the object in the `Expected`, `none`
for an error; `none` outside for an exception. -/
def convertOne (fails : Nat → Bool) (c : Outcome α) (s : St α) : St α × Option (Option Nat) :=
  match c with
  | .error => (s, some none)
  | .throws => (s, none)
  | .value x =>
    match moveTo fails s.next { s.emit (.make s.next x) with next := s.next + 1 } with
    | (s1, none) => (s1.emit (.destroy s.next), none)
    | (s1, some p) => (s1.emit (.destroy s.next), some (some p))

/-- All conversions: the parameters `expectedArgs` of `invoke` (FunctorCaller.h 25-26, 42). `held` are the objects in the `Expected`s so far,
the last one first. -/
def convertAll (fails : Nat → Bool) : List (Outcome α) → List Nat → St α → St α × Option (List (Option Nat) × List Nat)
  | [], held, s => (s, some ([], held))
  | c :: cs, held, s =>
    match convertOne fails c s with
    | (s1, none) => (destroyAll held s1, none)
    | (s1, some none) =>
      match convertAll fails cs held s1 with
      | (s2, none) => (s2, none)
      | (s2, some (es, held')) => (s2, some (none :: es, held'))
    | (s1, some (some p)) =>
      match convertAll fails cs (p :: held) s1 with
      | (s2, none) => (s2, none)
      | (s2, some (es, held')) => (s2, some (some p :: es, held'))

/-- `coil::move(expectedArgs).value()...` (FunctorCaller.h 34), if all have values (28). -/
def allValues : List (Option Nat) → Option (List Nat)
  | [] => some []
  | none :: _ => none
  | some o :: es => (allValues es).map (o :: ·)

/-- The values that the conversions give (FunctorCaller.h 42). -/
def valuesOf : List (Outcome α) → List α
  | [] => []
  | .value x :: cs => x :: valuesOf cs
  | _ :: cs => valuesOf cs

/-- `unpackAndInvoke` and `invoke` (FunctorCaller.h 25-43). -/
def callFunction (fails : Nat → Bool) (modes : List Mode) (cs : List (Outcome α)) (body : Body α) (s : St α) : St α × Ending :=
  match convertAll fails cs [] s with
  | (s1, none) => (s1, .exn)
  | (s1, some (es, held)) =>
    match allValues es with
    | none => (destroyAll held s1, .rejected)
    | some os =>
      match invokeWrapped fails modes (body (valuesOf cs)) os s1 with
      | (s2, ok) => (destroyAll held s2, if ok then .called else .exn)

/-- Before the call (FunctorCaller.h 40-43). -/
def St.start : St α := ⟨0, 0, []⟩

end Pass
end Coil
