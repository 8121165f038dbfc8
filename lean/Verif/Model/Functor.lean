import Verif.Model.Lifetime

/-!
# `FunctionWrapper`, `AnyStorage`, `AnyFunctor`: who owns a function
(include/coil/detail/FunctionWrapper.h, AnyFunctor.h, src/Coil.cpp 147-191)

Programs with any number of variables of the types `FunctionWrapper<Args...>` and `AnyFunctor`. The callables (`new Func`)
and the storages (`new AnyStorage`) are objects on the heap, numbered in the order of their creation. Allocation does not fail
and moving a callable does not throw. The arguments and results of calls are in Model/Exec; a call is recorded here as the callable
and the object it is called on.
-/

namespace Coil
namespace Fun
open Life (live)

/-- The members of a `FunctionWrapper` (FunctionWrapper.h 62, 101-104). `m_callFunc` and `m_destroyFunc` are set by every constructor.
`params` are the names of the user argument types, which belong to the static type (`Types::names`, Types.h). -/
structure Wrapper where
  func : Option Nat
  obj : Option Nat
  params : List Bytes
  ret : Bytes
  deriving DecidableEq, Repr

/-- The members of an `AnyFunctor` (AnyFunctor.h 76-78). -/
structure AnyFn where
  storage : Option Nat
  params : List Bytes
  ret : Bytes
  deriving DecidableEq, Repr

/-- The heap objects with a flag that says whether they are alive, the log of deleted callables, the variables, and the calls made. -/
structure FunState (C : Type) where
  funcs : List (C × Bool)
  stores : List (Wrapper × Bool)
  deleted : List Nat
  wraps : List (Option Wrapper)
  anys : List (Option AnyFn)
  calls : List (C × Option Nat)
  deriving DecidableEq, Repr

/-- A statement of a program. -/
inductive FunOp (C : Type) where
  | wrap (code : C) (obj : Option Nat) (params : List Bytes) (ret : Bytes)
  | moveWrap (src : Nat)
  | dropWrap (v : Nat)
  | callWrap (v : Nat)
  | toAny (src : Nat)
  | moveAny (src : Nat)
  | dropAny (v : Nat)
  | callAny (v : Nat)
  deriving DecidableEq, Repr

variable {C : Type}

/-- The move constructor of `FunctionWrapper` (FunctionWrapper.h 107-116): the new wrapper and what is left of the old one. -/
def Wrapper.moveOut (w : Wrapper) : Wrapper × Wrapper := (w, { w with func := none })

/-- `delete static_cast<Func*>(m_func)`. -/
def deleteFunc (s : FunState C) (i : Nat) : Res (FunState C) :=
  match s.funcs[i]? with
  | some (c, true) => .ok { s with funcs := s.funcs.set i (c, false), deleted := s.deleted ++ [i] }
  | _ => .ub .useAfterFree

/-- `~FunctionWrapper` (FunctionWrapper.h 118-122) with `typedDestroy` (92-98). -/
def destroyWrapper (s : FunState C) (w : Wrapper) : Res (FunState C) :=
  match w.func with
  | some i => deleteFunc s i
  | none => .ok s

/-- `FunctionWrapper::invoke` (FunctionWrapper.h 124-128) and `typedCall` (69-87): the callable is dereferenced. -/
def invokeWrapper (s : FunState C) (w : Wrapper) : Res (FunState C) :=
  match w.func with
  | none => .ub .nullDeref
  | some i =>
    match s.funcs[i]? with
    | some (c, true) => .ok { s with calls := s.calls ++ [(c, w.obj)] }
    | _ => .ub .useAfterFree

/-- The storage behind a pointer. -/
def readStore (s : FunState C) (j : Nat) : Res Wrapper :=
  match s.stores[j]? with
  | some (w, true) => .ok w
  | _ => .ub .useAfterFree

/-- `AnyFunctor::destroy` (Coil.cpp 161-167): `delete m_storage` runs `~AnyStorage`, which destroys the wrapper in it. -/
def destroyAny (s : FunState C) (a : AnyFn) : Res (FunState C) :=
  match a.storage with
  | none => .ok s
  | some j => do
    let w ← readStore s j
    let s1 ← destroyWrapper s w
    .ok { s1 with stores := s1.stores.set j (w, false) }

/-- `AnyFunctor::invokeTrampoline` (Coil.cpp 169-172), up to the call of the wrapper. -/
def invokeAny (s : FunState C) (a : AnyFn) : Res (FunState C) :=
  match a.storage with
  | none => .ub .nullDeref
  | some j => do
    let w ← readStore s j
    invokeWrapper s w

/-- The effect of a statement.
* `wrap`: `FunctionWrapper(Func, C*)` (FunctionWrapper.h 38-46).
* `moveWrap`: see `moveOut`.
* `toAny`: `AnyFunctor(FunctionWrapper func)` (AnyFunctor.h 81-85) with a moved argument: the parameter `func` is made by a move, moved to
  the parameter of `AnyStorage` (34-37) and moved to the member; then the two parameters are destroyed.
* `moveAny`: `AnyFunctor(AnyFunctor&&)` (Coil.cpp 149-154) exchanges all members with those of a default-initialised object. -/
def funStep (s : FunState C) : FunOp C → Res (FunState C)
  | .wrap code obj params ret =>
    .ok { s with funcs := s.funcs ++ [(code, true)], wraps := s.wraps ++ [some ⟨some s.funcs.length, obj, params, ret⟩] }
  | .moveWrap src => do
    let w ← live s.wraps src
    let (w1, left) := w.moveOut
    .ok { s with wraps := s.wraps.set src (some left) ++ [some w1] }
  | .dropWrap v => do
    let w ← live s.wraps v
    let s1 ← destroyWrapper s w
    .ok { s1 with wraps := s1.wraps.set v none }
  | .callWrap v => do
    let w ← live s.wraps v
    invokeWrapper s w
  | .toAny src => do
    let w ← live s.wraps src
    let (p1, left) := w.moveOut
    let (p2, left1) := p1.moveOut
    let (mem, left2) := p2.moveOut
    let s1 := { s with stores := s.stores ++ [(mem, true)] }
    let s2 ← destroyWrapper s1 left2
    let s3 ← destroyWrapper s2 left1
    .ok { s3 with wraps := s3.wraps.set src (some left), anys := s3.anys ++ [some ⟨some s.stores.length, p1.params, p1.ret⟩] }
  | .moveAny src => do
    let a ← live s.anys src
    .ok { s with anys := s.anys.set src (some ⟨none, [], []⟩) ++ [some a] }
  | .dropAny v => do
    let a ← live s.anys v
    let s1 ← destroyAny s a
    .ok { s1 with anys := s1.anys.set v none }
  | .callAny v => do
    let a ← live s.anys v
    invokeAny s a

/-- The effect of a program. -/
def funRun : FunState C → List (FunOp C) → Res (FunState C)
  | s, [] => .ok s
  | s, op :: ops => do
    let s' ← funStep s op
    funRun s' ops

/-- Before the program. -/
def FunState.init : FunState C := ⟨[], [], [], [], [], []⟩

/-- `AnyFunctor::arity` (Coil.cpp 174-177). -/
def AnyFn.arity (a : AnyFn) : Nat := a.params.length

end Fun
end Coil
