import Verif.Model.Exec

/-!
# A program that uses one registry, and moving registries

`src/Coil.cpp` 169-334, `include/coil/detail/{Bindings,AnyFunctor,Types}.h`.
-/

namespace Coil

/-- `Bindings::Bindings()` (Coil.cpp 190) with the default map (UnorderedMap.h 118) and a given lexer, in a program with
state `w` that has not allocated anything yet. -/
def newBindings {W C D : Type} (charSigned : Bool) (lexer : Option Lexer) (w : W) :
    Res (Sys (UMap Bytes (Command C D)) W C D) := do
  let m ← UMap.create (djb2 charSigned) 1
  .ok ⟨m, lexer, w, [], 0, [], []⟩

/-- What the surrounding program can do. `bindings[name] = functors` is `add`, `bindings[name] = nullptr` is `remove`
(Coil.cpp 318-334). -/
inductive Action (W C D : Type) where
  | add (name : Bytes) (fs : List (C × D))
  | remove (name : Bytes)
  | clear
  | setLexer (l : Option Lexer)
  | exec (req : Request)
  /-- the program changes its own state -/
  | setUser (w : W)

variable {S W C D : Type}

/-- One action. An exception out of `execute` is caught by the surrounding program. -/
def act (P : C → FunctorDef W C D) (ops : RegOps S C D) (catching : Bool) (fuel : Nat) (s : Sys S W C D) :
    Action W C D → Res (Sys S W C D)
  | .add name fs => bindingsAdd ops s name fs
  | .remove name => bindingsRemove ops s name
  | .clear => .ok (bindingsClear ops s)
  | .setLexer l => .ok (setLexer s l)
  | .exec req => do
    let (s', _) ← execute P ops catching fuel s req
    .ok s'
  | .setUser w => .ok { s with user := w }

/-- Several actions. -/
def actAll (P : C → FunctorDef W C D) (ops : RegOps S C D) (catching : Bool) (fuel : Nat) :
    Sys S W C D → List (Action W C D) → Res (Sys S W C D)
  | s, [] => .ok s
  | s, a :: rest => do
    let s' ← act P ops catching fuel s a
    actAll P ops catching fuel s' rest

/-! ## Metadata -/

/-- `AnyFunctor::parameterTypes` (Coil.cpp 179-182, AnyFunctor.h 81-85, Types.h 15-26). -/
def parameterTypes (P : C → FunctorDef W C D) (f : Inst C D) : List Bytes := (P f.code).params.map (fun p => p.conv.name)

/-- `AnyFunctor::returnType` (Coil.cpp 184-187, AnyFunctor.h 82). -/
def returnType (P : C → FunctorDef W C D) (f : Inst C D) : Bytes := (P f.code).retName

/-! ## Moving -/

/-- The data members of `Bindings` (Bindings.h 59-61). -/
structure BindingsObj (C D : Type) where
  lexer : Option Lexer
  reg : UMap Bytes (Command C D)

/-- `Bindings(Bindings&&)` (Coil.cpp 191): the new object and what is left of the old one. Members are move-constructed:
the pointer is swapped with null (UniquePtr.h 13-16) and the vectors with empty ones (Buffer.cpp 17-20). -/
def BindingsObj.moveConstruct (b : BindingsObj C D) : BindingsObj C D × BindingsObj C D := (b, ⟨none, UMap.movedFrom⟩)

/-- `operator=(Bindings&&)` (Coil.cpp 194): members are move-assigned, which swaps the pointers (UniquePtr.h 23-27) and
the vectors (Buffer.cpp 40-44). The results are the target and the source. -/
def BindingsObj.moveAssign (target source : BindingsObj C D) : BindingsObj C D × BindingsObj C D := (source, target)

end Coil
