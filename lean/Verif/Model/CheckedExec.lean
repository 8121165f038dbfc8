import Verif.Model.Checked
import Verif.Model.CheckedLexer
import Verif.Model.Registry

/-!
# Registering and executing commands in builds with assertions

The functions of `Model/Exec.lean` and `Model/Registry.lean` once more, with the assertions on their way: those of the map
and of the lexer, of `Vector::operator[]` for the arguments (FunctorCaller.h 42), of `Expected::value` (Expected.h 198-216)
and of `UniquePtr::operator->` for the lexer (UniquePtr.h 54-63).

Simplifications: those of `Model/Exec.lean`. User functions and serializers are the same in both builds. The
assertions of `Expected::error` (FunctorCaller.h 22, Coil.cpp 254) and of `operator*` (Coil.cpp 258) stand behind the test
of the same condition, and that of `functors[i]` (Coil.cpp 310) behind the loop condition; they are left out.
-/

namespace Coil

variable {S W C D : Type}

/-- `UnorderedMap<String, Command>` with assertions (Bindings.h 61). -/
def mapOpsC {C D : Type} (fixed charSigned : Bool) (exceeds : Nat → Nat → Bool) :
    RegOps (UMap Bytes (Command C D)) C D where
  find m k := UMap.findC (djb2 charSigned) m k
  put m k v := UMap.insertOrAssignC (djb2 charSigned) exceeds m k v
  erase m k := UMap.eraseC (djb2 charSigned) fixed m k
  clear m := UMap.clear m
  all m := m.entries.map Prod.snd

/-- `DefaultLexer::parse` with assertions, followed by reading the result (`lexRead`). -/
def lexReadC (cfg : LexCfg) (s : Bytes) : Res (Except Bytes (GInput Bytes)) := do
  match ← lexParseC cfg s with
  | .error e => .ok (.error e)
  | .ok i => do
    let r ← i.read s
    .ok (.ok r)

/-- Converting the arguments (FunctorCaller.h 39-43); `arguments[i]` asserts its index (Vector.h 233-245). -/
def convertArgsC (args : List Value) : (ps : List Param) → Nat → Res (Expecteds ps)
  | [], _ => .ok ()
  | p :: ps, i => do
    let a ← readC args i
    let e ← p.conv.fromString a
    let rest ← convertArgsC args ps (i + 1)
    .ok (e, rest)

/-- `coil::move(expectedArgs).value()...` (FunctorCaller.h 34), which asserts that there is a value (Expected.h 212-216). -/
def takeValuesC : (ps : List Param) → Expecteds ps → Res (Args ps)
  | [], _ => .ok ()
  | _ :: ps, (e, rest) =>
    match e with
    | .error _ => .ub .assertion
    | .ok x => do
      let xs ← takeValuesC ps rest
      .ok (x, xs)

/-- `AnyFunctor::invokeTrampoline`, `AnyStorage::invoke`, `unpackAndInvoke`, `invoke` with assertions (Coil.cpp 169-172,
AnyFunctor.h 40-50, FunctorCaller.h 25-43). -/
def invokeFunctorC (P : C → FunctorDef W C D) (ops : RegOps S C D) (ne : Nested S W C D) (depth : Nat) (f : Inst C D)
    (s : Sys S W C D) (c : CallCtx) : Res (Sys S W C D × CallCtx × Option Exn) :=
  if f.id ∈ s.freed then .ub .useAfterFree
  else do
    let d := P f.code
    let es ← convertArgsC c.input.arguments d.params 0
    if anyMissing d.params es then .ok (s, reportAll d.params es c, none)
    else do
      let args ← takeValuesC d.params es
      let (s', c', r) ← (d.body args).run ops ne f { s with calls := s.calls ++ [(depth, f.id)] } c
      let (c'', e) := storeReturn d c' r
      .ok (s', c'', e)

/-- `Bindings::execute(CallContext&)` with assertions (Coil.cpp 261-316). -/
def executeCtxC (P : C → FunctorDef W C D) (ops : RegOps S C D) (catching : Bool) (ne : Nested S W C D) (depth : Nat)
    (s : Sys S W C D) (c : CallCtx) : Res (Sys S W C D × CallCtx × Option Exn) :=
  if c.input.name = [] then .ok (s, c.reportError (lit "No function name is specified"), none)
  else do
    match ← ops.find s.reg c.input.name with
    | none => .ok (s, c.reportError (lit "No function '" ++ cstr c.input.name ++ lit "' is registered"), none)
    | some cmd =>
      match selectLoop P c.input.arguments.length cmd.functors with
      | some f => do
        let (s', c', e) ← invokeFunctorC P ops ne depth f s c
        let (c'', e') := handle catching c' e
        .ok (s', c'', e')
      | none => .ok (s, c.reportError (countError P c.input.name cmd.functors c.input.arguments.length), none)

/-- `Bindings::execute(ExecutionInput)` (Coil.cpp 240-246). -/
def executeInputC (P : C → FunctorDef W C D) (ops : RegOps S C D) (catching : Bool) (ne : Nested S W C D) (depth : Nat)
    (s : Sys S W C D) (input : Input) : Res (Sys S W C D × ExecOut) := do
  let (s', c, e) ← executeCtxC P ops catching ne depth s ⟨input, ExecResult.empty⟩
  match e with
  | some e => .ok (s', .error e)
  | none => .ok (s', .ok { c.result with input := c.input })

/-- `Bindings::execute(StringView)` (Coil.cpp 248-259); `m_lexer->` asserts that there is a lexer (UniquePtr.h 59-63). -/
def executeLineC (P : C → FunctorDef W C D) (ops : RegOps S C D) (catching : Bool) (ne : Nested S W C D) (depth : Nat)
    (s : Sys S W C D) (command : Bytes) : Res (Sys S W C D × ExecOut) :=
  match s.lexer with
  | none => .ub .assertion
  | some l => do
    match ← l command with
    | .error e => .ok (s, .ok { ExecResult.empty with errors := [lit "Syntax error: " ++ e] })
    | .ok input => executeInputC P ops catching ne depth s input

/-- The `execute` functions available inside `n` levels of `execute`; deeper recursion counts as never ending. -/
def nestedC (P : C → FunctorDef W C D) (ops : RegOps S C D) (catching : Bool) : Nat → Nat → Nested S W C D
  | 0, _ => ⟨fun _ _ => .diverge, fun _ _ => .diverge⟩
  | fuel + 1, depth =>
    ⟨executeLineC P ops catching (nestedC P ops catching fuel (depth + 1)) depth,
      executeInputC P ops catching (nestedC P ops catching fuel (depth + 1)) depth⟩

/-- `bindings.execute(...)` called from outside, with at most `fuel` levels of recursion. -/
def executeC (P : C → FunctorDef W C D) (ops : RegOps S C D) (catching : Bool) (fuel : Nat) (s : Sys S W C D)
    (r : Request) : Res (Sys S W C D × ExecOut) :=
  (nestedC P ops catching fuel 0).exec s r

/-- `Bindings::Bindings()` (Coil.cpp 190) with assertions, see `newBindings`. -/
def newBindingsC {W C D : Type} (charSigned : Bool) (lexer : Option Lexer) (w : W) :
    Res (Sys (UMap Bytes (Command C D)) W C D) := do
  let m ← UMap.createC (djb2 charSigned) 1
  .ok ⟨m, lexer, w, [], 0, [], []⟩

/-- One action of the surrounding program, see `act`. -/
def actC (P : C → FunctorDef W C D) (ops : RegOps S C D) (catching : Bool) (fuel : Nat) (s : Sys S W C D) :
    Action W C D → Res (Sys S W C D)
  | .add name fs => bindingsAdd ops s name fs
  | .remove name => bindingsRemove ops s name
  | .clear => .ok (bindingsClear ops s)
  | .setLexer l => .ok (setLexer s l)
  | .exec req => do
    let (s', _) ← executeC P ops catching fuel s req
    .ok s'
  | .setUser w => .ok { s with user := w }

/-- Several actions. -/
def actAllC (P : C → FunctorDef W C D) (ops : RegOps S C D) (catching : Bool) (fuel : Nat) :
    Sys S W C D → List (Action W C D) → Res (Sys S W C D)
  | s, [] => .ok s
  | s, a :: rest => do
    let s' ← actC P ops catching fuel s a
    actAllC P ops catching fuel s' rest

/-- A program with one registry, from its creation on. -/
def program (P : C → FunctorDef W C D) (fixed charSigned : Bool) (exceeds : Nat → Nat → Bool) (catching : Bool) (fuel : Nat)
    (lexer : Option Lexer) (w : W) (acts : List (Action W C D)) : Res (Sys (UMap Bytes (Command C D)) W C D) := do
  let s ← newBindings charSigned lexer w
  actAll P (mapOps fixed charSigned exceeds) catching fuel s acts

/-- The same in a build with assertions. -/
def programC (P : C → FunctorDef W C D) (fixed charSigned : Bool) (exceeds : Nat → Nat → Bool) (catching : Bool) (fuel : Nat)
    (lexer : Option Lexer) (w : W) (acts : List (Action W C D)) : Res (Sys (UMap Bytes (Command C D)) W C D) := do
  let s ← newBindingsC charSigned lexer w
  actAllC P (mapOpsC fixed charSigned exceeds) catching fuel s acts

end Coil
