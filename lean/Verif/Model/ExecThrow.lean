import Verif.Model.Observe
import Verif.Model.HeapMapThrow

/-!
# Executing commands when memory runs out

`Model/Exec.lean` with exceptions of the library itself: wherever it asks for memory, it may get none. Then `operator new` throws
`std::bad_alloc`. A function of the user may catch that exception, so here it is told whether a call to the library threw.

Whether memory is there is decided by a supply: an arbitrary sequence of booleans, one for each step of the library that may ask for memory.

Simplifications. A step (converting an argument, reporting an error, logging, lexing) is asked once, even if the code has several requests in
it, and is asked even if the code happens to have enough memory already; a step that throws has no effect (strings: C92, vectors: C80;
`logline` reserves first, Coil.cpp 346). A conversion that is undefined or never ends is taken to be so before it throws. What a named argument is
assigned is moved into it. Function objects that a failing `add` did not get to make count as made and destroyed.
-/

namespace Coil
namespace Oom

/-- The exception (`what()` of libstdc++, libc++ and the Microsoft library differ; this is that of the first two). -/
def badAlloc : Exn := .std (lit "std::bad_alloc")

/-- A user function body that ends with a value of type `R`, as `Prog`; calls to the library that may throw give `true` if they did. -/
inductive TProg (W C D : Type) (R : Type) : Type where
  | ret (r : R)
  | throw (e : Exn)
  | ub (w : UB)
  | diverge
  /-- the function asks for memory itself, or calls a part of the library that only does that -/
  | alloc (k : Bool → TProg W C D R)
  | log (s : Bytes) (k : Bool → TProg W C D R)
  | logline (s : Bytes) (k : Bool → TProg W C D R)
  | reportError (s : Bytes) (k : Bool → TProg W C D R)
  | hasErrors (k : Bool → TProg W C D R)
  | named (k : List Named → TProg W C D R)
  | setNamed (i : Nat) (v : Named) (k : TProg W C D R)
  | get (k : W → TProg W C D R)
  | set (w : W) (k : TProg W C D R)
  | captured (k : D → TProg W C D R)
  | add (name : Bytes) (fs : List (C × D)) (k : Bool → TProg W C D R)
  | remove (name : Bytes) (k : TProg W C D R)
  | clear (k : TProg W C D R)
  | execLine (command : Bytes) (k : ExecOut → TProg W C D R)
  | execInput (input : Input) (k : ExecOut → TProg W C D R)

/-- A function object, as `FunctorDef`. -/
structure TDef (W C D : Type) where
  params : List Param
  R : Type
  retName : Bytes
  print : Option (R → Bytes)
  body : Args params → TProg W C D R

/-- What goes wrong in `insertOrAssign`: memory for the buckets, for the nodes. -/
structure Fault where
  buckets : Bool
  nodes : Bool
  deriving DecidableEq, Repr

/-- The operations `Bindings` uses of its container, as `RegOps`; inserting may throw. -/
structure TOps (S C D : Type) where
  ops : RegOps S C D
  put : S → Bytes → Command C D → Fault → Res (S × Bool)

/-- The program and the supply of memory: `true` if there is memory. -/
structure TSys (S W C D : Type) where
  sys : Sys S W C D
  supply : Nat → Bool

variable {S W C D : Type}

/-- Whether there is memory for the next step. -/
def TSys.there (s : TSys S W C D) : Bool := s.supply 0

/-- The supply after it. -/
def TSys.next (s : TSys S W C D) : TSys S W C D := { s with supply := fun n => s.supply (n + 1) }

/-- A change of the program. -/
def TSys.on (s : TSys S W C D) (sys : Sys S W C D) : TSys S W C D := { s with sys := sys }

/-- Function objects that were made for a command that does not get into the registry are destroyed. -/
def discard (s : Sys S W C D) (fs : List (C × D)) : Sys S W C D :=
  { s with next := s.next + fs.length, freed := s.freed ++ (allocate s.next fs).map Inst.id }

/-- The end of `Bindings::add`. -/
def added (s : Sys S W C D) (name : Bytes) (fs : List (C × D)) (old : Option (Command C D)) (reg : S) : Sys S W C D :=
  { s with reg := reg, next := s.next + fs.length, freed := s.freed ++ idsOf old,
           history := s.history ++ [.added name (allocate s.next fs)] }

/-- `Bindings::add` (Coil.cpp 206-219), and whether it threw. First the function objects, their vector and the text of the name are made
(FunctionWrapper.h 38-46, AnyFunctor.h 81-85, Overloaded.h 24-30); the parameters own them and destroy them when an exception leaves the
function. -/
def bindingsAddT (T : TOps S C D) (s : TSys S W C D) (name : Bytes) (fs : List (C × D)) : Res (TSys S W C D × Bool) :=
  if s.there then do
    let old ← T.ops.find s.sys.reg name
    let (reg, threw) ← T.put s.sys.reg name ⟨name, allocate s.sys.next fs⟩ ⟨!s.next.there, !s.next.next.there⟩
    if threw then .ok (s.next.next.next.on { discard s.sys fs with reg := reg }, true)
    else .ok (s.next.next.next.on (added s.sys name fs old reg), false)
  else .ok (s.next.on (discard s.sys fs), true)

/-- `Bindings::remove`: does not ask for memory. -/
def bindingsRemoveT (T : TOps S C D) (s : TSys S W C D) (name : Bytes) : Res (TSys S W C D) := do
  let s' ← bindingsRemove T.ops s.sys name
  .ok (s.on s')

/-- The `execute` functions that a user function can call. -/
structure TNested (S W C D : Type) where
  line : TSys S W C D → Bytes → Res (TSys S W C D × ExecOut)
  input : TSys S W C D → Input → Res (TSys S W C D × ExecOut)

/-- Running the body of the function object `self`. -/
def TProg.run (T : TOps S C D) (ne : TNested S W C D) (self : Inst C D) {R : Type} :
    TProg W C D R → TSys S W C D → CallCtx → Res (TSys S W C D × CallCtx × End R)
  | .ret r, s, c => .ok (s, c, .ret r)
  | .throw e, s, c => .ok (s, c, .exn e)
  | .ub w, _, _ => .ub w
  | .diverge, _, _ => .diverge
  | .alloc k, s, c => (k (!s.there)).run T ne self s.next c
  | .log t k, s, c => if s.there then (k false).run T ne self s.next (c.log t) else (k true).run T ne self s.next c
  | .logline t k, s, c => if s.there then (k false).run T ne self s.next (c.logline t) else (k true).run T ne self s.next c
  | .reportError t k, s, c => if s.there then (k false).run T ne self s.next (c.reportError t) else (k true).run T ne self s.next c
  | .hasErrors k, s, c => (k c.hasErrors).run T ne self s c
  | .named k, s, c => (k c.input.namedArguments).run T ne self s c
  | .setNamed i v k, s, c => do
    let c' ← c.setNamed i v
    k.run T ne self s c'
  | .get k, s, c => (k s.sys.user).run T ne self s c
  | .set w k, s, c => k.run T ne self (s.on { s.sys with user := w }) c
  | .captured k, s, c => if self.id ∈ s.sys.freed then .ub .useAfterFree else (k self.data).run T ne self s c
  | .add n fs k, s, c => do
    let (s', threw) ← bindingsAddT T s n fs
    (k threw).run T ne self s' c
  | .remove n k, s, c => do
    let s' ← bindingsRemoveT T s n
    k.run T ne self s' c
  | .clear k, s, c => k.run T ne self (s.on (bindingsClear T.ops s.sys)) c
  | .execLine t k, s, c => do
    let (s', o) ← ne.line s t
    (k o).run T ne self s' c
  | .execInput i k, s, c => do
    let (s', o) ← ne.input s i
    (k o).run T ne self s' c

/-- Converting the arguments (FunctorCaller.h 39-43), from argument index `i` on; `none` if it threw. -/
def convertT (args : List Value) : (ps : List Param) → Nat → TSys S W C D → Res (TSys S W C D × Option (Expecteds ps))
  | [], _, s => .ok (s, some ())
  | p :: ps, i, s => do
    let a ← readAt args i
    let e ← p.conv.fromString a
    if s.there then do
      let (s', rest) ← convertT args ps (i + 1) s.next
      match rest with
      | none => .ok (s', none)
      | some rest => .ok (s', some (e, rest))
    else .ok (s.next, none)

/-- `(reportError(context, expectedArgs), ...)` (FunctorCaller.h 18-23, 30), and whether it threw. -/
def reportT : (ps : List Param) → Expecteds ps → TSys S W C D → CallCtx → TSys S W C D × CallCtx × Bool
  | [], _, s, c => (s, c, false)
  | _ :: ps, (e, rest), s, c =>
    match e with
    | .error m => if s.there then reportT ps rest s.next (c.reportError m) else (s.next, c, true)
    | .ok _ => reportT ps rest s c

/-- Making the text of the return value (FunctionWrapper.h 66-87) and storing it (FunctorCaller.h 35-36). The second does not ask for
memory. -/
def storeT (d : TDef W C D) (s : TSys S W C D) (c : CallCtx) : End d.R → TSys S W C D × CallCtx × Option Exn
  | .exn e => (s, c, some e)
  | .ret r =>
    match d.print with
    | none => (s, if c.hasErrors = false then { c with result := { c.result with returnValue := none } } else c, none)
    | some f =>
      if s.there then
        (s.next, if c.hasErrors = false then { c with result := { c.result with returnValue := some (f r) } } else c, none)
      else (s.next, c, some badAlloc)

/-- The exception if something threw. -/
def thrown (threw : Bool) : Option Exn := if threw then some badAlloc else none

/-- `AnyFunctor::invokeTrampoline`, `AnyStorage::invoke`, `unpackAndInvoke`, `invoke` (Coil.cpp 169-172, AnyFunctor.h 40-50,
FunctorCaller.h 25-43). -/
def invokeT (P : C → TDef W C D) (T : TOps S C D) (ne : TNested S W C D) (depth : Nat) (f : Inst C D) (s : TSys S W C D) (c : CallCtx) :
    Res (TSys S W C D × CallCtx × Option Exn) :=
  if f.id ∈ s.sys.freed then .ub .useAfterFree
  else do
    let d := P f.code
    let (s1, es) ← convertT c.input.arguments d.params 0 s
    match es with
    | none => .ok (s1, c, some badAlloc)
    | some es =>
      if anyMissing d.params es then
        let (s2, c', threw) := reportT d.params es s1 c
        .ok (s2, c', thrown threw)
      else do
        let args ← takeValues d.params es
        let (s2, c', r) ← (d.body args).run T ne f (s1.on { s1.sys with calls := s1.sys.calls ++ [(depth, f.id)] }) c
        .ok (storeT d s2 c' r)

/-- `AnyFunctor::arity`. -/
def arityT (P : C → TDef W C D) (f : Inst C D) : Nat := (P f.code).params.length

/-- The search for an overload (Coil.cpp 283-285). -/
def selectT (P : C → TDef W C D) (n : Nat) : List (Inst C D) → Option (Inst C D)
  | [] => none
  | f :: rest => if arityT P f = n then some f else selectT P n rest

/-- The error for a wrong number of arguments (Coil.cpp 300-315). -/
def countErrorT (P : C → TDef W C D) (name : Bytes) (fs : List (Inst C D)) (actual : Nat) : Bytes :=
  let counts := fs.map (arityT P)
  lit "Wrong number of arguments to '" ++ cstr name ++ lit "': expected " ++
    cstr (countsLoop counts.length counts 0 []) ++ lit ", got " ++ natDec actual

/-- Making an error message and reporting it, outside of `try`: an exception goes to the caller. -/
def tellT (s : TSys S W C D) (c : CallCtx) (e : Bytes) : TSys S W C D × CallCtx × Option Exn :=
  if s.there then (s.next, c.reportError e, none) else (s.next, c, some badAlloc)

/-- The handlers (Coil.cpp 286-297): an exception in a handler goes to the caller. -/
def handleT (catching : Bool) (s : TSys S W C D) (c : CallCtx) : Option Exn → TSys S W C D × CallCtx × Option Exn
  | none => (s, c, none)
  | some (.std what) => if catching then tellT s c (lit "Exception caught during execution: " ++ cstr what) else (s, c, some (.std what))
  | some .other => if catching then tellT s c (lit "Exception caught during execution") else (s, c, some .other)

/-- `Bindings::execute(CallContext&)` (Coil.cpp 261-316). -/
def executeCtxT (P : C → TDef W C D) (T : TOps S C D) (catching : Bool) (ne : TNested S W C D) (depth : Nat) (s : TSys S W C D)
    (c : CallCtx) : Res (TSys S W C D × CallCtx × Option Exn) :=
  if c.input.name = [] then .ok (tellT s c (lit "No function name is specified"))
  else do
    match ← T.ops.find s.sys.reg c.input.name with
    | none => .ok (tellT s c (lit "No function '" ++ cstr c.input.name ++ lit "' is registered"))
    | some cmd =>
      match selectT P c.input.arguments.length cmd.functors with
      | some f => do
        let (s', c', e) ← invokeT P T ne depth f s c
        .ok (handleT catching s' c' e)
      | none => .ok (tellT s c (countErrorT P c.input.name cmd.functors c.input.arguments.length))

/-- `Bindings::execute(ExecutionInput)` (Coil.cpp 240-246): moving does not ask for memory. -/
def executeInputT (P : C → TDef W C D) (T : TOps S C D) (catching : Bool) (ne : TNested S W C D) (depth : Nat) (s : TSys S W C D)
    (input : Input) : Res (TSys S W C D × ExecOut) := do
  let (s', c, e) ← executeCtxT P T catching ne depth s ⟨input, ExecResult.empty⟩
  match e with
  | some e => .ok (s', .error e)
  | none => .ok (s', .ok { c.result with input := c.input })

/-- `Bindings::execute(StringView)` (Coil.cpp 248-259). The lexer may throw, and so may making the result for its error. -/
def executeLineT (P : C → TDef W C D) (T : TOps S C D) (catching : Bool) (ne : TNested S W C D) (depth : Nat) (s : TSys S W C D)
    (command : Bytes) : Res (TSys S W C D × ExecOut) :=
  match s.sys.lexer with
  | none => .ub .nullDeref
  | some l => do
    let o ← l command
    if s.there then
      match o with
      | .error e =>
        if s.next.there then .ok (s.next.next, .ok { ExecResult.empty with errors := [lit "Syntax error: " ++ e] })
        else .ok (s.next.next, .error badAlloc)
      | .ok input => executeInputT P T catching ne depth s.next input
    else .ok (s.next, .error badAlloc)

/-- The `execute` functions available inside `n` levels of `execute`. -/
def nestedT (P : C → TDef W C D) (T : TOps S C D) (catching : Bool) : Nat → Nat → TNested S W C D
  | 0, _ => ⟨fun _ _ => .diverge, fun _ _ => .diverge⟩
  | fuel + 1, depth =>
    ⟨executeLineT P T catching (nestedT P T catching fuel (depth + 1)) depth,
      executeInputT P T catching (nestedT P T catching fuel (depth + 1)) depth⟩

/-- The two overloads of `execute`. -/
def TNested.exec (ne : TNested S W C D) (s : TSys S W C D) : Request → Res (TSys S W C D × ExecOut)
  | .line c => ne.line s c
  | .input i => ne.input s i

/-- `bindings.execute(...)` called from outside. -/
def executeT (P : C → TDef W C D) (T : TOps S C D) (catching : Bool) (fuel : Nat) (s : TSys S W C D) (r : Request) :
    Res (TSys S W C D × ExecOut) :=
  (nestedT P T catching fuel 0).exec s r

/-- What the surrounding program does, as `Action`. -/
inductive TAction (W C D : Type) where
  | add (name : Bytes) (fs : List (C × D))
  | remove (name : Bytes)
  | clear
  | setLexer (l : Option Lexer)
  | exec (req : Request)
  | setUser (w : W)

/-- A program: an action, and how to go on after what it gave (a result or an exception). -/
inductive TMain (W C D : Type) where
  | stop
  | act (a : TAction W C D) (next : Option ExecOut → TMain W C D)

/-- One action, and what it gives the program: nothing, or a result or an exception. -/
def actT (P : C → TDef W C D) (T : TOps S C D) (catching : Bool) (fuel : Nat) (s : TSys S W C D) :
    TAction W C D → Res (TSys S W C D × Option ExecOut)
  | .add name fs => do
    let (s', threw) ← bindingsAddT T s name fs
    .ok (s', if threw then some (.error badAlloc) else none)
  | .remove name => do
    let s' ← bindingsRemoveT T s name
    .ok (s', none)
  | .clear => .ok (s.on (bindingsClear T.ops s.sys), none)
  | .setLexer l => .ok (s.on (setLexer s.sys l), none)
  | .exec req => do
    let (s', o) ← executeT P T catching fuel s req
    .ok (s', some o)
  | .setUser w => .ok (s.on { s.sys with user := w }, none)

/-- A program that goes on after exceptions, and what its actions gave. -/
def mainT (P : C → TDef W C D) (T : TOps S C D) (catching : Bool) (fuel : Nat) :
    TSys S W C D → TMain W C D → Res (TSys S W C D × List (Option ExecOut))
  | s, .stop => .ok (s, [])
  | s, .act a next => do
    let (s', o) ← actT P T catching fuel s a
    let (s'', os) ← mainT P T catching fuel s' (next o)
    .ok (s'', o :: os)

/-- `UnorderedMap<String, Command>` (Bindings.h 61) over vectors on the heap, as map number 0 (`Model/HeapMapThrow.lean`). -/
def heapTOps (c : HMap.Cfg Bytes (Command C D)) : TOps (HMap.HState Bytes (Command C D)) C D where
  ops := heapOps c
  put h k v fault := HMap.insertOrAssignT c h 0 k v ⟨fault.buckets, if fault.nodes then some 0 else none⟩

/-- A program from the construction of the registry on (Coil.cpp 190); `none` if there is no memory for that. -/
def observedT (P : C → TDef W C D) (c : HMap.Cfg Bytes (Command C D)) (catching : Bool) (fuel : Nat) (lexer : Option Lexer) (w : W)
    (supply : Nat → Bool) (main : TMain W C D) :
    Res (Option (TSys (HMap.HState Bytes (Command C D)) W C D × List (Option ExecOut))) := do
  let (m, threw) ← HMap.createT c HMap.start 1 (!supply 0)
  if threw then .ok none
  else do
    let r ← mainT P (heapTOps c) catching fuel ⟨freshSys m lexer w, fun n => supply (n + 1)⟩ main
    .ok (some r)

end Oom
end Coil
