import Verif.Model.Conv
import Verif.Model.UMap

/-!
# Registering and executing commands

`src/Coil.cpp` 123-425, `include/coil/detail/{AnyFunctor,FunctorCaller,FunctionWrapper,CallContext,Context,
NamedArgs,Bindings,ExecutionResult,Overloaded,Variable,Property}.h`.

User functions are interaction trees (`Prog`): they can use everything the library gives them, including calling
back into the registry they are run from. The code of a user function is `C`; the data captured by a function object
is `D` and lives as long as the function object. The program state that user functions read and write is `W`.

Simplifications. Texts are byte strings, not views, so that lifetimes of views are not visible (`Model/Views.lean` is
without this simplification). A `Context` is not
used after the call it was made for. Serializers do not throw and do not touch the program state (`Model/Serial.lean` is without
this simplification). Copying a
function object is not visible.
-/

namespace Coil

/-- `coil::ExecutionInput` with texts (ExecutionInput.h 9-14). -/
abbrev Input := GInput Bytes

/-- `coil::NamedValue` with texts (Value.h 36-43). -/
abbrev Named := GNamed Bytes

/-- A C++ exception: one derived from `std::exception` with its `what()`, or any other. -/
inductive Exn where
  | std (what : Bytes)
  | other
  deriving DecidableEq, Repr

/-- `coil::ExecutionResult` (ExecutionResult.h 10-16). -/
structure ExecResult where
  input : Input
  errors : List Bytes
  returnValue : Option Bytes
  output : Bytes
  deriving DecidableEq, Repr

/-- An `ExecutionInput` with all members default-initialised. -/
def Input.empty : Input := ⟨[], [], []⟩

/-- An `ExecutionResult` with all members default-initialised. -/
def ExecResult.empty : ExecResult := ⟨Input.empty, [], none, []⟩

/-- What `execute` gives its caller: a result or an exception. -/
abbrev ExecOut := Except Exn ExecResult

/-! ## User functions -/

/-- A user function body that ends with a value of type `R`. -/
inductive Prog (W C D : Type) (R : Type) : Type where
  /-- return -/
  | ret (r : R)
  /-- `throw` -/
  | throw (e : Exn)
  /-- undefined behaviour of the user function itself (or of a conversion it asks for) -/
  | ub (w : UB)
  /-- the user function never ends -/
  | diverge
  /-- `context.log(s)` -/
  | log (s : Bytes) (k : Prog W C D R)
  /-- `context.logline(s)` -/
  | logline (s : Bytes) (k : Prog W C D R)
  /-- `context.reportError(s)` -/
  | reportError (s : Bytes) (k : Prog W C D R)
  /-- `context.hasErrors()` -/
  | hasErrors (k : Bool → Prog W C D R)
  /-- reading the named arguments, `context.namedArgs().begin()` ... `end()` -/
  | named (k : List Named → Prog W C D R)
  /-- assigning through the (non-const) iterators of `context.namedArgs()` (NamedArgs.h 15, 49-53) -/
  | setNamed (i : Nat) (v : Named) (k : Prog W C D R)
  /-- reading the program state -/
  | get (k : W → Prog W C D R)
  /-- writing the program state -/
  | set (w : W) (k : Prog W C D R)
  /-- reading the data captured by the function object that is running -/
  | captured (k : D → Prog W C D R)
  /-- `bindings.add(name, functors)` -/
  | add (name : Bytes) (fs : List (C × D)) (k : Prog W C D R)
  /-- `bindings.remove(name)` -/
  | remove (name : Bytes) (k : Prog W C D R)
  /-- `bindings.clear()` -/
  | clear (k : Prog W C D R)
  /-- `bindings.execute(command)`; the caller may catch an exception -/
  | execLine (command : Bytes) (k : ExecOut → Prog W C D R)
  /-- `bindings.execute(input)` -/
  | execInput (input : Input) (k : ExecOut → Prog W C D R)

namespace Prog

variable {W C D R R' : Type}

/-- One statement after another. -/
def bind : Prog W C D R → (R → Prog W C D R') → Prog W C D R'
  | .ret r, f => f r
  | .throw e, _ => .throw e
  | .ub w, _ => .ub w
  | .diverge, _ => .diverge
  | .log s k, f => .log s (k.bind f)
  | .logline s k, f => .logline s (k.bind f)
  | .reportError s k, f => .reportError s (k.bind f)
  | .hasErrors k, f => .hasErrors (fun b => (k b).bind f)
  | .named k, f => .named (fun l => (k l).bind f)
  | .setNamed i v k, f => .setNamed i v (k.bind f)
  | .get k, f => .get (fun w => (k w).bind f)
  | .set w k, f => .set w (k.bind f)
  | .captured k, f => .captured (fun d => (k d).bind f)
  | .add n fs k, f => .add n fs (k.bind f)
  | .remove n k, f => .remove n (k.bind f)
  | .clear k, f => .clear (k.bind f)
  | .execLine c k, f => .execLine c (fun o => (k o).bind f)
  | .execInput i k, f => .execInput i (fun o => (k o).bind f)

/-- Use the outcome of a piece of library code. -/
def ofRes (x : Res R) : Prog W C D R :=
  match x with
  | .ok a => .ret a
  | .ub w => .ub w
  | .diverge => .diverge

end Prog

/-! ## Function objects -/

/-- A parameter: its type and the serializer of the type. -/
structure Param where
  T : Type
  conv : Conv T

/-- The values of a parameter list. -/
def Args : List Param → Type
  | [] => Unit
  | p :: ps => p.T × Args ps

/-- The results of converting the arguments, `Expected<T, String>` for each parameter (FunctorCaller.h 26, 42). -/
def Expecteds : List Param → Type
  | [] => Unit
  | p :: ps => Except Bytes p.T × Expecteds ps

/-- The static part of a function object: parameters (a leading `Context` is not a parameter, FunctionWrapper.h 17-29), return type
(`print = none` for `void`, otherwise `TypeSerializer<R>::toString`), its name, and the body. -/
structure FunctorDef (W C D : Type) where
  params : List Param
  R : Type
  retName : Bytes
  print : Option (R → Bytes)
  body : Args params → Prog W C D R

/-- `coil::AnyFunctor` (AnyFunctor.h 53-79): an allocated function object. `id` is its address. -/
structure Inst (C D : Type) where
  id : Nat
  code : C
  data : D
  deriving DecidableEq, Repr

/-- `Bindings::Command` (Bindings.h 20-24). -/
structure Command (C D : Type) where
  name : Bytes
  functors : List (Inst C D)
  deriving DecidableEq, Repr

/-! ## The registry -/

/-- The operations `Bindings` uses of its container. Theorems about execution hold for any container; the one of the code
is `mapOps false`. -/
structure RegOps (S C D : Type) where
  find : S → Bytes → Res (Option (Command C D))
  put : S → Bytes → Command C D → Res S
  erase : S → Bytes → Res S
  clear : S → S
  /-- all commands stored -/
  all : S → List (Command C D)

/-- `UnorderedMap<String, Command>` (Bindings.h 61). -/
def mapOps {C D : Type} (fixed charSigned : Bool) (exceeds : Nat → Nat → Bool) :
    RegOps (UMap Bytes (Command C D)) C D where
  find m k := UMap.find (djb2 charSigned) m k
  put m k v := UMap.insertOrAssign (djb2 charSigned) exceeds m k v
  erase m k := UMap.eraseWith (djb2 charSigned) fixed m k
  clear m := UMap.clear m
  all m := m.entries.map Prod.snd

/-- A lexer (Lexer.h): any function from texts to commands or error messages. -/
abbrev Lexer := Bytes → Res (Except Bytes Input)

/-- A change of the registry, for observation. -/
inductive RegEvent (C D : Type) where
  | added (name : Bytes) (fs : List (Inst C D))
  | removed (name : Bytes)
  | cleared
  deriving DecidableEq, Repr

/-- A program with one `Bindings` object: the container of commands, the lexer (`none`: null pointer), the program
state, the addresses of destroyed function objects, and the next unused address. Only there to be observed: the
calls made so far, each with the nesting depth of `execute` and the address of the function object, and the
changes of the registry made so far. -/
structure Sys (S W C D : Type) where
  reg : S
  lexer : Option Lexer
  user : W
  freed : List Nat
  next : Nat
  calls : List (Nat × Nat)
  history : List (RegEvent C D)

section Registry

variable {S W C D : Type} (ops : RegOps S C D)

/-- Allocate function objects (AnyFunctor.h 81-85, Overloaded.h 24-30). -/
def allocate (next : Nat) : List (C × D) → List (Inst C D)
  | [] => []
  | (c, d) :: rest => ⟨next, c, d⟩ :: allocate (next + 1) rest

/-- The addresses of the function objects of a command. -/
def Command.ids (c : Command C D) : List Nat := c.functors.map Inst.id

/-- The addresses of the function objects of a possibly missing command. -/
def idsOf (c : Option (Command C D)) : List Nat :=
  match c with
  | none => []
  | some c => c.ids

/-- `Bindings::add` (Coil.cpp 206-219). Assigning to an existing key destroys the old function objects (UnorderedMap.h 142-146:
the move assignment of the vector swaps, the parameter `value` is destroyed). -/
def bindingsAdd (s : Sys S W C D) (name : Bytes) (fs : List (C × D)) : Res (Sys S W C D) := do
  let old ← ops.find s.reg name
  let reg ← ops.put s.reg name ⟨name, allocate s.next fs⟩
  .ok { s with reg := reg, next := s.next + fs.length, freed := s.freed ++ idsOf old,
               history := s.history ++ [.added name (allocate s.next fs)] }

/-- `Bindings::remove` (Coil.cpp 221-224). -/
def bindingsRemove (s : Sys S W C D) (name : Bytes) : Res (Sys S W C D) := do
  let old ← ops.find s.reg name
  let reg ← ops.erase s.reg name
  .ok { s with reg := reg, freed := s.freed ++ idsOf old, history := s.history ++ [.removed name] }

/-- `Bindings::clear` (Coil.cpp 235-238). -/
def bindingsClear (s : Sys S W C D) : Sys S W C D :=
  { s with reg := ops.clear s.reg, freed := s.freed ++ (ops.all s.reg).flatMap Command.ids,
           history := s.history ++ [.cleared] }

/-- `Bindings::get` (Coil.cpp 226-233). -/
def bindingsGet (s : Sys S W C D) (name : Bytes) : Res (Option (Command C D)) := ops.find s.reg name

/-- `Bindings::setLexer` (Coil.cpp 196-199). -/
def setLexer (s : Sys S W C D) (l : Option Lexer) : Sys S W C D := { s with lexer := l }

end Registry

/-! ## Running a user function -/

/-- `detail::CallContext` (CallContext.h 13-23). -/
structure CallCtx where
  input : Input
  result : ExecResult
  deriving DecidableEq, Repr

/-- `CallContext::reportError` (Coil.cpp 136-139). -/
def CallCtx.reportError (c : CallCtx) (e : Bytes) : CallCtx :=
  { c with result := { c.result with errors := c.result.errors ++ [e] } }

/-- `CallContext::hasErrors` (Coil.cpp 141-144). -/
def CallCtx.hasErrors (c : CallCtx) : Bool := decide (c.result.errors ≠ [])

/-- `Context::log` (Coil.cpp 339-342). -/
def CallCtx.log (c : CallCtx) (s : Bytes) : CallCtx :=
  { c with result := { c.result with output := c.result.output ++ s } }

/-- `Context::logline` (Coil.cpp 344-349). -/
def CallCtx.logline (c : CallCtx) (s : Bytes) : CallCtx :=
  { c with result := { c.result with output := c.result.output ++ s ++ [10] } }

/-- Assigning to the named argument at an index. -/
def CallCtx.setNamed (c : CallCtx) (i : Nat) (v : Named) : Res CallCtx := do
  let l ← writeAt c.input.namedArguments i v
  .ok { c with input := { c.input with namedArguments := l } }

/-- How a user function ends. -/
inductive End (R : Type) where
  | ret (r : R)
  | exn (e : Exn)
  deriving DecidableEq, Repr

/-- The `execute` functions that a user function can call. -/
structure Nested (S W C D : Type) where
  line : Sys S W C D → Bytes → Res (Sys S W C D × ExecOut)
  input : Sys S W C D → Input → Res (Sys S W C D × ExecOut)

variable {S W C D : Type}

/-- Running the body of the function object `self`. Reading captured data of a destroyed function object is
undefined behaviour. -/
def Prog.run (ops : RegOps S C D) (ne : Nested S W C D) (self : Inst C D) {R : Type} :
    Prog W C D R → Sys S W C D → CallCtx → Res (Sys S W C D × CallCtx × End R)
  | .ret r, s, c => .ok (s, c, .ret r)
  | .throw e, s, c => .ok (s, c, .exn e)
  | .ub w, _, _ => .ub w
  | .diverge, _, _ => .diverge
  | .log t k, s, c => k.run ops ne self s (c.log t)
  | .logline t k, s, c => k.run ops ne self s (c.logline t)
  | .reportError t k, s, c => k.run ops ne self s (c.reportError t)
  | .hasErrors k, s, c => (k c.hasErrors).run ops ne self s c
  | .named k, s, c => (k c.input.namedArguments).run ops ne self s c
  | .setNamed i v k, s, c => do
    let c' ← c.setNamed i v
    k.run ops ne self s c'
  | .get k, s, c => (k s.user).run ops ne self s c
  | .set w k, s, c => k.run ops ne self { s with user := w } c
  | .captured k, s, c => if self.id ∈ s.freed then .ub .useAfterFree else (k self.data).run ops ne self s c
  | .add n fs k, s, c => do
    let s' ← bindingsAdd ops s n fs
    k.run ops ne self s' c
  | .remove n k, s, c => do
    let s' ← bindingsRemove ops s n
    k.run ops ne self s' c
  | .clear k, s, c => k.run ops ne self (bindingsClear ops s) c
  | .execLine t k, s, c => do
    let (s', o) ← ne.line s t
    (k o).run ops ne self s' c
  | .execInput i k, s, c => do
    let (s', o) ← ne.input s i
    (k o).run ops ne self s' c

/-! ## Calling a function object -/

/-- Converting the arguments (FunctorCaller.h 39-43), from argument index `i` on. The order of the conversions is unspecified
in C++ and not visible, as they have no effects. -/
def convertArgs (args : List Value) : (ps : List Param) → Nat → Res (Expecteds ps)
  | [], _ => .ok ()
  | p :: ps, i => do
    let a ← readAt args i
    let e ← p.conv.fromString a
    let rest ← convertArgs args ps (i + 1)
    .ok (e, rest)

/-- `(!expectedArgs.hasValue() || ...)` (FunctorCaller.h 28). -/
def anyMissing : (ps : List Param) → Expecteds ps → Bool
  | [], _ => false
  | _ :: ps, (e, rest) =>
    (match e with
      | .error _ => true
      | .ok _ => false) || anyMissing ps rest

/-- `(reportError(context, expectedArgs), ...)` (FunctorCaller.h 18-23, 30). -/
def reportAll : (ps : List Param) → Expecteds ps → CallCtx → CallCtx
  | [], _, c => c
  | _ :: ps, (e, rest), c =>
    match e with
    | .error m => reportAll ps rest (c.reportError m)
    | .ok _ => reportAll ps rest c

/-- `coil::move(expectedArgs).value()...` (FunctorCaller.h 34): reading the value of an error is undefined. -/
def takeValues : (ps : List Param) → Expecteds ps → Res (Args ps)
  | [], _ => .ok ()
  | _ :: ps, (e, rest) =>
    match e with
    | .error _ => .ub .deadObject
    | .ok x => do
      let xs ← takeValues ps rest
      .ok (x, xs)

/-- The end of a call with the return value as text: `FunctionWrapper::typedCall` (FunctionWrapper.h 66-87). -/
def textOf (d : FunctorDef W C D) (r : d.R) : Option Bytes :=
  match d.print with
  | none => none
  | some f => some (f r)

/-- Storing the return value (FunctorCaller.h 35-36), unless an exception leaves the function. -/
def storeReturn (d : FunctorDef W C D) (c : CallCtx) : End d.R → CallCtx × Option Exn
  | .exn e => (c, some e)
  | .ret r =>
    if c.hasErrors = false then ({ c with result := { c.result with returnValue := textOf d r } }, none) else (c, none)

/-- `AnyFunctor::invokeTrampoline`, `AnyStorage::invoke`, `unpackAndInvoke`, `invoke` (Coil.cpp 169-172, AnyFunctor.h 40-50,
FunctorCaller.h 25-43). The last component is an exception that leaves the function. -/
def invokeFunctor (P : C → FunctorDef W C D) (ops : RegOps S C D) (ne : Nested S W C D) (depth : Nat) (f : Inst C D)
    (s : Sys S W C D) (c : CallCtx) : Res (Sys S W C D × CallCtx × Option Exn) :=
  if f.id ∈ s.freed then .ub .useAfterFree
  else do
    let d := P f.code
    let es ← convertArgs c.input.arguments d.params 0
    if anyMissing d.params es then .ok (s, reportAll d.params es c, none)
    else do
      let args ← takeValues d.params es
      let (s', c', r) ← (d.body args).run ops ne f { s with calls := s.calls ++ [(depth, f.id)] } c
      let (c'', e) := storeReturn d c' r
      .ok (s', c'', e)

/-! ## Executing a command -/

/-- `AnyFunctor::arity` (Coil.cpp 174-177). -/
def arity (P : C → FunctorDef W C D) (f : Inst C D) : Nat := (P f.code).params.length

/-- The search for an overload (Coil.cpp 283-285). -/
def selectLoop (P : C → FunctorDef W C D) (n : Nat) : List (Inst C D) → Option (Inst C D)
  | [] => none
  | f :: rest => if arity P f = n then some f else selectLoop P n rest

/-- The loop that builds the list of accepted counts (Coil.cpp 303-311). -/
def countsLoop (total : Nat) : List Nat → Nat → Bytes → Bytes
  | [], _, acc => acc
  | a :: rest, i, acc =>
    let acc1 := if i > 0 ∧ i ≠ total - 1 then acc ++ lit ", " else acc
    let acc2 := if i > 0 ∧ i = total - 1 then acc1 ++ lit " or " else acc1
    countsLoop total rest (i + 1) (acc2 ++ natDec a)

/-- The error for a wrong number of arguments (Coil.cpp 300-315). -/
def countError (P : C → FunctorDef W C D) (name : Bytes) (fs : List (Inst C D)) (actual : Nat) : Bytes :=
  let counts := fs.map (arity P)
  lit "Wrong number of arguments to '" ++ cstr name ++ lit "': expected " ++
    cstr (countsLoop counts.length counts 0 []) ++ lit ", got " ++ natDec actual

/-- The handlers (Coil.cpp 279-298); without `COIL_CATCH_EXCEPTIONS` an exception leaves `execute`. -/
def handle (catching : Bool) (c : CallCtx) : Option Exn → CallCtx × Option Exn
  | none => (c, none)
  | some (.std what) =>
    if catching then (c.reportError (lit "Exception caught during execution: " ++ cstr what), none)
    else (c, some (.std what))
  | some .other =>
    if catching then (c.reportError (lit "Exception caught during execution"), none) else (c, some .other)

/-- `Bindings::execute(CallContext&)` (Coil.cpp 261-316). -/
def executeCtx (P : C → FunctorDef W C D) (ops : RegOps S C D) (catching : Bool) (ne : Nested S W C D) (depth : Nat)
    (s : Sys S W C D) (c : CallCtx) : Res (Sys S W C D × CallCtx × Option Exn) :=
  if c.input.name = [] then .ok (s, c.reportError (lit "No function name is specified"), none)
  else do
    match ← ops.find s.reg c.input.name with
    | none => .ok (s, c.reportError (lit "No function '" ++ cstr c.input.name ++ lit "' is registered"), none)
    | some cmd =>
      match selectLoop P c.input.arguments.length cmd.functors with
      | some f => do
        let (s', c', e) ← invokeFunctor P ops ne depth f s c
        let (c'', e') := handle catching c' e
        .ok (s', c'', e')
      | none => .ok (s, c.reportError (countError P c.input.name cmd.functors c.input.arguments.length), none)

/-- `Bindings::execute(ExecutionInput)` (Coil.cpp 240-246). -/
def executeInput (P : C → FunctorDef W C D) (ops : RegOps S C D) (catching : Bool) (ne : Nested S W C D) (depth : Nat)
    (s : Sys S W C D) (input : Input) : Res (Sys S W C D × ExecOut) := do
  let (s', c, e) ← executeCtx P ops catching ne depth s ⟨input, ExecResult.empty⟩
  match e with
  | some e => .ok (s', .error e)
  | none => .ok (s', .ok { c.result with input := c.input })

/-- `Bindings::execute(StringView)` (Coil.cpp 248-259). -/
def executeLine (P : C → FunctorDef W C D) (ops : RegOps S C D) (catching : Bool) (ne : Nested S W C D) (depth : Nat)
    (s : Sys S W C D) (command : Bytes) : Res (Sys S W C D × ExecOut) :=
  match s.lexer with
  | none => .ub .nullDeref
  | some l => do
    match ← l command with
    | .error e => .ok (s, .ok { ExecResult.empty with errors := [lit "Syntax error: " ++ e] })
    | .ok input => executeInput P ops catching ne depth s input

/-- The `execute` functions available inside `n` levels of `execute`; deeper recursion counts as never ending. -/
def nested (P : C → FunctorDef W C D) (ops : RegOps S C D) (catching : Bool) : Nat → Nat → Nested S W C D
  | 0, _ => ⟨fun _ _ => .diverge, fun _ _ => .diverge⟩
  | fuel + 1, depth =>
    ⟨executeLine P ops catching (nested P ops catching fuel (depth + 1)) depth,
      executeInput P ops catching (nested P ops catching fuel (depth + 1)) depth⟩

/-- What can be executed: a command line or a parsed command. -/
inductive Request where
  | line (command : Bytes)
  | input (i : Input)
  deriving DecidableEq, Repr

/-- The two overloads of `execute`. -/
def Nested.exec (ne : Nested S W C D) (s : Sys S W C D) : Request → Res (Sys S W C D × ExecOut)
  | .line c => ne.line s c
  | .input i => ne.input s i

/-- `bindings.execute(...)` called from outside, with at most `fuel` levels of recursion. -/
def execute (P : C → FunctorDef W C D) (ops : RegOps S C D) (catching : Bool) (fuel : Nat) (s : Sys S W C D)
    (r : Request) : Res (Sys S W C D × ExecOut) :=
  (nested P ops catching fuel 0).exec s r

/-- Executing several requests one after the other, from outside. -/
def executeAll (P : C → FunctorDef W C D) (ops : RegOps S C D) (catching : Bool) (fuel : Nat) :
    Sys S W C D → List Request → Res (Sys S W C D × List ExecOut)
  | s, [] => .ok (s, [])
  | s, r :: rest => do
    let (s1, o) ← execute P ops catching fuel s r
    let (s2, os) ← executeAll P ops catching fuel s1 rest
    .ok (s2, o :: os)

/-! ## Named arguments -/

/-- `NamedArgs::Error` (NamedArgs.h 17-29). -/
inductive NamedError where
  | missingKey (message : Bytes)
  | typeMismatch (message : Bytes)
  deriving DecidableEq, Repr

/-- The message of an error. -/
def NamedError.message : NamedError → Bytes
  | .missingKey m => m
  | .typeMismatch m => m

/-- `NamedArgs::find` (Coil.cpp 419-425). -/
def namedFind (key : Bytes) : List Named → Option Named
  | [] => none
  | nv :: rest => if nv.key = key then some nv else namedFind key rest

/-- `NamedArgs::get(key)` (Coil.cpp 385-392). -/
def namedGet (key : Bytes) : Prog W C D (Except NamedError Value) :=
  .named fun l =>
    match namedFind key l with
    | none => .ret (.error (.missingKey (lit "Missing named argument '" ++ cstr key ++ lit "'")))
    | some nv => .ret (.ok nv.value)

/-- `NamedArgs::getOrReport(key, argType)` (Coil.cpp 394-402). -/
def namedGetOrReport (key : Bytes) (required : Bool) : Prog W C D (Option Value) :=
  (namedGet key).bind fun
    | .ok v => .ret (some v)
    | .error e => if required then .reportError e.message (.ret none) else .ret none

/-- `NamedArgs::get<T>(key)` (NamedArgs.h 61-73). -/
def namedGetT {T : Type} (conv : Conv T) (key : Bytes) : Prog W C D (Except NamedError T) :=
  (namedGet key).bind fun
    | .error e => .ret (.error e)
    | .ok v => (Prog.ofRes (conv.fromString v)).bind fun
      | .error m => .ret (.error (.typeMismatch m))
      | .ok x => .ret (.ok x)

/-- `NamedArgs::getOrReport<T>(key, argType, defaultValue)` (NamedArgs.h 75-86). -/
def namedGetOrReportT {T : Type} (conv : Conv T) (key : Bytes) (required : Bool) (dflt : Option T) :
    Prog W C D (Option T) :=
  (namedGetT conv key).bind fun
    | .ok x => .ret (some x)
    | .error (.missingKey m) => if required then .reportError m (.ret none) else .ret dflt
    | .error (.typeMismatch m) => .reportError m (.ret none)

/-! ## Variables and properties -/

/-- A variable of the program: how to read and write it in the program state. -/
structure VarRef (W T : Type) where
  read : W → T
  write : T → W → W

/-- The functors of `variable(T*)` (Variable.h 9-19). -/
def variableDefs {T : Type} (conv : Conv T) (v : VarRef W T) : List (FunctorDef W C D) :=
  [{ params := [], R := T, retName := conv.name, print := some conv.toString,
     body := fun _ => .get fun w => .ret (v.read w) },
   { params := [⟨T, conv⟩], R := T, retName := conv.name, print := some conv.toString,
     body := fun a => .get fun w => .set (v.write a.1 w) (.get fun w' => .ret (v.read w')) }]

/-- The functors of `variable(T const*)` (Variable.h 21-31). -/
def constVariableDefs {T : Type} (conv : Conv T) (read : W → T) : List (FunctorDef W C D) :=
  [{ params := [], R := T, retName := conv.name, print := some conv.toString,
     body := fun _ => .get fun w => .ret (read w) },
   { params := [⟨T, conv⟩], R := T, retName := conv.name, print := some conv.toString,
     body := fun _ => .reportError (lit "This variable is read-only") (.get fun w => .ret (read w)) }]

/-- The functors of `property(getter, setter)` and of `bindProperty(getter, setter, object)` (Property.h 18-30, 45-57). -/
def propertyDefs {T : Type} (conv : Conv T) (getter : Prog W C D T) (setter : T → Prog W C D Unit) :
    List (FunctorDef W C D) :=
  [{ params := [], R := T, retName := conv.name, print := some conv.toString, body := fun _ => getter },
   { params := [⟨T, conv⟩], R := T, retName := conv.name, print := some conv.toString,
     body := fun a => (setter a.1).bind fun _ => getter }]

/-- The functors of `property(getter)` (Property.h 32-43): the rejected value is taken as a `coil::Value`. -/
def constPropertyDefs {T : Type} (conv : Conv T) (getter : Prog W C D T) : List (FunctorDef W C D) :=
  [{ params := [], R := T, retName := conv.name, print := some conv.toString, body := fun _ => getter },
   { params := [⟨Value, valueConv⟩], R := T, retName := conv.name, print := some conv.toString,
     body := fun _ => .reportError (lit "This property is read-only") getter }]

/-- The functors of `bindProperty(getter, object)` (Property.h 59-71): the rejected value is converted first. -/
def constBoundPropertyDefs {T : Type} (conv : Conv T) (getter : Prog W C D T) : List (FunctorDef W C D) :=
  [{ params := [], R := T, retName := conv.name, print := some conv.toString, body := fun _ => getter },
   { params := [⟨T, conv⟩], R := T, retName := conv.name, print := some conv.toString,
     body := fun _ => .reportError (lit "This property is read-only") getter }]

end Coil
