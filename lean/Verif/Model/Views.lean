import Verif.Model.Exec

/-!
# Commands as views

`Model/Exec.lean` treats texts as byte strings. In the code they are `StringView`s: pointers into memory that somebody else owns. Here texts
lie in buffers, a command and everything parsed from it are views of buffers, and user functions can make, overwrite and destroy buffers at
any time, also the one that holds the command that is being executed.

Simplifications. A buffer is an allocation: its address is not reused after it has been destroyed. A serializer reads all texts of its argument
unless it only passes on views. The views in the registry (`Command::name`) and in static memory (names of types) always are valid and not
modelled. The lexer is not exchanged during the execution.
-/

namespace Coil
namespace Vw

/-- A `coil::StringView` (StringView.h 9-30): `len` bytes from position `off` on of the buffer `buf`. -/
structure Ref where
  buf : Nat
  off : Nat
  len : Nat
  deriving DecidableEq, Repr

/-- The buffers, by their addresses; `none`: destroyed. -/
abbrev Mem := List (Option Bytes)

/-- Reading the text of a view. An empty view is not dereferenced. -/
def Mem.read (m : Mem) (r : Ref) : Res Bytes :=
  if r.len = 0 then .ok []
  else
    match m[r.buf]? with
    | some (some t) => if r.off + r.len ≤ t.length then .ok ((t.drop r.off).take r.len) else .ub .oobRead
    | some none => .ub .useAfterFree
    | none => .ub .oobRead

/-- A new buffer, and its address. -/
def Mem.make (m : Mem) (t : Bytes) : Mem := m ++ [some t]

/-- Overwriting a buffer. -/
def Mem.write (m : Mem) (b : Nat) (t : Bytes) : Res Mem :=
  match m[b]? with
  | some (some _) => .ok (m.set b (some t))
  | some none => .ub .useAfterFree
  | none => .ub .oobWrite

/-- Destroying a buffer. -/
def Mem.free (m : Mem) (b : Nat) : Res Mem :=
  match m[b]? with
  | some (some _) => .ok (m.set b none)
  | _ => .ub .useAfterFree

/-- The texts of several views. -/
def Mem.readList (m : Mem) : List Ref → Res (List Bytes)
  | [] => .ok []
  | r :: rs => do
    let t ← m.read r
    let ts ← m.readList rs
    .ok (t :: ts)

/-- The texts of a value. -/
def Mem.readValue (m : Mem) (v : GValue Ref) : Res Value := do
  let ts ← m.readList v.subvalues
  .ok ⟨ts⟩

/-- The texts of positional arguments. -/
def Mem.readValues (m : Mem) : List (GValue Ref) → Res (List Value)
  | [] => .ok []
  | v :: vs => do
    let x ← m.readValue v
    let xs ← m.readValues vs
    .ok (x :: xs)

/-- The texts of a named argument. -/
def Mem.readOne (m : Mem) (v : GNamed Ref) : Res Named := do
  let k ← m.read v.key
  let x ← m.readValue v.value
  .ok ⟨k, x⟩

/-- The texts of named arguments. -/
def Mem.readNamed (m : Mem) : List (GNamed Ref) → Res (List Named)
  | [] => .ok []
  | v :: vs => do
    let x ← m.readOne v
    let xs ← m.readNamed vs
    .ok (x :: xs)

/-- The texts of a command. -/
def Mem.readInput (m : Mem) (i : GInput Ref) : Res Input := do
  let n ← m.read i.name
  let a ← m.readValues i.arguments
  let na ← m.readNamed i.namedArguments
  .ok ⟨n, a, na⟩

/-- A view of a view. -/
def Ref.sub (r : Ref) (v : View) : Ref := ⟨r.buf, r.off + v.off, v.len⟩

/-- The values the lexer made of the text of a view, in memory. -/
def Ref.value (r : Ref) (v : GValue View) : GValue Ref := ⟨v.subvalues.map r.sub⟩

/-- The same for named arguments. -/
def Ref.named (r : Ref) (v : GNamed View) : GNamed Ref := ⟨r.sub v.key, r.value v.value⟩

/-- The command that the lexer made of the text of a view, in memory. -/
def Ref.input (r : Ref) (i : GInput View) : GInput Ref := ⟨r.sub i.name, i.arguments.map r.value, i.namedArguments.map r.named⟩

/-- A lexer (Lexer.h 15): its results are views of its argument. -/
abbrev VLexer := Bytes → Res (Except Bytes (GInput View))

/-- `coil::ExecutionResult` (ExecutionResult.h 10-16): the input consists of views, the rest is owned by the result. -/
structure VResult where
  input : GInput Ref
  errors : List Bytes
  returnValue : Option Bytes
  output : Bytes
  deriving DecidableEq, Repr

/-- A result with all members default-initialised. -/
def VResult.empty : VResult := ⟨⟨⟨0, 0, 0⟩, [], []⟩, [], none, []⟩

/-- What `execute` gives its caller. -/
abbrev VOut := Except Exn VResult

/-- A user function body. As `Prog` (Model/Exec.lean), but commands and named arguments are views, and there is memory. -/
inductive VProg (W C D : Type) (R : Type) : Type where
  | ret (r : R)
  | throw (e : Exn)
  | ub (w : UB)
  | diverge
  | log (s : Bytes) (k : VProg W C D R)
  | logline (s : Bytes) (k : VProg W C D R)
  | reportError (s : Bytes) (k : VProg W C D R)
  | hasErrors (k : Bool → VProg W C D R)
  | named (k : List (GNamed Ref) → VProg W C D R)
  | setNamed (i : Nat) (v : GNamed Ref) (k : VProg W C D R)
  | get (k : W → VProg W C D R)
  | set (w : W) (k : VProg W C D R)
  | captured (k : D → VProg W C D R)
  | add (name : Bytes) (fs : List (C × D)) (k : VProg W C D R)
  | remove (name : Bytes) (k : VProg W C D R)
  | clear (k : VProg W C D R)
  /-- `bindings.execute(view)` -/
  | execLine (command : Ref) (k : VOut → VProg W C D R)
  /-- `bindings.execute(input)` -/
  | execInput (input : GInput Ref) (k : VOut → VProg W C D R)
  /-- a new buffer -/
  | make (t : Bytes) (k : Nat → VProg W C D R)
  /-- overwrite a buffer -/
  | write (b : Nat) (t : Bytes) (k : VProg W C D R)
  /-- destroy a buffer -/
  | free (b : Nat) (k : VProg W C D R)
  /-- look at the text of a view -/
  | read (r : Ref) (k : Bytes → VProg W C D R)

/-- A parameter: its type and `fromString` of its serializer, which finds views in its argument. -/
structure VParam where
  T : Type
  fromString : Mem → GValue Ref → Res (Except Bytes T)

/-- A parameter type that does not keep views: the serializer reads its argument. -/
def VParam.owned (p : Param) : VParam where
  T := p.T
  fromString m v := do
    let x ← m.readValue v
    p.conv.fromString x

/-- `StringView` (Coil.cpp 577-583), `std::string_view` (StdLibCompat.h 161-167): the view is passed on without looking at the text. -/
def VParam.view : VParam where
  T := Ref
  fromString m v :=
    match v.subvalues with
    | [r] => .ok (.ok r)
    | _ => do
      let x ← m.readValue v
      .ok (.error (mismatchError (lit "string") x 1))

/-- `Value` (Coil.cpp 460-463): the views are passed on. -/
def VParam.value : VParam where
  T := GValue Ref
  fromString _ v := .ok (.ok v)

/-- The values of a parameter list. -/
def VArgs : List VParam → Type
  | [] => Unit
  | p :: ps => p.T × VArgs ps

/-- The results of the conversions. -/
def VExpecteds : List VParam → Type
  | [] => Unit
  | p :: ps => Except Bytes p.T × VExpecteds ps

/-- A function object; `print` reads the memory if a view is returned (Coil.cpp 585-588). -/
structure VDef (W C D : Type) where
  params : List VParam
  R : Type
  print : Option (Mem → R → Res Bytes)
  body : VArgs params → VProg W C D R

variable {S W C D : Type}

/-- The memory, and the program (Model/Exec.lean). -/
structure VSys (S W C D : Type) where
  mem : Mem
  sys : Sys S W C D

/-- `detail::CallContext` (CallContext.h 13-23). -/
structure VCtx where
  input : GInput Ref
  result : VResult
  deriving DecidableEq, Repr

/-- `CallContext::reportError` (Coil.cpp 136-139). -/
def VCtx.reportError (c : VCtx) (e : Bytes) : VCtx := { c with result := { c.result with errors := c.result.errors ++ [e] } }

/-- `CallContext::hasErrors` (Coil.cpp 141-144). -/
def VCtx.hasErrors (c : VCtx) : Bool := decide (c.result.errors ≠ [])

/-- `Context::log` (Coil.cpp 339-342). -/
def VCtx.log (c : VCtx) (s : Bytes) : VCtx := { c with result := { c.result with output := c.result.output ++ s } }

/-- `Context::logline` (Coil.cpp 344-349). -/
def VCtx.logline (c : VCtx) (s : Bytes) : VCtx := { c with result := { c.result with output := c.result.output ++ s ++ [10] } }

/-- Assigning to the named argument at an index (NamedArgs.h 15, 49-53). -/
def VCtx.setNamed (c : VCtx) (i : Nat) (v : GNamed Ref) : Res VCtx := do
  let l ← writeAt c.input.namedArguments i v
  .ok { c with input := { c.input with namedArguments := l } }

/-- The `execute` functions that a user function can call. -/
structure VNested (S W C D : Type) where
  line : VSys S W C D → Ref → Res (VSys S W C D × VOut)
  input : VSys S W C D → GInput Ref → Res (VSys S W C D × VOut)

/-- Running the body of a function object. -/
def VProg.run (ops : RegOps S C D) (ne : VNested S W C D) (self : Inst C D) {R : Type} :
    VProg W C D R → VSys S W C D → VCtx → Res (VSys S W C D × VCtx × End R)
  | .ret r, s, c => .ok (s, c, .ret r)
  | .throw e, s, c => .ok (s, c, .exn e)
  | .ub w, _, _ => .ub w
  | .diverge, _, _ => .diverge
  | .log t k, s, c => k.run ops ne self s (c.log t)
  | .logline t k, s, c => k.run ops ne self s (c.logline t)
  | .reportError t k, s, c => k.run ops ne self s (c.reportError t)
  | .hasErrors k, s, c => (k c.hasErrors).run ops ne self s c
  | .named k, s, c => (k c.input.namedArguments).run ops ne self s c
  | .setNamed i v k, s, c => do
    let c' ← c.setNamed i v
    k.run ops ne self s c'
  | .get k, s, c => (k s.sys.user).run ops ne self s c
  | .set w k, s, c => k.run ops ne self { s with sys := { s.sys with user := w } } c
  | .captured k, s, c => if self.id ∈ s.sys.freed then .ub .useAfterFree else (k self.data).run ops ne self s c
  | .add n fs k, s, c => do
    let s' ← bindingsAdd ops s.sys n fs
    k.run ops ne self { s with sys := s' } c
  | .remove n k, s, c => do
    let s' ← bindingsRemove ops s.sys n
    k.run ops ne self { s with sys := s' } c
  | .clear k, s, c => k.run ops ne self { s with sys := bindingsClear ops s.sys } c
  | .execLine r k, s, c => do
    let (s', o) ← ne.line s r
    (k o).run ops ne self s' c
  | .execInput i k, s, c => do
    let (s', o) ← ne.input s i
    (k o).run ops ne self s' c
  | .make t k, s, c => (k s.mem.length).run ops ne self { s with mem := s.mem.make t } c
  | .write b t k, s, c => do
    let m ← s.mem.write b t
    k.run ops ne self { s with mem := m } c
  | .free b k, s, c => do
    let m ← s.mem.free b
    k.run ops ne self { s with mem := m } c
  | .read r k, s, c => do
    let t ← s.mem.read r
    (k t).run ops ne self s c

/-- Converting the arguments (FunctorCaller.h 39-43), from argument index `i` on. -/
def vconvert (m : Mem) (args : List (GValue Ref)) : (ps : List VParam) → Nat → Res (VExpecteds ps)
  | [], _ => .ok ()
  | p :: ps, i => do
    let a ← readAt args i
    let e ← p.fromString m a
    let rest ← vconvert m args ps (i + 1)
    .ok (e, rest)

/-- `(!expectedArgs.hasValue() || ...)` (FunctorCaller.h 28). -/
def vmissing : (ps : List VParam) → VExpecteds ps → Bool
  | [], _ => false
  | _ :: ps, (e, rest) =>
    (match e with
      | .error _ => true
      | .ok _ => false) || vmissing ps rest

/-- `(reportError(context, expectedArgs), ...)` (FunctorCaller.h 18-23, 30). -/
def vreport : (ps : List VParam) → VExpecteds ps → VCtx → VCtx
  | [], _, c => c
  | _ :: ps, (e, rest), c =>
    match e with
    | .error m => vreport ps rest (c.reportError m)
    | .ok _ => vreport ps rest c

/-- `coil::move(expectedArgs).value()...` (FunctorCaller.h 34). -/
def vtake : (ps : List VParam) → VExpecteds ps → Res (VArgs ps)
  | [], _ => .ok ()
  | _ :: ps, (e, rest) =>
    match e with
    | .error _ => .ub .deadObject
    | .ok x => do
      let xs ← vtake ps rest
      .ok (x, xs)

/-- The return value as text (FunctionWrapper.h 66-87). -/
def vtext (d : VDef W C D) (m : Mem) (r : d.R) : Res (Option Bytes) :=
  match d.print with
  | none => .ok none
  | some f => do
    let t ← f m r
    .ok (some t)

/-- Making the text of the return value and storing it (FunctionWrapper.h 66-87, FunctorCaller.h 34-36), unless an exception leaves the function. -/
def vstore (d : VDef W C D) (m : Mem) (c : VCtx) : End d.R → Res (VCtx × Option Exn)
  | .exn e => .ok (c, some e)
  | .ret r => do
    let t ← vtext d m r
    if c.hasErrors = false then .ok ({ c with result := { c.result with returnValue := t } }, none) else .ok (c, none)

/-- Calling a function object (Coil.cpp 169-172, AnyFunctor.h 40-50, FunctorCaller.h 25-43). -/
def vinvoke (P : C → VDef W C D) (ops : RegOps S C D) (ne : VNested S W C D) (depth : Nat) (f : Inst C D)
    (s : VSys S W C D) (c : VCtx) : Res (VSys S W C D × VCtx × Option Exn) :=
  if f.id ∈ s.sys.freed then .ub .useAfterFree
  else do
    let es ← vconvert s.mem c.input.arguments (P f.code).params 0
    if vmissing (P f.code).params es then .ok (s, vreport (P f.code).params es c, none)
    else do
      let args ← vtake (P f.code).params es
      let (s', c', r) ← ((P f.code).body args).run ops ne f { s with sys := { s.sys with calls := s.sys.calls ++ [(depth, f.id)] } } c
      let (c'', e) ← vstore (P f.code) s'.mem c' r
      .ok (s', c'', e)

/-- `AnyFunctor::arity` (Coil.cpp 174-177). -/
def varity (P : C → VDef W C D) (f : Inst C D) : Nat := (P f.code).params.length

/-- The search for an overload (Coil.cpp 283-285). -/
def vselect (P : C → VDef W C D) (n : Nat) : List (Inst C D) → Option (Inst C D)
  | [] => none
  | f :: rest => if varity P f = n then some f else vselect P n rest

/-- The error for a wrong number of arguments (Coil.cpp 300-315). -/
def vcountError (P : C → VDef W C D) (name : Bytes) (fs : List (Inst C D)) (actual : Nat) : Bytes :=
  let counts := fs.map (varity P)
  lit "Wrong number of arguments to '" ++ cstr name ++ lit "': expected " ++
    cstr (countsLoop counts.length counts 0 []) ++ lit ", got " ++ natDec actual

/-- The handlers (Coil.cpp 279-298). -/
def vhandle (catching : Bool) (c : VCtx) : Option Exn → VCtx × Option Exn
  | none => (c, none)
  | some (.std what) =>
    if catching then (c.reportError (lit "Exception caught during execution: " ++ cstr what), none) else (c, some (.std what))
  | some .other => if catching then (c.reportError (lit "Exception caught during execution"), none) else (c, some .other)

/-- `Bindings::execute(CallContext&)` (Coil.cpp 261-316). The text of the name is read before the function is called, not after. -/
def vexecuteCtx (P : C → VDef W C D) (ops : RegOps S C D) (catching : Bool) (ne : VNested S W C D) (depth : Nat)
    (s : VSys S W C D) (c : VCtx) : Res (VSys S W C D × VCtx × Option Exn) :=
  if c.input.name.len = 0 then .ok (s, c.reportError (lit "No function name is specified"), none)
  else do
    let name ← s.mem.read c.input.name
    match ← ops.find s.sys.reg name with
    | none => .ok (s, c.reportError (lit "No function '" ++ cstr name ++ lit "' is registered"), none)
    | some cmd =>
      match vselect P c.input.arguments.length cmd.functors with
      | some f => do
        let (s', c', e) ← vinvoke P ops ne depth f s c
        let (c'', e') := vhandle catching c' e
        .ok (s', c'', e')
      | none => .ok (s, c.reportError (vcountError P name cmd.functors c.input.arguments.length), none)

/-- `Bindings::execute(ExecutionInput)` (Coil.cpp 240-246). -/
def vexecuteInput (P : C → VDef W C D) (ops : RegOps S C D) (catching : Bool) (ne : VNested S W C D) (depth : Nat)
    (s : VSys S W C D) (input : GInput Ref) : Res (VSys S W C D × VOut) := do
  let (s', c, e) ← vexecuteCtx P ops catching ne depth s ⟨input, VResult.empty⟩
  match e with
  | some e => .ok (s', .error e)
  | none => .ok (s', .ok { c.result with input := c.input })

/-- `Bindings::execute(StringView)` (Coil.cpp 248-259). -/
def vexecuteLine (lex : VLexer) (P : C → VDef W C D) (ops : RegOps S C D) (catching : Bool) (ne : VNested S W C D) (depth : Nat)
    (s : VSys S W C D) (command : Ref) : Res (VSys S W C D × VOut) := do
  let t ← s.mem.read command
  match ← lex t with
  | .error e => .ok (s, .ok { VResult.empty with errors := [lit "Syntax error: " ++ e] })
  | .ok input => vexecuteInput P ops catching ne depth s (command.input input)

/-- The `execute` functions available inside `n` levels of `execute`. -/
def vnested (lex : VLexer) (P : C → VDef W C D) (ops : RegOps S C D) (catching : Bool) : Nat → Nat → VNested S W C D
  | 0, _ => ⟨fun _ _ => .diverge, fun _ _ => .diverge⟩
  | fuel + 1, depth =>
    ⟨vexecuteLine lex P ops catching (vnested lex P ops catching fuel (depth + 1)) depth,
      vexecuteInput P ops catching (vnested lex P ops catching fuel (depth + 1)) depth⟩

/-- `bindings.execute(view)` called from outside, with at most `fuel` levels of recursion. -/
def vexecute (lex : VLexer) (P : C → VDef W C D) (ops : RegOps S C D) (catching : Bool) (fuel : Nat) (s : VSys S W C D) (command : Ref) :
    Res (VSys S W C D × VOut) :=
  (vnested lex P ops catching fuel 0).line s command

end Vw
end Coil
