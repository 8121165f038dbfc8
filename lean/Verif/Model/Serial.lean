import Verif.Model.Exec

/-!
# Executing commands whose serializers are arbitrary code

`Model/Exec.lean` takes the serializers of parameters and results to be functions without effects. Serializers are
user code (`TypeSerializer` is specialised by the user): here they are programs that may read and write the program
state, use the registry, execute commands and throw. The code is the same: `include/coil/detail/FunctorCaller.h`,
`FunctionWrapper.h`, `src/Coil.cpp` 240-316.

The conversions of the arguments of one call are the arguments of a function call (FunctorCaller.h 42): C++ does not
say in which order they are evaluated. The order is a parameter of the model, `order`, that may be different for
every function.

Simplification: destructors of converted values have no effects.
-/

namespace Coil

/-- The code of a serializer that ends with a value of type `R`. A serializer is not given a `Context`. -/
inductive Ser (W C D : Type) (R : Type) : Type where
  /-- return -/
  | ret (r : R)
  /-- `throw` -/
  | throw (e : Exn)
  /-- undefined behaviour of the serializer -/
  | ub (w : UB)
  /-- the serializer never ends -/
  | diverge
  /-- reading the program state -/
  | get (k : W → Ser W C D R)
  /-- writing the program state -/
  | set (w : W) (k : Ser W C D R)
  /-- `bindings.add(name, functors)` -/
  | add (name : Bytes) (fs : List (C × D)) (k : Ser W C D R)
  /-- `bindings.remove(name)` -/
  | remove (name : Bytes) (k : Ser W C D R)
  /-- `bindings.clear()` -/
  | clear (k : Ser W C D R)
  /-- `bindings.execute(command)` -/
  | execLine (command : Bytes) (k : ExecOut → Ser W C D R)
  /-- `bindings.execute(input)` -/
  | execInput (input : Input) (k : ExecOut → Ser W C D R)

variable {S W C D : Type}

/-- Running a serializer. -/
def Ser.run (ops : RegOps S C D) (ne : Nested S W C D) {R : Type} :
    Ser W C D R → Sys S W C D → Res (Sys S W C D × End R)
  | .ret r, s => .ok (s, .ret r)
  | .throw e, s => .ok (s, .exn e)
  | .ub w, _ => .ub w
  | .diverge, _ => .diverge
  | .get k, s => (k s.user).run ops ne s
  | .set w k, s => k.run ops ne { s with user := w }
  | .add n fs k, s => do
    let s' ← bindingsAdd ops s n fs
    k.run ops ne s'
  | .remove n k, s => do
    let s' ← bindingsRemove ops s n
    k.run ops ne s'
  | .clear k, s => k.run ops ne (bindingsClear ops s)
  | .execLine t k, s => do
    let (s', o) ← ne.line s t
    (k o).run ops ne s'
  | .execInput i k, s => do
    let (s', o) ← ne.input s i
    (k o).run ops ne s'

/-- A parameter: its type, the name of the type and `TypeSerializer<T>::fromString`. -/
structure SerParam (W C D : Type) where
  T : Type
  name : Bytes
  fromString : Value → Ser W C D (Except Bytes T)

/-- The static part of a function object, as `FunctorDef`, with arbitrary serializers. -/
structure SerDef (W C D : Type) where
  arity : Nat
  param : Fin arity → SerParam W C D
  R : Type
  retName : Bytes
  print : Option (R → Ser W C D Bytes)
  body : ((i : Fin arity) → (param i).T) → Prog W C D R

/-- The arguments of `invoke` (FunctorCaller.h 26), as far as they are evaluated. -/
abbrev SerDef.Slots (d : SerDef W C D) : Type := (i : Fin d.arity) → Option (Except Bytes (d.param i).T)

/-- Before the evaluation. -/
def SerDef.noSlots (d : SerDef W C D) : d.Slots := fun _ => none

/-- Storing one evaluated argument. -/
def SerDef.Slots.put {d : SerDef W C D} (slots : d.Slots) (i : Fin d.arity) (r : Except Bytes (d.param i).T) : d.Slots :=
  fun j => if h : j = i then some (h ▸ r) else slots j

/-- `TypeSerializer<UserArgs>::fromString(context.input.arguments[UserIndices])...` (FunctorCaller.h 42), in the given
order. An exception ends the evaluation. -/
def convertIn (ops : RegOps S C D) (ne : Nested S W C D) (d : SerDef W C D) (args : List Value) :
    List (Fin d.arity) → d.Slots → Sys S W C D → Res (Sys S W C D × End d.Slots)
  | [], slots, s => .ok (s, .ret slots)
  | i :: is, slots, s => do
    let a ← readAt args i
    let (s', e) ← ((d.param i).fromString a).run ops ne s
    match e with
    | .exn x => .ok (s', .exn x)
    | .ret r => convertIn ops ne d args is (slots.put i r) s'

/-- `expectedArg.hasValue()` of an evaluated argument. -/
def slotHasValue {T : Type} : Option (Except Bytes T) → Bool
  | some (.ok _) => true
  | _ => false

/-- `(!expectedArgs.hasValue() || ...)` (FunctorCaller.h 28). -/
def SerDef.Slots.anyMissing {d : SerDef W C D} (slots : d.Slots) : Bool :=
  (List.finRange d.arity).any fun i => !slotHasValue (slots i)

/-- `reportError(context, expectedArg)` (FunctorCaller.h 18-23). -/
def reportSlot {T : Type} (c : CallCtx) : Option (Except Bytes T) → CallCtx
  | some (.error m) => c.reportError m
  | _ => c

/-- `(reportError(context, expectedArgs), ...)` (FunctorCaller.h 30): in the order of the parameters. -/
def SerDef.Slots.reportAll {d : SerDef W C D} (slots : d.Slots) (c : CallCtx) : CallCtx :=
  (List.finRange d.arity).foldl (fun c i => reportSlot c (slots i)) c

/-- The value of an evaluated argument. -/
def slotValue {T : Type} : (x : Option (Except Bytes T)) → slotHasValue x = true → T
  | some (.ok v), _ => v

/-- `coil::move(expectedArgs).value()...` (FunctorCaller.h 34). -/
def SerDef.Slots.takeValues {d : SerDef W C D} (slots : d.Slots) : Res ((i : Fin d.arity) → (d.param i).T) :=
  if h : ∀ i, slotHasValue (slots i) = true then .ok (fun i => slotValue (slots i) (h i)) else .ub .deadObject

/-- The end of the call: `TypeSerializer<R>::toString(func(...))` (FunctionWrapper.h 66-87) and storing the text
(FunctorCaller.h 34-36). The text is made also when the function has reported errors. -/
def finishCall (ops : RegOps S C D) (ne : Nested S W C D) (d : SerDef W C D) (s : Sys S W C D) (c : CallCtx) :
    End d.R → Res (Sys S W C D × CallCtx × Option Exn)
  | .exn e => .ok (s, c, some e)
  | .ret r =>
    match d.print with
    | none => .ok (s, c, none)
    | some print => do
      let (s', t) ← (print r).run ops ne s
      match t with
      | .exn e => .ok (s', c, some e)
      | .ret t =>
        if c.hasErrors = false then .ok (s', { c with result := { c.result with returnValue := some t } }, none)
        else .ok (s', c, none)

/-- `AnyFunctor::invokeTrampoline`, `AnyStorage::invoke`, `unpackAndInvoke`, `invoke` (Coil.cpp 169-172, AnyFunctor.h
40-50, FunctorCaller.h 25-43). The function object is used again after the conversions. -/
def invokeSer (P : C → SerDef W C D) (order : (c : C) → List (Fin (P c).arity)) (ops : RegOps S C D)
    (ne : Nested S W C D) (depth : Nat) (f : Inst C D) (s : Sys S W C D) (c : CallCtx) :
    Res (Sys S W C D × CallCtx × Option Exn) :=
  if f.id ∈ s.freed then .ub .useAfterFree
  else do
    let d := P f.code
    let (s1, e) ← convertIn ops ne d c.input.arguments (order f.code) d.noSlots s
    match e with
    | .exn x => .ok (s1, c, some x)
    | .ret slots =>
      if slots.anyMissing then .ok (s1, slots.reportAll c, none)
      else do
        let args ← slots.takeValues
        if f.id ∈ s1.freed then .ub .useAfterFree
        else do
          let (s2, c2, r) ← (d.body args).run ops ne f { s1 with calls := s1.calls ++ [(depth, f.id)] } c
          finishCall ops ne d s2 c2 r

/-- The search for an overload (Coil.cpp 283-285). -/
def selectSer (P : C → SerDef W C D) (n : Nat) : List (Inst C D) → Option (Inst C D)
  | [] => none
  | f :: rest => if (P f.code).arity = n then some f else selectSer P n rest

/-- The error for a wrong number of arguments (Coil.cpp 300-315). -/
def countErrorSer (P : C → SerDef W C D) (name : Bytes) (fs : List (Inst C D)) (actual : Nat) : Bytes :=
  let counts := fs.map (fun f => (P f.code).arity)
  lit "Wrong number of arguments to '" ++ cstr name ++ lit "': expected " ++
    cstr (countsLoop counts.length counts 0 []) ++ lit ", got " ++ natDec actual

/-- `Bindings::execute(CallContext&)` (Coil.cpp 261-316). The conversions are inside the `try` block. -/
def executeCtxSer (P : C → SerDef W C D) (order : (c : C) → List (Fin (P c).arity)) (ops : RegOps S C D)
    (catching : Bool) (ne : Nested S W C D) (depth : Nat) (s : Sys S W C D) (c : CallCtx) :
    Res (Sys S W C D × CallCtx × Option Exn) :=
  if c.input.name = [] then .ok (s, c.reportError (lit "No function name is specified"), none)
  else do
    match ← ops.find s.reg c.input.name with
    | none => .ok (s, c.reportError (lit "No function '" ++ cstr c.input.name ++ lit "' is registered"), none)
    | some cmd =>
      match selectSer P c.input.arguments.length cmd.functors with
      | some f => do
        let (s', c', e) ← invokeSer P order ops ne depth f s c
        let (c'', e') := handle catching c' e
        .ok (s', c'', e')
      | none => .ok (s, c.reportError (countErrorSer P c.input.name cmd.functors c.input.arguments.length), none)

/-- `Bindings::execute(ExecutionInput)` (Coil.cpp 240-246). -/
def executeInputSer (P : C → SerDef W C D) (order : (c : C) → List (Fin (P c).arity)) (ops : RegOps S C D)
    (catching : Bool) (ne : Nested S W C D) (depth : Nat) (s : Sys S W C D) (input : Input) :
    Res (Sys S W C D × ExecOut) := do
  let (s', c, e) ← executeCtxSer P order ops catching ne depth s ⟨input, ExecResult.empty⟩
  match e with
  | some e => .ok (s', .error e)
  | none => .ok (s', .ok { c.result with input := c.input })

/-- `Bindings::execute(StringView)` (Coil.cpp 248-259). -/
def executeLineSer (P : C → SerDef W C D) (order : (c : C) → List (Fin (P c).arity)) (ops : RegOps S C D)
    (catching : Bool) (ne : Nested S W C D) (depth : Nat) (s : Sys S W C D) (command : Bytes) :
    Res (Sys S W C D × ExecOut) :=
  match s.lexer with
  | none => .ub .nullDeref
  | some l => do
    match ← l command with
    | .error e => .ok (s, .ok { ExecResult.empty with errors := [lit "Syntax error: " ++ e] })
    | .ok input => executeInputSer P order ops catching ne depth s input

/-- The `execute` functions available inside `n` levels of `execute`, as `nested`. -/
def nestedSer (P : C → SerDef W C D) (order : (c : C) → List (Fin (P c).arity)) (ops : RegOps S C D)
    (catching : Bool) : Nat → Nat → Nested S W C D
  | 0, _ => ⟨fun _ _ => .diverge, fun _ _ => .diverge⟩
  | fuel + 1, depth =>
    ⟨executeLineSer P order ops catching (nestedSer P order ops catching fuel (depth + 1)) depth,
      executeInputSer P order ops catching (nestedSer P order ops catching fuel (depth + 1)) depth⟩

/-! ## Serializers without effects -/

/-- A serializer without effects. -/
def Ser.pure {R : Type} : Res R → Ser W C D R
  | .ok r => .ret r
  | .ub w => .ub w
  | .diverge => .diverge

/-- A parameter of `Model/Exec.lean`. -/
def Param.toSer (p : Param) : SerParam W C D := ⟨p.T, p.conv.name, fun v => .pure (p.conv.fromString v)⟩

/-- The values of a parameter list, from one value for each position. -/
def argsFrom : (ps : List Param) → ((i : Fin ps.length) → (ps.get i).T) → Args ps
  | [], _ => ()
  | _ :: ps, g => (g ⟨0, Nat.zero_lt_succ _⟩, argsFrom ps (fun i => g i.succ))

/-- A function of `Model/Exec.lean`. -/
def FunctorDef.toSer (d : FunctorDef W C D) : SerDef W C D where
  arity := d.params.length
  param i := (d.params.get i).toSer
  R := d.R
  retName := d.retName
  print := d.print.map (fun p r => .ret (p r))
  body g := d.body (argsFrom d.params g)

end Coil
