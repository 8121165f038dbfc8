import Verif.Spec.Semantics
import Verif.Model.ExecThrow

/-!
# The meaning of a program when memory runs out

The semantics of `Spec/Semantics.lean` with failures: wherever the library may ask for memory, it may also throw `std::bad_alloc`, and then
nothing has happened. There are no maps, no contexts, no supplies of memory here. Only the statement forms (`Oom.TProg`, `Oom.TMain`) and the
form of results are taken from the model.
-/

namespace Coil
namespace Spec
open Oom (TProg TDef TMain)

/-- The exception of an allocation that fails. -/
def outOfMemory : Exn := .std (lit "std::bad_alloc")

variable {W C D : Type}

/-- What a function does while nothing throws. -/
def calmProg {R : Type} : TProg W C D R → Prog W C D R
  | .ret r => .ret r
  | .throw e => .throw e
  | .ub w => .ub w
  | .diverge => .diverge
  | .alloc k => calmProg (k false)
  | .log t k => .log t (calmProg (k false))
  | .logline t k => .logline t (calmProg (k false))
  | .reportError t k => .reportError t (calmProg (k false))
  | .hasErrors k => .hasErrors fun b => calmProg (k b)
  | .named k => .named fun l => calmProg (k l)
  | .setNamed i v k => .setNamed i v (calmProg k)
  | .get k => .get fun w => calmProg (k w)
  | .set w k => .set w (calmProg k)
  | .captured k => .captured fun d => calmProg (k d)
  | .add n fs k => .add n fs (calmProg (k false))
  | .remove n k => .remove n (calmProg k)
  | .clear k => .clear (calmProg k)
  | .execLine t k => .execLine t fun o => calmProg (k o)
  | .execInput i k => .execInput i fun o => calmProg (k o)

/-- The function objects while nothing throws. -/
def calmDef (d : TDef W C D) : FunctorDef W C D := ⟨d.params, d.R, d.retName, d.print, fun xs => calmProg (d.body xs)⟩

/-- Function objects were made and destroyed again, without belonging to a command. -/
def Scene.waste (σ : Scene W C D) (n : Nat) : Scene W C D := { σ with made := σ.made + n }

/-- `f` is the first function object with `n` parameters. -/
def FirstFor (P : C → TDef W C D) (n : Nat) (fs : List (Inst C D)) (f : Inst C D) : Prop :=
  ∃ pre post, fs = pre ++ f :: post ∧ (P f.code).params.length = n ∧ ∀ g ∈ pre, (P g.code).params.length ≠ n

/-- No function can be called for the command; `m` says why. -/
inductive Refused (P : C → TDef W C D) (σ : Scene W C D) (i : Input) : Bytes → Prop
  | noName : i.name = [] → Refused P σ i (lit "No function name is specified")
  | unknown : i.name ≠ [] → σ.commands i.name = none → Refused P σ i (lit "No function '" ++ upToNul i.name ++ lit "' is registered")
  | count {fs} : i.name ≠ [] → σ.commands i.name = some fs → (∀ g ∈ fs, (P g.code).params.length ≠ i.arguments.length) →
      Refused P σ i (lit "Wrong number of arguments to '" ++ upToNul i.name ++ lit "': expected " ++
        countsInWords (fs.map (fun g => (P g.code).params.length)) ++ lit ", got " ++ natDec i.arguments.length)

/-- The function object that a command calls. -/
def Calls (P : C → TDef W C D) (σ : Scene W C D) (i : Input) (f : Inst C D) : Prop :=
  i.name ≠ [] ∧ ∃ fs, σ.commands i.name = some fs ∧ FirstFor P i.arguments.length fs f

/-- What becomes of an exception `x` in a call that had the result `r` so far. -/
inductive Raised (catching : Bool) (x : Exn) (r : ExecResult) : ExecOut → Prop
  | caught : catching = true → Raised catching x r (.ok { r with errors := r.errors ++ [exceptionError x] })
  /-- no memory for the report -/
  | lost : catching = true → Raised catching x r (.error outOfMemory)
  | passed : catching = false → Raised catching x r (.error x)

/-- The result of a call with the context events `es`, without a return value. -/
def sofar (i : Input) (es : List CtxEvent) : ExecResult :=
  ⟨{ i with namedArguments := namedAfter i.namedArguments es }, errorsOf es, none, outputOf es⟩

mutual

/-- As `Does`; the continuations of calls that may throw are told whether they did. -/
inductive DoesT (P : C → TDef W C D) (catching : Bool) : {R : Type} → Inst C D → List Named →
    List CtxEvent → TProg W C D R → Scene W C D → List CtxEvent → End R → Scene W C D → Prop
  | ret {R self l past} {r : R} {σ} : DoesT P catching self l past (.ret r) σ [] (.ret r) σ
  | throw {R self l past e σ} : DoesT (R := R) P catching self l past (.throw e) σ [] (.exn e) σ
  | alloc {R self l past k σ es} {e : End R} {σ'} (threw : Bool) : DoesT P catching self l past (k threw) σ es e σ' →
      DoesT P catching self l past (.alloc k) σ es e σ'
  | log {R self l past t k σ es} {e : End R} {σ'} : DoesT P catching self l (past ++ [.log t]) (k false) σ es e σ' →
      DoesT P catching self l past (.log t k) σ (.log t :: es) e σ'
  | logThrew {R self l past t k σ es} {e : End R} {σ'} : DoesT P catching self l past (k true) σ es e σ' →
      DoesT P catching self l past (.log t k) σ es e σ'
  | logline {R self l past t k σ es} {e : End R} {σ'} : DoesT P catching self l (past ++ [.logline t]) (k false) σ es e σ' →
      DoesT P catching self l past (.logline t k) σ (.logline t :: es) e σ'
  | loglineThrew {R self l past t k σ es} {e : End R} {σ'} : DoesT P catching self l past (k true) σ es e σ' →
      DoesT P catching self l past (.logline t k) σ es e σ'
  | reportError {R self l past t k σ es} {e : End R} {σ'} : DoesT P catching self l (past ++ [.error t]) (k false) σ es e σ' →
      DoesT P catching self l past (.reportError t k) σ (.error t :: es) e σ'
  | reportErrorThrew {R self l past t k σ es} {e : End R} {σ'} : DoesT P catching self l past (k true) σ es e σ' →
      DoesT P catching self l past (.reportError t k) σ es e σ'
  | hasErrors {R self l past k σ es} {e : End R} {σ'} : DoesT P catching self l past (k (decide (errorsOf past ≠ []))) σ es e σ' →
      DoesT P catching self l past (.hasErrors k) σ es e σ'
  | named {R self l past k σ es} {e : End R} {σ'} : DoesT P catching self l past (k (namedAfter l past)) σ es e σ' →
      DoesT P catching self l past (.named k) σ es e σ'
  | setNamed {R self l past i v k σ es} {e : End R} {σ'} : i < l.length →
      DoesT P catching self l (past ++ [.setNamed i v]) k σ es e σ' →
      DoesT P catching self l past (.setNamed i v k) σ (.setNamed i v :: es) e σ'
  | get {R self l past k σ es} {e : End R} {σ'} : DoesT P catching self l past (k σ.user) σ es e σ' →
      DoesT P catching self l past (.get k) σ es e σ'
  | set {R self l past w k σ es} {e : End R} {σ'} : DoesT P catching self l past k { σ with user := w } es e σ' →
      DoesT P catching self l past (.set w k) σ es e σ'
  | captured {R self l past k σ es} {e : End R} {σ'} : σ.Has self → DoesT P catching self l past (k self.data) σ es e σ' →
      DoesT P catching self l past (.captured k) σ es e σ'
  | add {R self l past n fs k σ es} {e : End R} {σ'} : DoesT P catching self l past (k false) (σ.add n fs) es e σ' →
      DoesT P catching self l past (.add n fs k) σ es e σ'
  | addThrew {R self l past n fs k σ es} {e : End R} {σ'} : DoesT P catching self l past (k true) (σ.waste fs.length) es e σ' →
      DoesT P catching self l past (.add n fs k) σ es e σ'
  | remove {R self l past n k σ es} {e : End R} {σ'} : DoesT P catching self l past k (σ.remove n) es e σ' →
      DoesT P catching self l past (.remove n k) σ es e σ'
  | clear {R self l past k σ es} {e : End R} {σ'} : DoesT P catching self l past k σ.clear es e σ' →
      DoesT P catching self l past (.clear k) σ es e σ'
  | execLine {R self l past t k σ σ1 o es} {e : End R} {σ'} : PerformsT P catching σ (.line t) σ1 o →
      DoesT P catching self l past (k o) σ1 es e σ' → DoesT P catching self l past (.execLine t k) σ es e σ'
  | execInput {R self l past i k σ σ1 o es} {e : End R} {σ'} : PerformsT P catching σ (.input i) σ1 o →
      DoesT P catching self l past (k o) σ1 es e σ' → DoesT P catching self l past (.execInput i k) σ es e σ'

/-- As `Performs`. -/
inductive PerformsT (P : C → TDef W C D) (catching : Bool) : Scene W C D → Request → Scene W C D → ExecOut → Prop
  /-- a line that is no command -/
  | wrong {σ t m} : σ.reads t (.error m) →
      PerformsT P catching σ (.line t) σ (.ok ⟨⟨[], [], []⟩, [lit "Syntax error: " ++ m], none, []⟩)
  /-- no memory for the tokens, the arguments or the syntax error -/
  | unread {σ t r} : σ.reads t r → PerformsT P catching σ (.line t) σ (.error outOfMemory)
  /-- a line that is a command -/
  | line {σ t i σ' out} : σ.reads t (.ok i) → PerformsT P catching σ (.input i) σ' out → PerformsT P catching σ (.line t) σ' out
  | refused {σ i m} : Refused P σ i m → PerformsT P catching σ (.input i) σ (.ok ⟨i, [m], none, []⟩)
  /-- no memory for the message -/
  | untold {σ i m} : Refused P σ i m → PerformsT P catching σ (.input i) σ (.error outOfMemory)
  /-- no memory for the value of argument `n` -/
  | unconverted {σ i f n out} : Calls P σ i f → n < i.arguments.length →
      ConversionsDefined ((P f.code).params.take (n + 1)) (i.arguments.take (n + 1)) →
      Raised catching outOfMemory ⟨i, [], none, []⟩ out → PerformsT P catching σ (.input i) σ out
  /-- an argument does not convert -/
  | mismatch {σ i f} : Calls P σ i f → ConversionsDefined (P f.code).params i.arguments →
      conversionErrors (P f.code).params i.arguments ≠ [] →
      PerformsT P catching σ (.input i) σ (.ok ⟨i, conversionErrors (P f.code).params i.arguments, none, []⟩)
  /-- no memory for the error after the first `n` ones -/
  | unreported {σ i f n out} : Calls P σ i f → ConversionsDefined (P f.code).params i.arguments →
      n < (conversionErrors (P f.code).params i.arguments).length →
      Raised catching outOfMemory ⟨i, (conversionErrors (P f.code).params i.arguments).take n, none, []⟩ out →
      PerformsT P catching σ (.input i) σ out
  /-- the function is called and returns -/
  | returned {σ i f xs es r σ'} : Calls P σ i f → ConvertTo (P f.code).params i.arguments xs →
      DoesT P catching f i.namedArguments [] ((P f.code).body xs) σ es (.ret r) σ' →
      PerformsT P catching σ (.input i) σ' (.ok { sofar i es with
        returnValue := if errorsOf es = [] then (P f.code).print.map (fun p => p r) else none })
  /-- no memory for the text of the value -/
  | unprinted {σ i f xs es r σ' out} : Calls P σ i f → ConvertTo (P f.code).params i.arguments xs →
      DoesT P catching f i.namedArguments [] ((P f.code).body xs) σ es (.ret r) σ' → (P f.code).print.isSome →
      Raised catching outOfMemory (sofar i es) out → PerformsT P catching σ (.input i) σ' out
  /-- the function is called and throws -/
  | threw {σ i f xs es x σ' out} : Calls P σ i f → ConvertTo (P f.code).params i.arguments xs →
      DoesT P catching f i.namedArguments [] ((P f.code).body xs) σ es (.exn x) σ' →
      Raised catching x (sofar i es) out → PerformsT P catching σ (.input i) σ' out

end

/-- `CourseT P catching σ main outs σ'`: one way a program may go, with what its actions gave. -/
inductive CourseT (P : C → TDef W C D) (catching : Bool) : Scene W C D → TMain W C D → List (Option ExecOut) → Scene W C D → Prop
  | stop {σ} : CourseT P catching σ .stop [] σ
  | add {σ n fs next outs σ'} : CourseT P catching (σ.add n fs) (next none) outs σ' →
      CourseT P catching σ (.act (.add n fs) next) (none :: outs) σ'
  | addThrew {σ n fs next outs σ'} : CourseT P catching (σ.waste fs.length) (next (some (.error outOfMemory))) outs σ' →
      CourseT P catching σ (.act (.add n fs) next) (some (.error outOfMemory) :: outs) σ'
  | remove {σ n next outs σ'} : CourseT P catching (σ.remove n) (next none) outs σ' →
      CourseT P catching σ (.act (.remove n) next) (none :: outs) σ'
  | clear {σ next outs σ'} : CourseT P catching σ.clear (next none) outs σ' → CourseT P catching σ (.act .clear next) (none :: outs) σ'
  | setLexer {σ l next outs σ'} : CourseT P catching { σ with reads := ReadsWith l } (next none) outs σ' →
      CourseT P catching σ (.act (.setLexer l) next) (none :: outs) σ'
  | exec {σ req σ1 o next outs σ'} : PerformsT P catching σ req σ1 o → CourseT P catching σ1 (next (some o)) outs σ' →
      CourseT P catching σ (.act (.exec req) next) (some o :: outs) σ'
  | setUser {σ w next outs σ'} : CourseT P catching { σ with user := w } (next none) outs σ' →
      CourseT P catching σ (.act (.setUser w) next) (none :: outs) σ'

end Spec
end Coil
