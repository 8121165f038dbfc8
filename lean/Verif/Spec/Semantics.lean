import Verif.Spec.Exec
import Verif.Spec.Lexer
import Verif.Spec.Registry

/-!
# The meaning of a program that uses the library

A big-step semantics. A program sees a dictionary from names to lists of function objects; executing a command line is a relation
between the scene before, the request, the scene after and the result. There are no hash maps, no loops of a lexer, no call contexts,
no reference to destroyed objects and no bounds on the depth of recursion. What the relations do not relate has no meaning: it is
undefined, or it never ends. Only the statement forms of user functions (`Prog`), the actions of the surrounding program (`Action`) and the form of
results are taken from the model.
-/

namespace Coil
namespace Spec

/-- What there is: the function objects of each command, the number of function objects made so far, the state of the program, which
texts mean which commands (or are wrong in which way), and the changes of the registry made so far. -/
structure Scene (W C D : Type) where
  commands : Bytes → Option (List (Inst C D))
  made : Nat
  user : W
  reads : Bytes → Except Bytes Input → Prop
  changes : List (RegEvent C D)

namespace Scene

variable {W C D : Type}

/-- New function objects, numbered from `n` on. -/
def numbered (n : Nat) (fs : List (C × D)) : List (Inst C D) := (fs.zipIdx n).map (fun x => ⟨x.2, x.1.1, x.1.2⟩)

/-- A command gets these functions, and loses those it had. -/
def add (σ : Scene W C D) (name : Bytes) (fs : List (C × D)) : Scene W C D :=
  { σ with commands := fun n => if n = name then some (numbered σ.made fs) else σ.commands n,
           made := σ.made + fs.length, changes := σ.changes ++ [.added name (numbered σ.made fs)] }

/-- A command is forgotten. -/
def remove (σ : Scene W C D) (name : Bytes) : Scene W C D :=
  { σ with commands := fun n => if n = name then none else σ.commands n, changes := σ.changes ++ [.removed name] }

/-- All commands are forgotten. -/
def clear (σ : Scene W C D) : Scene W C D :=
  { σ with commands := fun _ => none, changes := σ.changes ++ [.cleared] }

/-- The function object belongs to some command. -/
def Has (σ : Scene W C D) (f : Inst C D) : Prop := ∃ n fs, σ.commands n = some fs ∧ f ∈ fs

end Scene

/-- The text up to the first NUL. -/
def upToNul (t : Bytes) : Bytes := t.takeWhile (· ≠ 0)

/-- The error for an exception. -/
def exceptionError : Exn → Bytes
  | .std what => lit "Exception caught during execution: " ++ upToNul what
  | .other => lit "Exception caught during execution"

variable {W C D : Type}

mutual

/-- `Does P catching self l past p σ es e σ'`: the body `p` of the function object `self`, started in the scene `σ` after the calls `past` to its
context with the original named arguments `l`, makes the calls `es`, ends with `e` and leaves the scene `σ'`. -/
inductive Does (P : C → FunctorDef W C D) (catching : Bool) : {R : Type} → Inst C D → List Named →
    List CtxEvent → Prog W C D R → Scene W C D → List CtxEvent → End R → Scene W C D → Prop
  | ret {R self l past} {r : R} {σ} : Does P catching self l past (.ret r) σ [] (.ret r) σ
  | throw {R self l past e σ} : Does (R := R) P catching self l past (.throw e) σ [] (.exn e) σ
  | log {R self l past t k σ es} {e : End R} {σ'} : Does P catching self l (past ++ [.log t]) k σ es e σ' →
      Does P catching self l past (.log t k) σ (.log t :: es) e σ'
  | logline {R self l past t k σ es} {e : End R} {σ'} : Does P catching self l (past ++ [.logline t]) k σ es e σ' →
      Does P catching self l past (.logline t k) σ (.logline t :: es) e σ'
  | reportError {R self l past t k σ es} {e : End R} {σ'} : Does P catching self l (past ++ [.error t]) k σ es e σ' →
      Does P catching self l past (.reportError t k) σ (.error t :: es) e σ'
  | hasErrors {R self l past k σ es} {e : End R} {σ'} : Does P catching self l past (k (decide (errorsOf past ≠ []))) σ es e σ' →
      Does P catching self l past (.hasErrors k) σ es e σ'
  | named {R self l past k σ es} {e : End R} {σ'} : Does P catching self l past (k (namedAfter l past)) σ es e σ' →
      Does P catching self l past (.named k) σ es e σ'
  | setNamed {R self l past i v k σ es} {e : End R} {σ'} : i < l.length → Does P catching self l (past ++ [.setNamed i v]) k σ es e σ' →
      Does P catching self l past (.setNamed i v k) σ (.setNamed i v :: es) e σ'
  | get {R self l past k σ es} {e : End R} {σ'} : Does P catching self l past (k σ.user) σ es e σ' →
      Does P catching self l past (.get k) σ es e σ'
  | set {R self l past w k σ es} {e : End R} {σ'} : Does P catching self l past k { σ with user := w } es e σ' →
      Does P catching self l past (.set w k) σ es e σ'
  /-- captured data can be read as long as the function object belongs to some command -/
  | captured {R self l past k σ es} {e : End R} {σ'} : σ.Has self → Does P catching self l past (k self.data) σ es e σ' →
      Does P catching self l past (.captured k) σ es e σ'
  | add {R self l past n fs k σ es} {e : End R} {σ'} : Does P catching self l past k (σ.add n fs) es e σ' →
      Does P catching self l past (.add n fs k) σ es e σ'
  | remove {R self l past n k σ es} {e : End R} {σ'} : Does P catching self l past k (σ.remove n) es e σ' →
      Does P catching self l past (.remove n k) σ es e σ'
  | clear {R self l past k σ es} {e : End R} {σ'} : Does P catching self l past k σ.clear es e σ' →
      Does P catching self l past (.clear k) σ es e σ'
  | execLine {R self l past t k σ σ1 o es} {e : End R} {σ'} : Performs P catching σ (.line t) σ1 o →
      Does P catching self l past (k o) σ1 es e σ' → Does P catching self l past (.execLine t k) σ es e σ'
  | execInput {R self l past i k σ σ1 o es} {e : End R} {σ'} : Performs P catching σ (.input i) σ1 o →
      Does P catching self l past (k o) σ1 es e σ' → Does P catching self l past (.execInput i k) σ es e σ'

/-- `Performs P catching σ req σ' out`: executing `req` in the scene `σ` leaves the scene `σ'` and gives `out`. -/
inductive Performs (P : C → FunctorDef W C D) (catching : Bool) : Scene W C D → Request → Scene W C D → ExecOut → Prop
  /-- a line that is no command -/
  | wrong {σ t m} : σ.reads t (.error m) →
      Performs P catching σ (.line t) σ (.ok ⟨⟨[], [], []⟩, [lit "Syntax error: " ++ m], none, []⟩)
  /-- a line that is a command -/
  | line {σ t i σ' out} : σ.reads t (.ok i) → Performs P catching σ (.input i) σ' out → Performs P catching σ (.line t) σ' out
  | noName {σ i} : i.name = [] → Performs P catching σ (.input i) σ (.ok ⟨i, [lit "No function name is specified"], none, []⟩)
  | unknown {σ i} : i.name ≠ [] → σ.commands i.name = none →
      Performs P catching σ (.input i) σ (.ok ⟨i, [lit "No function '" ++ upToNul i.name ++ lit "' is registered"], none, []⟩)
  /-- no function of the command takes that many arguments -/
  | count {σ i fs} : i.name ≠ [] → σ.commands i.name = some fs →
      (∀ g ∈ fs, (P g.code).params.length ≠ i.arguments.length) →
      Performs P catching σ (.input i) σ (.ok ⟨i, [lit "Wrong number of arguments to '" ++ upToNul i.name ++ lit "': expected " ++
        countsInWords (fs.map (fun g => (P g.code).params.length)) ++ lit ", got " ++ natDec i.arguments.length], none, []⟩)
  /-- an argument of the first function that takes that many does not convert -/
  | mismatch {σ i fs f} : i.name ≠ [] → σ.commands i.name = some fs → FirstOfArity P i.arguments.length fs f →
      ConversionsDefined (P f.code).params i.arguments → conversionErrors (P f.code).params i.arguments ≠ [] →
      Performs P catching σ (.input i) σ (.ok ⟨i, conversionErrors (P f.code).params i.arguments, none, []⟩)
  /-- the function is called and returns -/
  | returned {σ i fs f xs es r σ'} : i.name ≠ [] → σ.commands i.name = some fs → FirstOfArity P i.arguments.length fs f →
      ConvertTo (P f.code).params i.arguments xs →
      Does P catching f i.namedArguments [] ((P f.code).body xs) σ es (.ret r) σ' →
      Performs P catching σ (.input i) σ' (.ok ⟨{ i with namedArguments := namedAfter i.namedArguments es }, errorsOf es,
        if errorsOf es = [] then (P f.code).print.map (fun p => p r) else none, outputOf es⟩)
  /-- the function is called and throws; the library catches -/
  | caught {σ i fs f xs es x σ'} : catching = true → i.name ≠ [] → σ.commands i.name = some fs →
      FirstOfArity P i.arguments.length fs f → ConvertTo (P f.code).params i.arguments xs →
      Does P catching f i.namedArguments [] ((P f.code).body xs) σ es (.exn x) σ' →
      Performs P catching σ (.input i) σ' (.ok ⟨{ i with namedArguments := namedAfter i.namedArguments es },
        errorsOf es ++ [exceptionError x], none, outputOf es⟩)
  /-- the function is called and throws; the library does not catch -/
  | passed {σ i fs f xs es x σ'} : catching = false → i.name ≠ [] → σ.commands i.name = some fs →
      FirstOfArity P i.arguments.length fs f → ConvertTo (P f.code).params i.arguments xs →
      Does P catching f i.namedArguments [] ((P f.code).body xs) σ es (.exn x) σ' →
      Performs P catching σ (.input i) σ' (.error x)

end

/-- What a lexer that the program supplies says about a text; a null lexer says nothing. -/
def ReadsWith (l : Option Lexer) (t : Bytes) (r : Except Bytes Input) : Prop := ∃ f, l = some f ∧ f t = .ok r

/-- `Acts P catching σ acts outs σ'`: doing `acts` one after the other gives the results `outs` and leaves `σ'`. -/
inductive Acts (P : C → FunctorDef W C D) (catching : Bool) : Scene W C D → List (Action W C D) → List ExecOut → Scene W C D → Prop
  | done {σ} : Acts P catching σ [] [] σ
  | add {σ n fs rest outs σ'} : Acts P catching (σ.add n fs) rest outs σ' → Acts P catching σ (.add n fs :: rest) outs σ'
  | remove {σ n rest outs σ'} : Acts P catching (σ.remove n) rest outs σ' → Acts P catching σ (.remove n :: rest) outs σ'
  | clear {σ rest outs σ'} : Acts P catching σ.clear rest outs σ' → Acts P catching σ (.clear :: rest) outs σ'
  | setLexer {σ l rest outs σ'} : Acts P catching { σ with reads := ReadsWith l } rest outs σ' →
      Acts P catching σ (.setLexer l :: rest) outs σ'
  | exec {σ req σ1 o rest outs σ'} : Performs P catching σ req σ1 o → Acts P catching σ1 rest outs σ' →
      Acts P catching σ (.exec req :: rest) (o :: outs) σ'
  | setUser {σ w rest outs σ'} : Acts P catching { σ with user := w } rest outs σ' → Acts P catching σ (.setUser w :: rest) outs σ'

/-- What the syntax says about a text that fits in memory. -/
def ReadsAs (d : Delims) (t : Bytes) : Except Bytes Input → Prop
  | .ok i => t.length < 2 ^ 64 - 1 ∧ Accepts d t i
  | .error m => t.length < 2 ^ 64 - 1 ∧ Rejects d t m

/-- The beginning: no commands, and the lines of the syntax with the delimiters `d`. -/
def Scene.start (d : Delims) (w : W) : Scene W C D := ⟨fun _ => none, 0, w, ReadsAs d, []⟩

/-- A lexer for the texts that fit in memory. -/
def fitting (cfg : LexCfg) : Lexer := fun t => if t.length < 2 ^ 64 - 1 then lexRead cfg t else .diverge

/-- What there is after a run agrees with the scene. The function objects that have been destroyed are those that were made and
belong to no command any more. -/
structure Shows {S : Type} (ops : RegOps S C D) (s : Sys S W C D) (σ : Scene W C D) : Prop where
  user : s.user = σ.user
  commands : ∀ name, bindingsGet ops s name = .ok ((σ.commands name).map (fun fs => ⟨name, fs⟩))
  made : s.next = σ.made
  changes : s.history = σ.changes
  destroyed : ∀ id, id ∈ s.freed ↔ id < σ.made ∧ ∀ f, σ.Has f → f.id ≠ id

end Spec
end Coil
