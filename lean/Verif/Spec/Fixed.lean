import Verif.Spec.Semantics
import Verif.Spec.Encapsulation

/-!
# Programs with fixed commands

Most programs register their commands once and then execute what the user enters, with functions that do not touch the registry. Such a
program is told here without any registry: a table of commands, a state, and a conversation.
-/

namespace Coil.Spec

variable {W C D : Type}

/-- One command of the table: its name and its functions, each with the data it captured. -/
abbrev Table (C D : Type) := List (Bytes × List (C × D))

/-- The functions of a name: those of the last command with the name. -/
def Table.functions : Table C D → Bytes → Option (List (C × D))
  | [], _ => none
  | (m, fs) :: rest, n =>
    match Table.functions rest n with
    | some gs => some gs
    | none => if m = n then some fs else none

/-- A function body that leaves the registry alone and executes no commands. -/
inductive Quiet {R : Type} : Prog W C D R → Prop
  | ret {r} : Quiet (.ret r)
  | throw {e} : Quiet (.throw e)
  | ub {u} : Quiet (.ub u)
  | diverge : Quiet .diverge
  | log {t k} : Quiet k → Quiet (.log t k)
  | logline {t k} : Quiet k → Quiet (.logline t k)
  | reportError {t k} : Quiet k → Quiet (.reportError t k)
  | hasErrors {k} : (∀ b, Quiet (k b)) → Quiet (.hasErrors k)
  | named {k} : (∀ l, Quiet (k l)) → Quiet (.named k)
  | setNamed {i v k} : Quiet k → Quiet (.setNamed i v k)
  | get {k} : (∀ w, Quiet (k w)) → Quiet (.get k)
  | set {w k} : Quiet k → Quiet (.set w k)
  | captured {k} : (∀ d, Quiet (k d)) → Quiet (.captured k)

/-- `Says x l past p w es e w'`: the body `p` of a function with the captured data `x`, started with the state `w` after the calls `past`, with the
original named arguments `l`, makes the calls `es`, ends with `e` and leaves the state `w'`. -/
inductive Says {R : Type} (x : D) (l : List Named) : List CtxEvent → Prog W C D R → W → List CtxEvent → End R → W → Prop
  | ret {past r w} : Says x l past (.ret r) w [] (.ret r) w
  | throw {past e w} : Says x l past (.throw e) w [] (.exn e) w
  | log {past t k w es e w'} : Says x l (past ++ [.log t]) k w es e w' → Says x l past (.log t k) w (.log t :: es) e w'
  | logline {past t k w es e w'} : Says x l (past ++ [.logline t]) k w es e w' → Says x l past (.logline t k) w (.logline t :: es) e w'
  | reportError {past t k w es e w'} : Says x l (past ++ [.error t]) k w es e w' → Says x l past (.reportError t k) w (.error t :: es) e w'
  | hasErrors {past k w es e w'} : Says x l past (k (decide (errorsOf past ≠ []))) w es e w' → Says x l past (.hasErrors k) w es e w'
  | named {past k w es e w'} : Says x l past (k (namedAfter l past)) w es e w' → Says x l past (.named k) w es e w'
  | setNamed {past i v k w es e w'} : i < l.length → Says x l (past ++ [.setNamed i v]) k w es e w' →
      Says x l past (.setNamed i v k) w (.setNamed i v :: es) e w'
  | get {past k w es e w'} : Says x l past (k w) w es e w' → Says x l past (.get k) w es e w'
  | set {past v k w es e w'} : Says x l past k v es e w' → Says x l past (.set v k) w es e w'
  | captured {past k w es e w'} : Says x l past (k x) w es e w' → Says x l past (.captured k) w es e w'

/-- The first function that takes `n` arguments. -/
def FirstTaking (P : C → FunctorDef W C D) (n : Nat) (fs : List (C × D)) (f : C × D) : Prop :=
  ∃ before after, fs = before ++ f :: after ∧ (P f.1).params.length = n ∧ ∀ g ∈ before, (P g.1).params.length ≠ n

/-- The result after the calls `es`, without a return value. -/
def resultAfter (i : Input) (es : List CtxEvent) : ExecResult :=
  ⟨{ i with namedArguments := namedAfter i.namedArguments es }, errorsOf es, none, outputOf es⟩

/-- `Replies P catching T w i w' out`: with the table `T` and the state `w`, the command `i` gives `out` and leaves the state `w'`. -/
inductive Replies (P : C → FunctorDef W C D) (catching : Bool) (T : Table C D) (w : W) (i : Input) : W → ExecOut → Prop
  | noName : i.name = [] → Replies P catching T w i w (.ok ⟨i, [lit "No function name is specified"], none, []⟩)
  | unknown : i.name ≠ [] → T.functions i.name = none →
      Replies P catching T w i w (.ok ⟨i, [lit "No function '" ++ upToNul i.name ++ lit "' is registered"], none, []⟩)
  | count {fs} : i.name ≠ [] → T.functions i.name = some fs → (∀ f ∈ fs, (P f.1).params.length ≠ i.arguments.length) →
      Replies P catching T w i w (.ok ⟨i, [lit "Wrong number of arguments to '" ++ upToNul i.name ++ lit "': expected " ++
        countsInWords (fs.map (fun f => (P f.1).params.length)) ++ lit ", got " ++ natDec i.arguments.length], none, []⟩)
  | mismatch {fs f} : i.name ≠ [] → T.functions i.name = some fs → FirstTaking P i.arguments.length fs f →
      ConversionsDefined (P f.1).params i.arguments → conversionErrors (P f.1).params i.arguments ≠ [] →
      Replies P catching T w i w (.ok ⟨i, conversionErrors (P f.1).params i.arguments, none, []⟩)
  | returned {fs f xs es r w'} : i.name ≠ [] → T.functions i.name = some fs → FirstTaking P i.arguments.length fs f →
      ConvertTo (P f.1).params i.arguments xs → Says f.2 i.namedArguments [] ((P f.1).body xs) w es (.ret r) w' →
      Replies P catching T w i w' (.ok { resultAfter i es with
        returnValue := if errorsOf es = [] then (P f.1).print.map (fun p => p r) else none })
  | thrown {fs f xs es e w'} : i.name ≠ [] → T.functions i.name = some fs → FirstTaking P i.arguments.length fs f →
      ConvertTo (P f.1).params i.arguments xs → Says f.2 i.namedArguments [] ((P f.1).body xs) w es (.exn e) w' →
      Replies P catching T w i w' (if catching then .ok { resultAfter i es with errors := errorsOf es ++ [exceptionError e] } else .error e)

/-- `Talk P catching T d w reqs outs w'`: a conversation: from the state `w`, the requests give the results `outs` and lead to the state `w'`. -/
inductive Talk (P : C → FunctorDef W C D) (catching : Bool) (T : Table C D) (d : Delims) : W → List Request → List ExecOut → W → Prop
  | nil {w} : Talk P catching T d w [] [] w
  | wrong {w t m rest outs w'} : ReadsAs d t (.error m) → Talk P catching T d w rest outs w' →
      Talk P catching T d w (.line t :: rest) (.ok ⟨⟨[], [], []⟩, [lit "Syntax error: " ++ m], none, []⟩ :: outs) w'
  | line {w t i w1 out rest outs w'} : ReadsAs d t (.ok i) → Replies P catching T w i w1 out → Talk P catching T d w1 rest outs w' →
      Talk P catching T d w (.line t :: rest) (out :: outs) w'
  | input {w i w1 out rest outs w'} : Replies P catching T w i w1 out → Talk P catching T d w1 rest outs w' →
      Talk P catching T d w (.input i :: rest) (out :: outs) w'

/-- The actions of such a program: it registers the table, then executes the requests. -/
def fixedProgram (T : Table C D) (reqs : List Request) : List (Action W C D) :=
  T.map (fun c => .add c.1 c.2) ++ reqs.map .exec

/-- All functions of the program are quiet. -/
def AllQuiet (P : C → FunctorDef W C D) : Prop := ∀ c xs, Quiet ((P c).body xs)

/-- A body that always comes to an end. -/
def Ends {R : Type} (x : D) (p : Prog W C D R) : Prop := ∀ l w, ∃ es e w', Says x l [] p w es e w'

/-- All conversions of the table are defined for all values, and all functions come to an end. -/
def TotalTable (P : C → FunctorDef W C D) (T : Table C D) : Prop :=
  ∀ c ∈ T, ∀ f ∈ c.2, (∀ p ∈ (P f.1).params, ∀ v, ∃ r, p.conv.fromString v = .ok r) ∧ ∀ xs, Ends f.2 ((P f.1).body xs)

end Coil.Spec
