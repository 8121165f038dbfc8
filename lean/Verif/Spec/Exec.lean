import Verif.Model.Exec

/-!
# What executing a command means

User functions are described by what they do: the calls they make to their context, in order (`CtxEvent`), how
they end, and what they leave the program in (`Runs`). The execution context of the library does not occur here. Only the
statement forms of user functions (`Prog`) and the registry operations they can call are taken from the model.
-/

namespace Coil
namespace Spec

/-- A call to the context. -/
inductive CtxEvent where
  | log (s : Bytes)
  | logline (s : Bytes)
  | error (s : Bytes)
  | setNamed (i : Nat) (v : Named)
  deriving DecidableEq, Repr

/-- The logged text of a call. -/
def CtxEvent.text : CtxEvent → Bytes
  | .log s => s
  | .logline s => s ++ lit "\n"
  | _ => []

/-- The texts logged by a list of calls, one after the other. -/
def outputOf (es : List CtxEvent) : Bytes := (es.map CtxEvent.text).flatten

/-- The errors reported by a list of calls. -/
def errorsOf : List CtxEvent → List Bytes
  | [] => []
  | .error s :: es => s :: errorsOf es
  | _ :: es => errorsOf es

/-- The named arguments after the assignments made by a list of calls. -/
def namedAfter (l : List Named) : List CtxEvent → List Named
  | [] => l
  | .setNamed i v :: es => namedAfter (l.set i v) es
  | _ :: es => namedAfter l es

variable {S W C D R : Type}

/-- `Runs ops ne self l past p s es e s'`: the user function body `p` of the function object `self`, started in the program `s` after the
calls `past` with the original named arguments `l`, makes the calls `es`, ends with `e` and leaves the program in `s'`. -/
inductive Runs (ops : RegOps S C D) (ne : Nested S W C D) (self : Inst C D) (l : List Named) :
    List CtxEvent → Prog W C D R → Sys S W C D → List CtxEvent → End R → Sys S W C D → Prop
  | ret {past r s} : Runs ops ne self l past (.ret r) s [] (.ret r) s
  | throw {past e s} : Runs ops ne self l past (.throw e) s [] (.exn e) s
  | log {past t k s es e s'} : Runs ops ne self l (past ++ [.log t]) k s es e s' →
      Runs ops ne self l past (.log t k) s (.log t :: es) e s'
  | logline {past t k s es e s'} : Runs ops ne self l (past ++ [.logline t]) k s es e s' →
      Runs ops ne self l past (.logline t k) s (.logline t :: es) e s'
  | reportError {past t k s es e s'} : Runs ops ne self l (past ++ [.error t]) k s es e s' →
      Runs ops ne self l past (.reportError t k) s (.error t :: es) e s'
  | hasErrors {past k s es e s'} : Runs ops ne self l past (k (decide (errorsOf past ≠ []))) s es e s' →
      Runs ops ne self l past (.hasErrors k) s es e s'
  | named {past k s es e s'} : Runs ops ne self l past (k (namedAfter l past)) s es e s' →
      Runs ops ne self l past (.named k) s es e s'
  | setNamed {past i v k s es e s'} : i < l.length → Runs ops ne self l (past ++ [.setNamed i v]) k s es e s' →
      Runs ops ne self l past (.setNamed i v k) s (.setNamed i v :: es) e s'
  | get {past k s es e s'} : Runs ops ne self l past (k s.user) s es e s' →
      Runs ops ne self l past (.get k) s es e s'
  | set {past w k s es e s'} : Runs ops ne self l past k { s with user := w } es e s' →
      Runs ops ne self l past (.set w k) s es e s'
  | captured {past k s es e s'} : self.id ∉ s.freed → Runs ops ne self l past (k self.data) s es e s' →
      Runs ops ne self l past (.captured k) s es e s'
  | add {past n fs k s s1 es e s'} : bindingsAdd ops s n fs = .ok s1 → Runs ops ne self l past k s1 es e s' →
      Runs ops ne self l past (.add n fs k) s es e s'
  | remove {past n k s s1 es e s'} : bindingsRemove ops s n = .ok s1 → Runs ops ne self l past k s1 es e s' →
      Runs ops ne self l past (.remove n k) s es e s'
  | clear {past k s es e s'} : Runs ops ne self l past k (bindingsClear ops s) es e s' →
      Runs ops ne self l past (.clear k) s es e s'
  | execLine {past t k s s1 o es e s'} : ne.line s t = .ok (s1, o) → Runs ops ne self l past (k o) s1 es e s' →
      Runs ops ne self l past (.execLine t k) s es e s'
  | execInput {past i k s s1 o es e s'} : ne.input s i = .ok (s1, o) → Runs ops ne self l past (k o) s1 es e s' →
      Runs ops ne self l past (.execInput i k) s es e s'

/-- The command that a request stands for: a parsed command stands for itself, a command line for what the lexer makes
of it. -/
def Means (lexer : Option Lexer) : Request → Input → Prop
  | .line t, i => ∃ l, lexer = some l ∧ l t = .ok (.ok i)
  | .input j, i => j = i

/-- The arguments convert to the given values, one for each parameter. -/
def ConvertTo : (ps : List Param) → List Value → Args ps → Prop
  | [], [], _ => True
  | p :: ps, a :: as, (x, xs) => p.conv.fromString a = .ok (.ok x) ∧ ConvertTo ps as xs
  | _, _, _ => False

/-- Every conversion is defined (gives a value or an error) and there is one argument for each parameter. -/
def ConversionsDefined : List Param → List Value → Prop
  | [], [] => True
  | p :: ps, a :: as => (∃ r, p.conv.fromString a = .ok r) ∧ ConversionsDefined ps as
  | _, _ => False

/-- The errors of the arguments that do not convert, in order. -/
def conversionErrors : List Param → List Value → List Bytes
  | p :: ps, a :: as =>
    match p.conv.fromString a with
    | .ok (.error m) => m :: conversionErrors ps as
    | _ => conversionErrors ps as
  | _, _ => []

/-- A list of counts in words: "1", "1 or 2", "1, 2 or 3". -/
def countsInWords : List Nat → Bytes
  | [] => []
  | [a] => natDec a
  | [a, b] => natDec a ++ lit " or " ++ natDec b
  | a :: rest => natDec a ++ lit ", " ++ countsInWords rest

/-- `f` is the first function object with `n` parameters. -/
def FirstOfArity (P : C → FunctorDef W C D) (n : Nat) (fs : List (Inst C D)) (f : Inst C D) : Prop :=
  ∃ pre post, fs = pre ++ f :: post ∧ (P f.code).params.length = n ∧ ∀ g ∈ pre, (P g.code).params.length ≠ n

/-- The value of the first named argument with a key. -/
def FirstNamed (key : Bytes) (l : List Named) (v : Value) : Prop :=
  ∃ pre post, l = pre ++ ⟨key, v⟩ :: post ∧ ∀ nv ∈ pre, nv.key ≠ key

/-- No named argument has the key. -/
def NotNamed (key : Bytes) (l : List Named) : Prop := ∀ nv ∈ l, nv.key ≠ key

/-- The function body executes no commands itself. -/
def ExecutesNothing : Prog W C D R → Prop
  | .ret _ | .throw _ | .ub _ | .diverge => True
  | .log _ k | .logline _ k | .reportError _ k | .setNamed _ _ k | .set _ k | .add _ _ k | .remove _ k | .clear k =>
    ExecutesNothing k
  | .hasErrors k => ∀ b, ExecutesNothing (k b)
  | .named k => ∀ l, ExecutesNothing (k l)
  | .get k => ∀ w, ExecutesNothing (k w)
  | .captured k => ∀ d, ExecutesNothing (k d)
  | .execLine _ _ | .execInput _ _ => False

/-- The text of an exception error. -/
def exceptionText : Exn → Bytes
  | .std what => lit "Exception caught during execution: " ++ what
  | .other => lit "Exception caught during execution"

end Spec
end Coil
