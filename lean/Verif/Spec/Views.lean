import Verif.Model.Views

/-!
# When views may be treated as texts

`Sim` says when a user function on views is a function on texts: it reads only what it may read, and it leaves alone the buffers that existed
when it was called. It may make buffers of its own, execute commands in them, and destroy them.
-/

namespace Coil
namespace Vw
namespace Spec

variable {S W W' C D : Type}

/-- The buffer holds this text. -/
def Holds (m : Mem) (b : Nat) (t : Bytes) : Prop := m[b]? = some (some t)

/-- The buffers of `m` are in `m'` as they were. -/
def Keeps (m m' : Mem) : Prop := ∀ b t, Holds m b t → Holds m' b t

/-- The view lies in the range of another. -/
def Within (r outer : Ref) : Prop := r.buf = outer.buf ∧ outer.off ≤ r.off ∧ r.off + r.len ≤ outer.off + outer.len

/-- The views of a command. -/
def viewsOf (i : GInput Ref) : List Ref :=
  i.name :: (i.arguments.flatMap (·.subvalues) ++ i.namedArguments.flatMap (fun n => n.key :: n.value.subvalues))

/-- A result on views is a result on texts: the command reads as the text, the rest is the same. -/
def ResultIs (m : Mem) (v : VResult) (r : ExecResult) : Prop :=
  m.readInput v.input = .ok r.input ∧ v.errors = r.errors ∧ v.returnValue = r.returnValue ∧ v.output = r.output

/-- The same for what `execute` gives. -/
inductive OutIs (m : Mem) : VOut → ExecOut → Prop
  | exn (e : Exn) : OutIs m (.error e) (.error e)
  | ok {v r} : ResultIs m v r → OutIs m (.ok v) (.ok r)

/-- The state of the program is the same on views and on texts. -/
def SameState : Mem → W → W → Prop := fun _ w w' => w = w'

/-- A relation between states on views and states on texts that lasts as long as the buffers are in place. -/
def Lasting (I : Mem → W → W' → Prop) : Prop := ∀ m m' w w', Keeps m m' → I m w w' → I m' w w'

/-- The states of two programs are the same, up to the state of the user functions. -/
structure SysIs (I : Mem → W → W' → Prop) (m : Mem) (s : Sys S W C D) (s' : Sys S W' C D) : Prop where
  user : I m s.user s'.user
  reg : s.reg = s'.reg
  lexer : s.lexer = s'.lexer
  freed : s.freed = s'.freed
  next : s.next = s'.next
  calls : s.calls = s'.calls
  history : s.history = s'.history

/-- `Sim I ret base m v p`: in the memory `m`, the function body `v` on views does what the body `p` on texts does. The buffers of `base` are not
touched: they belong to the callers, or hold texts that were assigned to named arguments. `I` relates the states of the user functions, which
may contain views on the side of `v`; `ret` relates the returned values. -/
inductive Sim (I : Mem → W → W' → Prop) {R R' : Type} (ret : Mem → R → R' → Prop) : Mem → Mem → VProg W C D R → Prog W' C D R' → Prop
  | ret {base m r r'} : ret m r r' → Sim I ret base m (.ret r) (.ret r')
  | throw {base m} (e) : Sim I ret base m (.throw e) (.throw e)
  | ub {base m v} (w) : Sim I ret base m v (.ub w)
  | diverge {base m} : Sim I ret base m .diverge .diverge
  | log {base m k k'} (t) : Sim I ret base m k k' → Sim I ret base m (.log t k) (.log t k')
  | logline {base m k k'} (t) : Sim I ret base m k k' → Sim I ret base m (.logline t k) (.logline t k')
  | reportError {base m k k'} (t) : Sim I ret base m k k' → Sim I ret base m (.reportError t k) (.reportError t k')
  | hasErrors {base m k k'} : (∀ b, Sim I ret base m (k b) (k' b)) → Sim I ret base m (.hasErrors k) (.hasErrors k')
  | named {base m k k'} : (∀ l l', base.readNamed l = .ok l' → Sim I ret base m (k l) (k' l')) → Sim I ret base m (.named k) (.named k')
  | setNamed {base base' m v v' k k'} (i) : Keeps base base' → Keeps base' m → base'.readOne v = .ok v' → Sim I ret base' m k k' →
      Sim I ret base m (.setNamed i v k) (.setNamed i v' k')
  | get {base m k k'} : (∀ w w', I m w w' → Sim I ret base m (k w) (k' w')) → Sim I ret base m (.get k) (.get k')
  | set {base m k k' w w'} : I m w w' → Sim I ret base m k k' → Sim I ret base m (.set w k) (.set w' k')
  | captured {base m k k'} : (∀ d, Sim I ret base m (k d) (k' d)) → Sim I ret base m (.captured k) (.captured k')
  | add {base m k k'} (n fs) : Sim I ret base m k k' → Sim I ret base m (.add n fs k) (.add n fs k')
  | remove {base m k k'} (n) : Sim I ret base m k k' → Sim I ret base m (.remove n k) (.remove n k')
  | clear {base m k k'} : Sim I ret base m k k' → Sim I ret base m (.clear k) (.clear k')
  | execLine {base m r t k k'} : m.read r = .ok t → (∀ m' o o', Keeps m m' → OutIs m' o o' → Sim I ret base m' (k o) (k' o')) →
      Sim I ret base m (.execLine r k) (.execLine t k')
  | execInput {base m i i' k k'} : m.readInput i = .ok i' → (∀ m' o o', Keeps m m' → OutIs m' o o' → Sim I ret base m' (k o) (k' o')) →
      Sim I ret base m (.execInput i k) (.execInput i' k')
  | make {base m k p} (t) : Sim I ret base (m.make t) (k m.length) p → Sim I ret base m (.make t k) p
  | write {base m m' k p} (b t) : (∀ t', ¬ Holds base b t') → m.write b t = .ok m' → (∀ w w', I m w w' → I m' w w') → Sim I ret base m' k p →
      Sim I ret base m (.write b t k) p
  | free {base m m' k p} (b) : (∀ t', ¬ Holds base b t') → m.free b = .ok m' → (∀ w w', I m w w' → I m' w w') → Sim I ret base m' k p →
      Sim I ret base m (.free b k) p
  | read {base m r t k p} : m.read r = .ok t → Sim I ret base m (k t) p → Sim I ret base m (.read r k) p

/-- A parameter on views is a parameter on texts; `same` relates their values. -/
def ParamIs (v : VParam) (p : Param) (same : Mem → v.T → p.T → Prop) : Prop :=
  ∀ m a a', m.readValue a = .ok a' →
    (p.conv.fromString a' = .diverge → v.fromString m a = .diverge) ∧
    (∀ x, p.conv.fromString a' = .ok (.error x) → v.fromString m a = .ok (.error x)) ∧
    ∀ x', p.conv.fromString a' = .ok (.ok x') → ∃ x, v.fromString m a = .ok (.ok x) ∧ same m x x'

/-- Parameter lists, with the relation between their values. -/
inductive ParamsAre : (vs : List VParam) → (ps : List Param) → (Mem → VArgs vs → Args ps → Prop) → Prop
  | nil : ParamsAre [] [] (fun _ _ _ => True)
  | cons {v p same vs ps sames} : ParamIs v p same → ParamsAre vs ps sames →
      ParamsAre (v :: vs) (p :: ps) (fun m a b => same m a.1 b.1 ∧ sames m a.2 b.2)

/-- The text of the returned value. -/
def PrintsAs (v : VDef W C D) (p : FunctorDef W' C D) (m : Mem) (r : v.R) (r' : p.R) : Prop := vtext v m r = .ok (textOf p r')

/-- A function object on views is one on texts, if the states are related by `I`. -/
def DefUnder (I : Mem → W → W' → Prop) (v : VDef W C D) (p : FunctorDef W' C D) : Prop :=
  ∃ sames, ParamsAre v.params p.params sames ∧
    ∀ m a b, sames m a b → Sim I (PrintsAs v p) m m (v.body a) (p.body b)

/-- A function object on views is one on texts; it keeps no views. -/
def DefIs (v : VDef W C D) (p : FunctorDef W C D) : Prop := DefUnder SameState v p

/-- A lexer whose results are views, as a lexer whose results are texts. -/
def textLexer (lex : VLexer) : Lexer := fun t => do
  match ← lex t with
  | .error e => .ok (.error e)
  | .ok i => do
    let x ← i.read t
    .ok (.ok x)

/-- The body does not assign to named arguments. -/
def LeavesNamed {R : Type} : VProg W C D R → Prop
  | .ret _ | .throw _ | .ub _ | .diverge => True
  | .log _ k | .logline _ k | .reportError _ k | .set _ k | .add _ _ k | .remove _ k | .clear k | .write _ _ k | .free _ k => LeavesNamed k
  | .setNamed _ _ _ => False
  | .hasErrors k => ∀ b, LeavesNamed (k b)
  | .named k => ∀ l, LeavesNamed (k l)
  | .get k => ∀ w, LeavesNamed (k w)
  | .captured k => ∀ d, LeavesNamed (k d)
  | .execLine _ k => ∀ o, LeavesNamed (k o)
  | .execInput _ k => ∀ o, LeavesNamed (k o)
  | .make _ k => ∀ b, LeavesNamed (k b)
  | .read _ k => ∀ t, LeavesNamed (k t)

end Spec
end Vw
end Coil
