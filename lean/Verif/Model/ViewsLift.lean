import Verif.Model.Views

/-!
# Functions on texts as functions on views

Every function on texts can be written with views: it keeps the texts it makes in buffers of its own.
-/

namespace Coil
namespace Vw

variable {W C D R : Type}

/-- Look at several views. -/
def readsThen : List Ref → (List Bytes → VProg W C D R) → VProg W C D R
  | [], k => k []
  | r :: rs, k => .read r fun t => readsThen rs fun ts => k (t :: ts)

/-- Look at positional arguments. -/
def readValuesThen : List (GValue Ref) → (List Value → VProg W C D R) → VProg W C D R
  | [], k => k []
  | v :: vs, k => readsThen v.subvalues fun ts => readValuesThen vs fun xs => k (⟨ts⟩ :: xs)

/-- Look at named arguments. -/
def readNamedThen : List (GNamed Ref) → (List Named → VProg W C D R) → VProg W C D R
  | [], k => k []
  | v :: vs, k => .read v.key fun t => readsThen v.value.subvalues fun ts => readNamedThen vs fun xs => k (⟨t, ⟨ts⟩⟩ :: xs)

/-- Look at a command. -/
def readInputThen (i : GInput Ref) (k : Input → VProg W C D R) : VProg W C D R :=
  .read i.name fun n => readValuesThen i.arguments fun a => readNamedThen i.namedArguments fun na => k ⟨n, a, na⟩

/-- Make a text. -/
def makeThen (t : Bytes) (k : Ref → VProg W C D R) : VProg W C D R := .make t fun b => k ⟨b, 0, t.length⟩

/-- Make several texts. -/
def makesThen : List Bytes → (List Ref → VProg W C D R) → VProg W C D R
  | [], k => k []
  | t :: ts, k => makeThen t fun r => makesThen ts fun rs => k (r :: rs)

/-- Make positional arguments. -/
def makeValuesThen : List Value → (List (GValue Ref) → VProg W C D R) → VProg W C D R
  | [], k => k []
  | v :: vs, k => makesThen v.subvalues fun rs => makeValuesThen vs fun xs => k (⟨rs⟩ :: xs)

/-- Make a named argument. -/
def makeOneThen (v : Named) (k : GNamed Ref → VProg W C D R) : VProg W C D R :=
  makeThen v.key fun r => makesThen v.value.subvalues fun rs => k ⟨r, ⟨rs⟩⟩

/-- Make named arguments. -/
def makeNamedThen : List Named → (List (GNamed Ref) → VProg W C D R) → VProg W C D R
  | [], k => k []
  | v :: vs, k => makeOneThen v fun x => makeNamedThen vs fun xs => k (x :: xs)

/-- Make a command. -/
def makeInputThen (i : Input) (k : GInput Ref → VProg W C D R) : VProg W C D R :=
  makeThen i.name fun n => makeValuesThen i.arguments fun a => makeNamedThen i.namedArguments fun na => k ⟨n, a, na⟩

/-- What `execute` gave, after looking at the views in it. -/
def outThen (o : VOut) (k : ExecOut → VProg W C D R) : VProg W C D R :=
  match o with
  | .error e => k (.error e)
  | .ok v => readInputThen v.input fun i => k (.ok ⟨i, v.errors, v.returnValue, v.output⟩)

/-- A body on texts, written with views. A command line is put into a new string, which is destroyed after the execution. -/
def lift : Prog W C D R → VProg W C D R
  | .ret r => .ret r
  | .throw e => .throw e
  | .ub w => .ub w
  | .diverge => .diverge
  | .log t k => .log t (lift k)
  | .logline t k => .logline t (lift k)
  | .reportError t k => .reportError t (lift k)
  | .hasErrors k => .hasErrors fun b => lift (k b)
  | .named k => .named fun l => readNamedThen l fun l' => lift (k l')
  | .setNamed i v k => makeOneThen v fun x => .setNamed i x (lift k)
  | .get k => .get fun w => lift (k w)
  | .set w k => .set w (lift k)
  | .captured k => .captured fun d => lift (k d)
  | .add n fs k => .add n fs (lift k)
  | .remove n k => .remove n (lift k)
  | .clear k => .clear (lift k)
  | .execLine t k => .make t fun b => .execLine ⟨b, 0, t.length⟩ fun o => outThen o fun o' => .free b (lift (k o'))
  | .execInput i k => makeInputThen i fun x => .execInput x fun o => outThen o fun o' => lift (k o')

/-- A function object on texts, written with views. -/
def liftDef (d : FunctorDef W C D) : VDef W C D where
  params := d.params.map VParam.owned
  R := d.R
  print := d.print.map fun f _ r => .ok (f r)
  body a := lift (d.body (go d.params a))
where
  go : (ps : List Param) → VArgs (ps.map VParam.owned) → Args ps
    | [], _ => ()
    | _ :: ps, (x, xs) => (x, go ps xs)

end Vw
end Coil
