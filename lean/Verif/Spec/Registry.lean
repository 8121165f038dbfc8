import Verif.Spec.Exec
import Verif.Spec.Dict
import Verif.Model.Registry

/-!
# What the registry of commands is

The changes of the registry made so far are a list of events. Which functions a name stands for is read off that list.
-/

namespace Coil
namespace Spec

variable {S W C D R : Type}

/-- The event changes what the name stands for. -/
def Touches (name : Bytes) : RegEvent C D → Prop
  | .added n _ => n = name
  | .removed n => n = name
  | .cleared => True

/-- The functions of the last `add` of the name that was not followed by a `remove` of it or a `clear`. -/
def Registered (h : List (RegEvent C D)) (name : Bytes) (fs : List (Inst C D)) : Prop :=
  ∃ h1 h2, h = h1 ++ .added name fs :: h2 ∧ ∀ ev ∈ h2, ¬ Touches name ev

/-- An event as an operation on a dictionary from names to commands. -/
def asDictOp : RegEvent C D → DictOp Bytes (Command C D)
  | .added n fs => .put n ⟨n, fs⟩
  | .removed n => .erase n
  | .cleared => .clear

/-- A history that the hash map as it is handles correctly (see `SafeFrom`). -/
def SafeHistory (h : List (RegEvent C D)) : Prop := SafeFrom .calm [] (h.map asDictOp)

/-- A new command is added, or the registry cleared, between any two removals (of registered commands). -/
def SpacedHistory (h : List (RegEvent C D)) : Prop := Spaced false (fun _ => none) (h.map asDictOp)

/-- `StepsTo`: the user function body `p` of `self`, started in the program `s` after the calls `past` with the original named arguments `l`,
has made some steps and now has `p'` left to do in the program `s'`, after the calls `past'`. -/
inductive StepsTo (ops : RegOps S C D) (ne : Nested S W C D) (self : Inst C D) (l : List Named) :
    List CtxEvent → Prog W C D R → Sys S W C D → List CtxEvent → Prog W C D R → Sys S W C D → Prop
  | here {past p s} : StepsTo ops ne self l past p s past p s
  | log {past t k s past' p' s'} : StepsTo ops ne self l (past ++ [.log t]) k s past' p' s' →
      StepsTo ops ne self l past (.log t k) s past' p' s'
  | logline {past t k s past' p' s'} : StepsTo ops ne self l (past ++ [.logline t]) k s past' p' s' →
      StepsTo ops ne self l past (.logline t k) s past' p' s'
  | reportError {past t k s past' p' s'} : StepsTo ops ne self l (past ++ [.error t]) k s past' p' s' →
      StepsTo ops ne self l past (.reportError t k) s past' p' s'
  | hasErrors {past k s past' p' s'} :
      StepsTo ops ne self l past (k (decide (errorsOf past ≠ []))) s past' p' s' →
      StepsTo ops ne self l past (.hasErrors k) s past' p' s'
  | named {past k s past' p' s'} : StepsTo ops ne self l past (k (namedAfter l past)) s past' p' s' →
      StepsTo ops ne self l past (.named k) s past' p' s'
  | setNamed {past i v k s past' p' s'} : i < l.length →
      StepsTo ops ne self l (past ++ [.setNamed i v]) k s past' p' s' →
      StepsTo ops ne self l past (.setNamed i v k) s past' p' s'
  | get {past k s past' p' s'} : StepsTo ops ne self l past (k s.user) s past' p' s' →
      StepsTo ops ne self l past (.get k) s past' p' s'
  | set {past w k s past' p' s'} : StepsTo ops ne self l past k { s with user := w } past' p' s' →
      StepsTo ops ne self l past (.set w k) s past' p' s'
  | captured {past k s past' p' s'} : self.id ∉ s.freed → StepsTo ops ne self l past (k self.data) s past' p' s' →
      StepsTo ops ne self l past (.captured k) s past' p' s'
  | add {past n fs k s s1 past' p' s'} : bindingsAdd ops s n fs = .ok s1 →
      StepsTo ops ne self l past k s1 past' p' s' → StepsTo ops ne self l past (.add n fs k) s past' p' s'
  | remove {past n k s s1 past' p' s'} : bindingsRemove ops s n = .ok s1 →
      StepsTo ops ne self l past k s1 past' p' s' → StepsTo ops ne self l past (.remove n k) s past' p' s'
  | clear {past k s past' p' s'} : StepsTo ops ne self l past k (bindingsClear ops s) past' p' s' →
      StepsTo ops ne self l past (.clear k) s past' p' s'
  | execLine {past t k s s1 o past' p' s'} : ne.line s t = .ok (s1, o) →
      StepsTo ops ne self l past (k o) s1 past' p' s' → StepsTo ops ne self l past (.execLine t k) s past' p' s'
  | execInput {past i k s s1 o past' p' s'} : ne.input s i = .ok (s1, o) →
      StepsTo ops ne self l past (k o) s1 past' p' s' → StepsTo ops ne self l past (.execInput i k) s past' p' s'

/-- A function body that does not change the registry. -/
def KeepsRegistry : Prog W C D R → Prop
  | .ret _ => True
  | .throw _ => True
  | .ub _ => True
  | .diverge => True
  | .log _ k => KeepsRegistry k
  | .logline _ k => KeepsRegistry k
  | .reportError _ k => KeepsRegistry k
  | .hasErrors k => ∀ b, KeepsRegistry (k b)
  | .named k => ∀ l, KeepsRegistry (k l)
  | .setNamed _ _ k => KeepsRegistry k
  | .get k => ∀ w, KeepsRegistry (k w)
  | .set _ k => KeepsRegistry k
  | .captured k => ∀ d, KeepsRegistry (k d)
  | .add _ _ _ => False
  | .remove _ _ => False
  | .clear _ => False
  | .execLine _ k => ∀ o, KeepsRegistry (k o)
  | .execInput _ k => ∀ o, KeepsRegistry (k o)

/-- An action of the surrounding program concerns the name. -/
def Action.Touches (name : Bytes) : Action W C D → Prop
  | .add n _ => n = name
  | .remove n => n = name
  | .clear => True
  | _ => False

/-- The functions of the last `add` of the name among the actions of the surrounding program that was not followed
by a `remove` of it or a `clear`. -/
def LastAdded (acts : List (Action W C D)) (name : Bytes) (fs : List (C × D)) : Prop :=
  ∃ a1 a2, acts = a1 ++ .add name fs :: a2 ∧ ∀ a ∈ a2, ¬ Action.Touches name a

end Spec
end Coil
