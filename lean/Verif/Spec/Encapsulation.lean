import Verif.Model.Encapsulation
import Verif.Spec.Semantics
import Verif.Spec.Conv

/-!
# Specification of the subsystem

What the user of the program sees: there is a subsystem or there is none, and its commands can be used or not. There are no objects, no
addresses and no registry.
-/

namespace Coil.Spec

/-- The values of a subsystem. -/
structure Part where
  time : Fl
  counter : Int
  data : Bytes
  deriving DecidableEq

/-- The subsystem, if there is one, and whether its commands can be used. -/
structure Stage where
  part : Option Part
  usable : Bool
  deriving DecidableEq

/-- The first stage: nothing. -/
def Stage.empty : Stage := ⟨none, false⟩

/-- A new subsystem: 3.14f is 13170115 / 2^22. -/
def Part.fresh : Part := ⟨.fin false 13170115 (-22), 7, lit "Something"⟩

/-- The four commands of a subsystem. -/
def subsystemNames : List Bytes := [lit "subsystem.time", lit "subsystem.counter", lit "subsystem.data", lit "subsystem.do_some_work"]

/-- `Accepted pl tiny σ i σ' r`: at the stage `σ` the command `i` is carried out, which leads to the stage `σ'`; `r` is the return value. -/
inductive Accepted (pl : Platform) (tiny : Nat → Nat → Bool) (σ : Stage) : Input → Stage → Option Bytes → Prop
  /-- a new subsystem takes the place of the old one; its commands can be used if there was no old one -/
  | create {named} : Accepted pl tiny σ ⟨lit "create_subsystem", [], named⟩ ⟨some Part.fresh, σ.part.isNone⟩ none
  | destroy {named} : Accepted pl tiny σ ⟨lit "destroy_subsystem", [], named⟩ Stage.empty none
  | time {named p} : σ = ⟨some p, true⟩ →
      Accepted pl tiny σ ⟨lit "subsystem.time", [], named⟩ σ (some ((singleConv tiny).toString p.time))
  | setTime {named p v x} : σ = ⟨some p, true⟩ → (singleConv tiny).fromString v = .ok (.ok x) →
      Accepted pl tiny σ ⟨lit "subsystem.time", [v], named⟩ ⟨some { p with time := x }, true⟩ (some ((singleConv tiny).toString x))
  | counter {named p} : σ = ⟨some p, true⟩ →
      Accepted pl tiny σ ⟨lit "subsystem.counter", [], named⟩ σ (some (intDec p.counter))
  | setCounter {named p t z} : σ = ⟨some p, true⟩ → Numeral t z → InRange pl .int z →
      Accepted pl tiny σ ⟨lit "subsystem.counter", [⟨[t]⟩], named⟩ ⟨some { p with counter := z }, true⟩ (some (intDec z))
  | data {named p} : σ = ⟨some p, true⟩ →
      Accepted pl tiny σ ⟨lit "subsystem.data", [], named⟩ σ (some p.data)
  | setData {named p t} : σ = ⟨some p, true⟩ →
      Accepted pl tiny σ ⟨lit "subsystem.data", [⟨[t]⟩], named⟩ ⟨some { p with data := t }, true⟩ (some t)
  | work {named p s t z} : σ = ⟨some p, true⟩ → Numeral t z → InRange pl .int z →
      Accepted pl tiny σ ⟨lit "subsystem.do_some_work", [⟨[s]⟩, ⟨[t]⟩], named⟩ σ (some (p.data ++ lit ": " ++ s ++ intDec z))

/-- The errors for a command that is not carried out: unknown at this stage, given with a wrong number of arguments, or with arguments that do
not convert. Only for the first kind the text is told here; for all kinds it is told in Spec/RefusalEncapsulation.lean. -/
def TurnedDown (σ : Stage) (i : Input) (errors : List Bytes) : Prop :=
  errors ≠ [] ∧ (i.name = [] → errors = [lit "No function name is specified"]) ∧
    (i.name ≠ [] → i.name ≠ lit "create_subsystem" → i.name ≠ lit "destroy_subsystem" → (i.name ∈ subsystemNames → σ.usable = false) →
      errors = [lit "No function '" ++ upToNul i.name ++ lit "' is registered"])

/-- What becomes of one command. -/
def Effect (pl : Platform) (tiny : Nat → Nat → Bool) (σ : Stage) (i : Input) (σ' : Stage) (out : ExecOut) : Prop :=
  ∃ r, out = .ok r ∧ r.input = i ∧ r.output = [] ∧
    ((Accepted pl tiny σ i σ' r.returnValue ∧ r.errors = []) ∨
      ((¬ ∃ σ1 v, Accepted pl tiny σ i σ1 v) ∧ σ' = σ ∧ r.returnValue = none ∧ TurnedDown σ i r.errors))

/-- `Story d pl tiny σ reqs outs σ'`: from the stage `σ` the requests `reqs` lead to the results `outs` and the stage `σ'`. -/
inductive Story (d : Delims) (pl : Platform) (tiny : Nat → Nat → Bool) : Stage → List Request → List ExecOut → Stage → Prop
  | nil {σ} : Story d pl tiny σ [] [] σ
  /-- a line that is no command -/
  | wrong {σ t m rest outs σ'} : Rejects d t m → Story d pl tiny σ rest outs σ' →
      Story d pl tiny σ (.line t :: rest) (.ok ⟨⟨[], [], []⟩, [lit "Syntax error: " ++ m], none, []⟩ :: outs) σ'
  | line {σ t i σ1 out rest outs σ'} : Accepts d t i → Effect pl tiny σ i σ1 out → Story d pl tiny σ1 rest outs σ' →
      Story d pl tiny σ (.line t :: rest) (out :: outs) σ'
  | input {σ i σ1 out rest outs σ'} : Effect pl tiny σ i σ1 out → Story d pl tiny σ1 rest outs σ' →
      Story d pl tiny σ (.input i :: rest) (out :: outs) σ'

/-- A line fits in memory and has no part that is one lone quote, on which the lexer reads outside the line (C02). -/
def Enterable (d : Delims) : Request → Prop
  | .line t => t.length < 2 ^ 64 - 1 ∧ ¬ LoneQuoteCommand d t
  | .input _ => True

/-- The objects fit the stage: the variable points to the subsystem of the stage, and all other objects have been destroyed. -/
def Fitting (w : SubWorld) (σ : Stage) : Prop :=
  match w.current with
  | none => σ = Stage.empty ∧ ∀ o ∈ w.objects, o = none
  | some i => ∃ p, σ.part = some p ∧ w.objects[i]? = some (some ⟨p.time, p.counter, p.data, subsystemNames⟩) ∧
      ∀ j, j ≠ i → ∀ o, w.objects[j]? = some o → o = none

end Coil.Spec
