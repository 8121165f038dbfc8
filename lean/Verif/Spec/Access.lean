import Verif.Spec.Exec

/-!
# Stores, for variables

A store gives each variable a value. Nothing here refers to how variables are implemented.
-/

namespace Coil
namespace Spec

variable {ι : Type} {T : ι → Type}

/-- The visible part of a result: the errors and the return value. -/
structure Answer where
  errors : List Bytes
  returnValue : Option Bytes
  deriving DecidableEq, Repr

/-- `Access conv names σ i args σ' a`: giving the command of variable `i` the arguments `args` turns the store `σ` into `σ'` and is
answered with `a`. -/
inductive Access (conv : (i : ι) → Conv (T i)) (names : ι → Bytes) (σ : (i : ι) → T i) (i : ι) :
    List Value → ((i : ι) → T i) → Answer → Prop
  /-- without arguments: the value -/
  | read : Access conv names σ i [] σ ⟨[], some ((conv i).toString (σ i))⟩
  /-- one argument that converts: exactly this variable is set -/
  | write {a : Value} {x : T i} {σ' : (i : ι) → T i} : (conv i).fromString a = .ok (.ok x) → σ' i = x →
      (∀ j, j ≠ i → σ' j = σ j) → Access conv names σ i [a] σ' ⟨[], some ((conv i).toString x)⟩
  /-- one argument that does not convert: nothing changes -/
  | reject {a : Value} {m : Bytes} : (conv i).fromString a = .ok (.error m) → Access conv names σ i [a] σ ⟨[m], none⟩
  /-- more arguments: nothing changes -/
  | count {args : List Value} : 2 ≤ args.length → Access conv names σ i args σ
      ⟨[lit "Wrong number of arguments to '" ++ names i ++ lit "': expected 0 or 1, got " ++ natDec args.length], none⟩

/-- One access after the other. -/
inductive Accesses (conv : (i : ι) → Conv (T i)) (names : ι → Bytes) :
    ((i : ι) → T i) → List (ι × List Value) → ((i : ι) → T i) → List Answer → Prop
  | nil {σ} : Accesses conv names σ [] σ []
  | cons {σ σ1 σ2 i args as a answers} : Access conv names σ i args σ1 a → Accesses conv names σ1 as σ2 answers →
      Accesses conv names σ ((i, args) :: as) σ2 (a :: answers)

/-- Variables that do not overlap: reading what was written gives it back, and writing one leaves the others alone. -/
structure Separate {W : Type} (refs : (i : ι) → VarRef W (T i)) : Prop where
  same : ∀ i x w, (refs i).read ((refs i).write x w) = x
  other : ∀ i j x w, i ≠ j → (refs j).read ((refs i).write x w) = (refs j).read w

end Spec
end Coil
