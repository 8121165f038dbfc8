import Verif.Model.Scoped

/-!
# What scoped commands are meant to be

A command belongs to the program or to a scope. When a scope ends, the commands that belong to it disappear, and no others. A scope does
not remember names here: that a command belongs to a scope is part of the command. From the model: the type of the actions.
-/

namespace Coil
namespace Spec
namespace Scoped

open Coil.Scoped (Act)

variable {C D : Type}

/-- Commands with the scope they belong to; `none` is the program. -/
abbrev Owned (C D : Type) := Bytes → Option (Option Nat × List (C × D))

/-- The commands, if there is a registry, and which scopes are alive. -/
structure Ideal (C D : Type) where
  commands : Option (Owned C D)
  alive : List Bool

namespace Owned

/-- One name gets a new meaning. -/
def set (d : Owned C D) (n : Bytes) (v : Option (Option Nat × List (C × D))) : Owned C D := fun k => if k = n then v else d k

/-- The commands of a scope disappear. -/
def without (d : Owned C D) (i : Nat) : Owned C D := fun k =>
  match d k with
  | some (o, fs) => if o = some i then none else some (o, fs)
  | none => none

/-- The commands of a scope now belong to another. -/
def give (d : Owned C D) (i j : Nat) : Owned C D := fun k => (d k).map (fun v => (if v.1 = some i then some j else v.1, v.2))

end Owned

/-- What an action is meant to do. -/
def Ideal.step (σ : Ideal C D) : Act C D → Ideal C D
  | .make => { σ with commands := some (fun _ => none) }
  | .drop => { σ with commands := none }
  | .add n fs => { σ with commands := σ.commands.map (fun d => Owned.set d n (some (none, fs))) }
  | .remove n => { σ with commands := σ.commands.map (fun d => Owned.set d n none) }
  | .clear => { σ with commands := σ.commands.map (fun _ _ => none) }
  | .new => { σ with alive := σ.alive ++ [true] }
  | .addIn i n fs => { σ with commands := σ.commands.map (fun d => Owned.set d n (some (some i, fs))) }
  | .move i => ⟨σ.commands.map (fun d => Owned.give d i σ.alive.length), σ.alive ++ [true]⟩
  | .assign i j => { σ with commands := σ.commands.map (fun d => Owned.give (Owned.without d i) j i) }
  | .close i => ⟨σ.commands.map (fun d => Owned.without d i), σ.alive.set i false⟩

/-- What a program is meant to do. -/
def ideal (acts : List (Act C D)) : Ideal C D := acts.foldl Ideal.step ⟨none, []⟩

/-- The scope is alive after these actions. -/
def Alive (acts : List (Act C D)) (i : Nat) : Prop := (ideal acts).alive[i]? = some true

/-- The scopes that an action uses. -/
def users : Act C D → List Nat
  | .addIn i _ _ => [i]
  | .move i => [i]
  | .assign i j => [i, j]
  | .close i => [i]
  | _ => []

/-- The program uses scopes only while they are alive. -/
def UsesAlive (acts : List (Act C D)) : Prop := ∀ before a after, acts = before ++ a :: after → ∀ i ∈ users a, Alive before i

/-- `Claims acts i n`: `n` was added by the scope `i`, or by one that was moved to `i`, and the scope has not ended or been assigned to since. -/
inductive Claims : List (Act C D) → Nat → Bytes → Prop
  | added {acts i n fs} : Claims (acts ++ [.addIn i n fs]) i n
  | moved {acts i n} : Claims acts i n → Claims (acts ++ [.move i]) (ideal acts).alive.length n
  | assigned {acts i j n} : Claims acts j n → i ≠ j → Claims (acts ++ [.assign i j]) i n
  | kept {acts a i n} : Claims acts i n → a ≠ .move i → a ≠ .close i → (∀ j, a ≠ .assign i j) → (∀ j, a ≠ .assign j i) →
      Claims (acts ++ [a]) i n

/-- The action needs the registry, after the actions `before`: a scope needs it to remove its commands. -/
def NeedsRegistry (before : List (Act C D)) : Act C D → Prop
  | .make | .drop | .new | .move _ => False
  | .add _ _ | .remove _ | .clear | .addIn _ _ _ => True
  | .assign i _ | .close i => ∃ n, Claims before i n

/-- There is a registry whenever it is needed. -/
def RegistryLives (acts : List (Act C D)) : Prop :=
  ∀ before a after, acts = before ++ a :: after → NeedsRegistry before a → (ideal before).commands ≠ none

/-- The action does not add a name that another scope has claimed. -/
def Polite (before : List (Act C D)) : Act C D → Prop
  | .add n _ => ∀ i, ¬ Claims before i n
  | .addIn i n _ => ∀ j, Claims before j n → j = i
  | _ => True

/-- No name that a scope has claimed is added by others. -/
def Exclusive (acts : List (Act C D)) : Prop := ∀ before a after, acts = before ++ a :: after → Polite before a

end Scoped
end Spec
end Coil
