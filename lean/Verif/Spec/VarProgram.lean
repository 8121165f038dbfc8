import Verif.Spec.Story
import Verif.Model.VarProgram
import Verif.Spec.BasicExample

/-!
# Specification of programs of variables

A history is the list of all assignments; the value of a variable is the last one assigned to it.
-/

namespace Coil.Spec

variable {K W : Type} {T : K → Type}

/-- The assignments to one variable, in order. -/
def assigned [DecidableEq K] (h : List (Σ k, T k)) (k : K) : List (T k) := h.filterMap fun d => if e : d.1 = k then some (e ▸ d.2) else none

/-- The value of a variable: the last one assigned, or the one at the beginning. -/
def valueAfter [DecidableEq K] (init : ∀ k, T k) (h : List (Σ k, T k)) (k : K) : T k := (assigned h k).getLast?.getD (init k)

/-- The variable that a command is about. -/
def VarKind.about : VarKind K T → Option K
  | .plain k => some k
  | .toggle k _ => some k
  | .line _ => none

/-- What the commands do. -/
inductive VarTold [DecidableEq K] (conv : ∀ k, Conv (T k)) (cs : List (Bytes × VarKind K T)) (init : ∀ k, T k) : Telling (List (Σ k, T k))
  | read {h n k named} : (n, .plain k) ∈ cs →
      VarTold conv cs init h ⟨n, [], named⟩ h (some ((conv k).toString (valueAfter init h k))) []
  | assign {h n kind k v x named} : (n, kind) ∈ cs → VarKind.about kind = some k → (conv k).fromString v = .ok (.ok x) →
      VarTold conv cs init h ⟨n, [v], named⟩ (h ++ [⟨k, x⟩]) (some ((conv k).toString x)) []
  | toggle {h n k f named} : (n, .toggle k f) ∈ cs →
      VarTold conv cs init h ⟨n, [], named⟩ (h ++ [⟨k, f (valueAfter init h k)⟩]) (some ((conv k).toString (f (valueAfter init h k)))) []
  | line {h n text named} : (n, .line text) ∈ cs →
      VarTold conv cs init h ⟨n, [], named⟩ h none (text (valueAfter init h) ++ [10])

/-- The variables are at different places: what is written is read, and nothing else changes. -/
structure Apart (ref : ∀ k, VarRef W (T k)) : Prop where
  same : ∀ k x w, (ref k).read ((ref k).write x w) = x
  other : ∀ k j x w, j ≠ k → (ref j).read ((ref k).write x w) = (ref j).read w

/-- The names of the commands are not empty and different. -/
def GoodNames (cs : List (Bytes × VarKind K T)) : Prop := (∀ c ∈ cs, c.1 ≠ []) ∧ (cs.map (·.1)).Nodup

/-- The name of a value of `enum class Type`. -/
def typeText (z : Int) : Bytes := if z = 0 then lit "Type1" else if z = 1 then lit "Type2" else if z = 2 then lit "Type3" else []

/-- The commands that make the program of the example undefined: an odd word assigned to `god_mode`, where `char` is signed. -/
def VarTrouble (pl : Platform) (i : Input) : Prop :=
  pl.charSigned = true ∧ (i.name = lit "god_var" ∨ i.name = lit "god_toggle") ∧ ∃ t, i.arguments = [⟨[t]⟩] ∧ OddWord t

end Coil.Spec
