import Verif.Spec.AdvancedProgram
import Verif.Spec.Refusal

/-!
# Commands that are refused by programs whose commands make commands

What is refused depends on the commands there are at the time.
-/

namespace Coil.Spec

/-- The table has the functions of these signatures for the name, or both have none. -/
def Offers (pl : Platform) (tiny : Nat → Nat → Bool) (size : Bytes) {W C D : Type} (P : C → FunctorDef W C D) (T : Table C D) (n : Bytes)
    (sigs : Signatures) : Prop :=
  (T.functions n = none ∧ sigs.of n = none) ∨
  ∃ fs kss, T.functions n = some fs ∧ sigs.of n = some kss ∧ Forall2 (fun f ks => SuitsAll pl tiny size (P f.1).params ks) fs kss

/-- The parameters of the commands of the advanced example. -/
def Sense.signatures : Sense → List (List Kind)
  | .rename => [[.text, .text]]
  | .create => [[.text, .text]]
  | .list => [[]]
  | .direction => [[], [.text]]
  | .whole _ => [[], [.any]]
  | .field .id _ => [[], [.any]]
  | .field .name _ => [[], [.text]]
  | .field .payload _ => [[], [.text]]

/-- The signatures that the advanced example has for the name. -/
def AdvancedHistory.offers (h : AdvancedHistory) (n : Bytes) : Signatures :=
  match h.sense n with
  | some s => [(n, s.signatures)]
  | none => []

end Coil.Spec
