import Verif.Props.UMap

/-!
# Specification: histories that the hash map handles
-/

namespace Coil.Spec

variable {K V : Type} [DecidableEq K]

/-- The history ends without undefined behaviour, and every key is found with the value it was given last, or not found if it was removed. -/
def Right (fixed : Bool) (hash : K → Nat) (exceeds : Nat → Nat → Bool) (ops : List (DictOp K V)) : Prop :=
  ∃ m, mapAfter fixed hash exceeds 1 ops = .ok m ∧ ∀ k, UMap.find hash m k = .ok (dictAfter ops k)

/-- So it is after each step of the history. -/
def RightAlong (fixed : Bool) (hash : K → Nat) (exceeds : Nat → Nat → Bool) (ops : List (DictOp K V)) : Prop :=
  ∀ p, p <+: ops → Right fixed hash exceeds p

/-- Two operations of the same kind with the same key; the values may be different and of different types. -/
inductive SameKey {V' : Type} : DictOp K V → DictOp K V' → Prop
  | put {k v v'} : SameKey (.put k v) (.put k v')
  | erase {k} : SameKey (.erase k) (.erase k)
  | clear : SameKey .clear .clear

end Coil.Spec
