import Verif.Model.Variadic
import Verif.Spec.Conv

/-!
# Specification of renaming entities
-/

namespace Coil.Spec

/-- A text that is an id. -/
def IdText (pl : Platform) (s : Bytes) (z : Int) : Prop :=
  s.head? ≠ some 45 ∧ InRange pl .ulong z ∧ ∃ neg mag, SignedNumeral s neg mag ∧ mag < 2 ^ pl.longBits ∧
    z = if neg then (((2 ^ pl.longBits - mag) % 2 ^ pl.longBits : Nat) : Int) else (mag : Int)

/-- What a text refers to: the first entity with this id, or, if the text is no id, with this name. -/
inductive Refers (pl : Platform) (s : Bytes) : List Entity → List Entity → Entity → List Entity → Prop
  | id {z pre e post} : IdText pl s z → e.id = z → (∀ x ∈ pre, x.id ≠ z) → Refers pl s (pre ++ e :: post) pre e post
  | name {pre e post} : (¬ ∃ z, IdText pl s z) → e.name = s → (∀ x ∈ pre, x.name ≠ s) → Refers pl s (pre ++ e :: post) pre e post

end Coil.Spec
