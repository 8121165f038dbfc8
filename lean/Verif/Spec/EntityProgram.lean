import Verif.Model.EntityProgram
import Verif.Spec.Account
import Verif.Spec.Variadic

/-!
# Specification of the program of examples/variadic

A history is the list of the entities in the order in which they were added, with their present names.
-/

namespace Coil.Spec

/-- What `entities.list` writes. -/
def entitiesText (h : List Entity) : Bytes :=
  lit "Entities:\n" ++ (h.map fun e => intDec e.id ++ lit ": " ++ upToNul e.name ++ lit "\n").flatten

/-- What the commands do. -/
inductive RosterTold (pl : Platform) : Account (List Entity)
  | add {h s z n named} : IdText pl s z → RosterTold pl h ⟨lit "entities.add", [⟨[s]⟩, ⟨[n]⟩], named⟩ (h ++ [⟨z, n⟩]) (.good none [])
  | list {h named} : RosterTold pl h ⟨lit "entities.list", [], named⟩ h (.good none (entitiesText h))
  | rename {h t n named pre e post} : Refers pl t h pre e post →
      RosterTold pl h ⟨lit "entities.rename", [⟨[t]⟩, ⟨[n]⟩], named⟩ (pre ++ ⟨e.id, n⟩ :: post) (.good none [])
  | lost {h t n named} : (¬ ∃ pre e post, Refers pl t h pre e post) →
      RosterTold pl h ⟨lit "entities.rename", [⟨[t]⟩, ⟨[n]⟩], named⟩ h (.bad [lit "Failed to find entity '" ++ t ++ lit "'"])
  | parts {h v n named} : v.subvalues.length ≠ 1 →
      RosterTold pl h ⟨lit "entities.rename", [v, ⟨[n]⟩], named⟩ h (.bad (lit "Unknown type of 'entity'" :: [IntType.ulong.name pl, lit "string"].map fun type =>
        cannotConvertBecause (upToNul (joined v.subvalues)) type (wrongSubvalues 1 v.subvalues.length)))

end Coil.Spec
