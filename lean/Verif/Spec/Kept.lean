import Verif.Spec.Views
import Verif.Model.Kept

/-!
# When keeping a view is as good as keeping a copy
-/

namespace Coil
namespace Vw
namespace Spec

variable {W W' : Type}

/-- Two lists correspond, element by element. -/
inductive Both {α β : Type} (R : α → β → Prop) : List α → List β → Prop
  | nil : Both R [] []
  | cons {a b as bs} : R a b → Both R as bs → Both R (a :: as) (b :: bs)

/-- The relation between the states looks at the buffers of `base` only. -/
def LooksAt (base : Mem) (I : Mem → W → W' → Prop) : Prop := ∀ m m' w w', Keeps base m → Keeps base m' → I m w w' → I m' w w'

/-- An item whose name reads as the copy. -/
def ItemIs (m : Mem) (i : Item Ref) (j : Item Bytes) : Prop :=
  m.read i.name = .ok j.name ∧ i.id = j.id ∧ i.amount = j.amount ∧ i.source = j.source ∧ i.type = j.type

/-- The inventory, and the inventory with copies of the names. -/
def ItemsAre (m : Mem) (w : List (Item Ref)) (w' : List (Item Bytes)) : Prop := Both (ItemIs m) w w'

/-- The entities, with captured views that read as the captured copies. -/
def EntitiesAre (m : Mem) (w : Entities Ref) (w' : Entities Bytes) : Prop :=
  w.entities = w'.entities ∧ Both (fun r t => m.read r = .ok t) w.ids w'.ids

end Spec
end Vw
end Coil
