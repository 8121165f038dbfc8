import Verif.Model.Vector

/-! # Programs that push and pop, for the cost of growing -/

namespace Coil
namespace Spec

variable {α : Type}

/-- The statement pushes to, or pops from, the first vector. -/
def Stack : Vec.Op α → Prop
  | .pushBack 0 _ => True
  | .popBack 0 => True
  | _ => False

/-- The number of pushes. -/
def pushes : List (Vec.Op α) → Nat
  | [] => 0
  | .pushBack _ _ :: l => pushes l + 1
  | _ :: l => pushes l

end Spec
end Coil
