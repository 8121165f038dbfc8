import Verif.Model.Basic

/-!
# What assertions may do to an outcome
-/

namespace Coil
namespace Spec

/-- `x` is `y`, except that it may stop at a failed assertion. -/
def Stops {α : Type} (x y : Res α) : Prop := x = y ∨ x = .ub .assertion

/-- The same for outcomes that show more with assertions than without; `f` forgets what only assertions read. -/
def StopsAs {α β : Type} (f : β → α) (x : Res β) (y : Res α) : Prop := (x >>= fun b => .ok (f b)) = y ∨ x = .ub .assertion

/-- No undefined behaviour: a proper end, a failed assertion, or no end. -/
def Contained {α : Type} (x : Res α) : Prop := ∀ u, x = .ub u → u = .assertion

end Spec
end Coil
