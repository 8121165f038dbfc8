import Verif.Model.Names

/-!
# Names of commands in the order of storage

The specification of the registry as a list of names and numbers of the calls of `add`: a new name is appended, removal moves
the last one to the free place. A call whose `found` is not a position has no meaning.
-/

namespace Coil
namespace Spec
open Names

/-- Name and the call of `add` that gave the functions. -/
abbrev Row := Bytes × Nat

/-- The removal of position `i`. -/
def swapRemove (l : List Row) (i : Nat) : List Row :=
  match l.getLast? with
  | none => []
  | some x => (l.set i x).dropLast

/-- One call. `adds` is the number of calls of `add` before. -/
def rows (adds : Nat) (l : List Row) : Op → Option (List Row)
  | .add name none => some (l ++ [(name, adds)])
  | .add _ (some i) => (l[i]?).map (fun r => l.set i (r.1, adds))
  | .remove none => some l
  | .remove (some i) => if i < l.length then some (swapRemove l i) else none
  | .clear => some []

/-- Does the call count as an `add`? -/
def isAdd : Op → Nat
  | .add _ _ => 1
  | _ => 0

/-- A history. -/
def rowsRun : Nat → List Row → List Op → Option (List Row)
  | _, l, [] => some l
  | adds, l, op :: ops => (rows adds l op).bind (fun l' => rowsRun (adds + isAdd op) l' ops)

end Spec
end Coil
