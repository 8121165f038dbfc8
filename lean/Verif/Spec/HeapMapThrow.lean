import Verif.Spec.HeapMap
import Verif.Model.HeapMapThrow

/-!
# Programs with maps and exceptions

A statement that throws should leave all maps as they were. Only the statements and the shape of programs (`HMap.Fail`,
`HMap.TryMaps`) are taken from the model.
-/

namespace Coil
namespace Spec

variable {K V : Type}

/-- The statements that need memory and hence may throw. -/
def needsMemory : MapOp K V → Bool
  | .create _ | .copyNew _ | .copyAssign _ _ | .on _ (.put _ _) => true
  | _ => false

/-- Something goes wrong. -/
def HMapFails (f : HMap.Fail) : Prop := f.buckets = true ∨ f.nodes ≠ none

/-- `MapCourse e p e'`: one way a program may go from the contents `e` to `e'`. A statement that throws changes nothing. -/
inductive MapCourse [DecidableEq K] : Maps K V → HMap.TryMaps K V → Maps K V → Prop
  | stop {e : Maps K V} : MapCourse e .stop e
  | done {e e1 e2 : Maps K V} {op : MapOp K V} {f : HMap.Fail} {next : Bool → HMap.TryMaps K V}
      (h : mapsStep e op = some e1) (t : MapCourse e1 (next false) e2) : MapCourse e (.stmt op f next) e2
  | threw {e e2 : Maps K V} {op : MapOp K V} {f : HMap.Fail} {next : Bool → HMap.TryMaps K V}
      (hop : needsMemory op = true) (hf : HMapFails f) (t : MapCourse e (next true) e2) : MapCourse e (.stmt op f next) e2

/-- The sizes a statement asks for are representable. -/
def StepFits (nodeSize indexSize : Nat) (e : Maps K V) : MapOp K V → Prop
  | .create n => n * indexSize < 2 ^ 64
  | .on v (.put _ _) => ∀ x, contentOf e v = some x →
      3 * (x.entries.length + 1) * nodeSize < 2 ^ 64 ∧ x.entries.length * 2 * indexSize < 2 ^ 64
  | _ => True

/-- No copy assignment fails between its two members. -/
def AssignsWhole (op : MapOp K V) (f : HMap.Fail) : Prop := ∀ dst src, op = .copyAssign dst src → f.nodes = none

/-- All statements of a program are meaningful, representable and allowed, whichever way it goes. -/
def LegalMaps [DecidableEq K] (nodeSize indexSize : Nat) (fixed : Bool) : Maps K V → HMap.TryMaps K V → Prop
  | _, .stop => True
  | e, .stmt op f next => StepFits nodeSize indexSize e op ∧ (fixed = true ∨ MapSafe e op) ∧ AssignsWhole op f ∧
      mapsStep e op ≠ none ∧
      (∀ e', mapsStep e op = some e' → LegalMaps nodeSize indexSize fixed e' (next false)) ∧
      (needsMemory op = true → HMapFails f → LegalMaps nodeSize indexSize fixed e (next true))

end Spec
end Coil
