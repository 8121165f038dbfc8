import Verif.Spec.Seq
import Verif.Model.VectorThrow

/-!
# Sequences and exceptions

What a statement that throws may leave behind, on plain sequences. Only the statements and the shape of programs
(`Vec.Op`, `Vec.TryProg`) are taken from the model.
-/

namespace Coil
namespace Spec

variable {α : Type}

/-- An interrupted transfer of a sequence: the first `k` elements are moved-from, the next one is spoilt, the rest is untouched. -/
def cutAt (moved spoilt : α → α) (k : Nat) (l : List α) : List α :=
  (l.take k).map moved ++ ((l.drop k).take 1).map spoilt ++ l.drop (k + 1)

/-- The variable whose storage a statement may replace by a larger one. -/
def growing : Vec.Op α → Option Nat
  | .reserve v _ | .resize v _ | .pushBack v _ => some v
  | _ => none

/-- The statements that make a vector or replace one by a copy. -/
def making : Vec.Op α → Bool
  | .create _ | .ofRange _ | .copyNew _ | .copyAssign _ _ => true
  | _ => false

/-- `Broken mayMove … e op n e' lost`: a statement that throws at its action number `n` (allocations, constructions and assignments
of elements, counted from zero) may turn the sequences `e` into `e'` and lose `lost` objects, which are constructed and
never destroyed.
* Making a vector leaves everything as it was.
* A failed growth leaves everything as it was, or it was interrupted (only if moving an element may throw) at the move
  of element `n - 1`, which comes after the allocation.
* A longer sequence may have been filled in part, by at most `n` elements.
* An assignment of an element may have been interrupted. -/
inductive Broken (mayMove : Bool) (moved spoilt : α → α) (torn : α → α → α) (dflt : α) (e : Seqs α) :
    Vec.Op α → Nat → Seqs α → Nat → Prop
  | same {op : Vec.Op α} {n : Nat} (h : making op = true ∨ (growing op).isSome = true) :
      Broken mayMove moved spoilt torn dflt e op n e 0
  | cut {op : Vec.Op α} {v k : Nat} {l : List α} (hop : growing op = some v) (hm : mayMove = true)
      (hv : seqOf e v = some l) (hk : k < l.length) :
      Broken mayMove moved spoilt torn dflt e op (k + 1) (e.set v (some (cutAt moved spoilt k l))) k
  | part {v size n j : Nat} {l : List α} (hv : seqOf e v = some l) (hj : l.length + j < size) (hn : j ≤ n) :
      Broken mayMove moved spoilt torn dflt e (.resize v size) n (e.set v (some (l ++ List.replicate j dflt))) 0
  | torn {v i n : Nat} {x old : α} {l : List α} (hv : seqOf e v = some l) (hi : l[i]? = some old) :
      Broken mayMove moved spoilt torn dflt e (.write v i x) n (e.set v (some (l.set i (torn old x)))) 0

/-- `Course … e p e' lost`: one way a program may go from the sequences `e` to `e'`, losing `lost` objects on the way. -/
inductive Course (mayMove : Bool) (moved spoilt : α → α) (torn : α → α → α) (dflt : α) :
    Seqs α → Vec.TryProg α → Seqs α → Nat → Prop
  | stop {e : Seqs α} : Course mayMove moved spoilt torn dflt e .stop e 0
  | done {e e1 e2 : Seqs α} {op : Vec.Op α} {f : Option Nat} {next : Bool → Vec.TryProg α} {k : Nat}
      (h : seqStep dflt e op = some e1) (t : Course mayMove moved spoilt torn dflt e1 (next false) e2 k) :
      Course mayMove moved spoilt torn dflt e (.stmt op f next) e2 k
  | threw {e e1 e2 : Seqs α} {op : Vec.Op α} {j : Nat} {next : Bool → Vec.TryProg α} {k lost : Nat}
      (h : Broken mayMove moved spoilt torn dflt e op j e1 lost)
      (t : Course mayMove moved spoilt torn dflt e1 (next true) e2 k) :
      Course mayMove moved spoilt torn dflt e (.stmt op (some j) next) e2 (lost + k)

/-- The preconditions of all statements of a program hold, whichever way it goes. -/
def Legal (sz : Nat) (mayMove : Bool) (moved spoilt : α → α) (torn : α → α → α) (dflt : α) :
    Seqs α → Vec.TryProg α → Prop
  | _, .stop => True
  | e, .stmt op f next => Fits sz e op ∧ seqStep dflt e op ≠ none ∧
      (∀ e', seqStep dflt e op = some e' → Legal sz mayMove moved spoilt torn dflt e' (next false)) ∧
      ∀ n e' k, f = some n → Broken mayMove moved spoilt torn dflt e op n e' k →
        Legal sz mayMove moved spoilt torn dflt e' (next true)

end Spec
end Coil
