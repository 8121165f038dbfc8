import Verif.Model.Vector

/-!
# Vectors as plain sequences

The specification of programs with vectors: every variable holds a list. Only the names of the statements
(`Vec.Op`) are taken from the model.
-/

namespace Coil
namespace Spec

variable {α : Type}

/-- Variables with their sequences (`none`: destroyed). -/
abbrev Seqs (α : Type) := List (Option (List α))

/-- The sequence of a live variable. -/
def seqOf (e : Seqs α) (v : Nat) : Option (List α) := (e[v]?).join

/-- Make a list have length `n`, filling with `d`. -/
def resized (d : α) (n : Nat) (l : List α) : List α := l.take n ++ List.replicate (n - l.length) d

/-- What a statement does to the sequences; `none` if its precondition (live variables, non-empty for `popBack`, index
in range for `write`) does not hold. A move leaves the old value of the target in the source. -/
def seqStep (d : α) (e : Seqs α) : Vec.Op α → Option (Seqs α)
  | .create _ => some (e ++ [some []])
  | .ofRange xs => some (e ++ [some xs])
  | .copyNew src => (seqOf e src).map (fun l => e ++ [some l])
  | .moveNew src => (seqOf e src).map (fun l => e.set src (some []) ++ [some l])
  | .copyAssign dst src => (seqOf e src).bind (fun l => (seqOf e dst).map (fun _ => e.set dst (some l)))
  | .moveAssign dst src =>
    (seqOf e src).bind (fun l => (seqOf e dst).map (fun old => (e.set src (some old)).set dst (some l)))
  | .reserve v _ => (seqOf e v).map (fun _ => e)
  | .resize v n => (seqOf e v).map (fun l => e.set v (some (resized d n l)))
  | .pushBack v x => (seqOf e v).map (fun l => e.set v (some (l ++ [x])))
  | .popBack v => (seqOf e v).bind (fun l => if l = [] then none else some (e.set v (some l.dropLast)))
  | .clear v => (seqOf e v).map (fun _ => e.set v (some []))
  | .write v i x => (seqOf e v).bind (fun l => if i < l.length then some (e.set v (some (l.set i x))) else none)
  | .destroy v => (seqOf e v).map (fun _ => e.set v none)

/-- A program on sequences. -/
def seqRun (d : α) : Seqs α → List (Vec.Op α) → Option (Seqs α)
  | e, [] => some e
  | e, op :: ops => (seqStep d e op).bind (fun e' => seqRun d e' ops)

/-- The requested sizes are representable: no byte count exceeds `size_t`. -/
def Fits (sz : Nat) (e : Seqs α) : Vec.Op α → Prop
  | .create n => n * sz < 2 ^ 64
  | .ofRange xs => xs.length * sz < 2 ^ 64
  | .reserve _ n => n * sz < 2 ^ 64
  | .resize _ n => n * sz < 2 ^ 64
  | .pushBack v _ => ∀ l, seqOf e v = some l → 3 * (l.length + 1) * sz < 2 ^ 64
  | _ => True

/-- All statements of a program fit. -/
def FitsAll (sz : Nat) (d : α) : Seqs α → List (Vec.Op α) → Prop
  | _, [] => True
  | e, op :: ops => Fits sz e op ∧ ∀ e', seqStep d e op = some e' → FitsAll sz d e' ops

/-- The variables a statement names. -/
def used : Vec.Op α → List Nat
  | .create _ | .ofRange _ => []
  | .copyNew v | .moveNew v | .reserve v _ | .resize v _ | .pushBack v _ | .popBack v | .clear v | .write v _ _ | .destroy v => [v]
  | .copyAssign v w | .moveAssign v w => [v, w]

/-- A statement names only variables that are live. -/
def Live (e : Seqs α) (op : Vec.Op α) : Prop := ∀ v ∈ used op, seqOf e v ≠ none

/-- All statements of a program name only live variables. -/
def LiveAll (d : α) : Seqs α → List (Vec.Op α) → Prop
  | _, [] => True
  | e, op :: ops => Live e op ∧ ∀ e', seqStep d e op = some e' → LiveAll d e' ops

/-- The number of elements in all live variables. -/
def total (e : Seqs α) : Nat := (e.map (fun o => (o.getD []).length)).sum

end Spec
end Coil
