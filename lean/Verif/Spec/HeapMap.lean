import Verif.Spec.Dict

/-!
# Programs with several maps

The specification of programs that create, copy, move, change and destroy maps. Nothing here refers to the model.
-/

namespace Coil
namespace Spec

variable {K V : Type}

/-- One statement of a program that uses maps. New maps get the next number. -/
inductive MapOp (K V : Type) where
  | create (buckets : Nat)
  | copyNew (src : Nat)
  | moveNew (src : Nat)
  | copyAssign (dst src : Nat)
  | moveAssign (dst src : Nat)
  | on (v : Nat) (op : DictOp K V)
  | destroy (v : Nat)
  deriving DecidableEq, Repr

/-- What a live map holds: `none` if it has no buckets (moved from, or created without), otherwise its entries in
iteration order. The phase (`Spec.Phase`) only serves to say which removals are safe. -/
abbrev Content (K V : Type) := Option (Phase × List (K × V))

/-- The maps of a program (`none`: destroyed). -/
abbrev Maps (K V : Type) := List (Option (Content K V))

/-- The content of a live map. -/
def contentOf (e : Maps K V) (v : Nat) : Option (Content K V) := (e[v]?).join

/-- The entries of a content. -/
def Content.entries (c : Content K V) : List (K × V) :=
  match c with
  | none => []
  | some p => p.2

/-- An operation on a content; without buckets only `clear` is possible. -/
def contentStep [DecidableEq K] (c : Content K V) (op : DictOp K V) : Option (Content K V) :=
  match c, op with
  | none, .clear => some none
  | none, _ => none
  | some (ph, l), op => some (some (phaseStep ph l op, orderStep l op))

/-- What a statement does; `none` if it names a map that is not live, or puts into or erases from a map without
buckets. A move leaves the old content of the target in the source. -/
def mapsStep [DecidableEq K] (e : Maps K V) : MapOp K V → Option (Maps K V)
  | .create n => some (e ++ [some (if n = 0 then none else some (.calm, []))])
  | .copyNew src => (contentOf e src).map (fun c => e ++ [some c])
  | .moveNew src => (contentOf e src).map (fun c => e.set src (some none) ++ [some c])
  | .copyAssign dst src => (contentOf e src).bind (fun c => (contentOf e dst).map (fun _ => e.set dst (some c)))
  | .moveAssign dst src =>
    (contentOf e src).bind (fun c => (contentOf e dst).map (fun old => (e.set src (some old)).set dst (some c)))
  | .on v op => (contentOf e v).bind (fun c => (contentStep c op).map (fun c' => e.set v (some c')))
  | .destroy v => (contentOf e v).map (fun _ => e.set v none)

/-- A program. -/
def mapsRun [DecidableEq K] : Maps K V → List (MapOp K V) → Option (Maps K V)
  | e, [] => some e
  | e, op :: ops => (mapsStep e op).bind (fun e' => mapsRun e' ops)

/-- The sizes a program can ask for are representable: no byte count exceeds `size_t`. (A map has at most one entry per
statement.) -/
def MapsFit (nodeSize indexSize : Nat) (ops : List (MapOp K V)) : Prop :=
  3 * (ops.length + 1) * nodeSize < 2 ^ 64 ∧ ops.length * 2 * indexSize < 2 ^ 64 ∧
    ∀ n, MapOp.create n ∈ ops → n * indexSize < 2 ^ 64

/-- All removals are allowed (`Spec.Allowed`). -/
def MapSafe [DecidableEq K] (e : Maps K V) : MapOp K V → Prop
  | .on v op => ∀ ph l, contentOf e v = some (some (ph, l)) → Allowed ph l op
  | _ => True

/-- All removals of a program are allowed. -/
def MapsSafe [DecidableEq K] : Maps K V → List (MapOp K V) → Prop
  | _, [] => True
  | e, op :: ops => MapSafe e op ∧ ∀ e', mapsStep e op = some e' → MapsSafe e' ops

/-- The value of a key in a list of entries. -/
def lookup [DecidableEq K] (l : List (K × V)) (k : K) : Option V := (l.find? (fun p => p.1 = k)).map Prod.snd

/-- The number of entries of all live maps. -/
def entryCount (e : Maps K V) : Nat := (e.map (fun o => (Content.entries (o.getD none)).length)).sum

end Spec
end Coil
