/-!
# What a dictionary is

A dictionary is a partial function from keys to values. Nothing here refers to the model.
-/

namespace Coil
namespace Spec

variable {K V : Type}

/-- An operation that changes a dictionary. -/
inductive DictOp (K V : Type) where
  | put (k : K) (v : V)
  | erase (k : K)
  | clear
  deriving DecidableEq, Repr

/-- The effect of an operation. -/
def dictStep [DecidableEq K] (d : K → Option V) : DictOp K V → K → Option V
  | .put k v => fun x => if x = k then some v else d x
  | .erase k => fun x => if x = k then none else d x
  | .clear => fun _ => none

/-- The dictionary after a history that starts empty. -/
def dictAfter [DecidableEq K] (ops : List (DictOp K V)) : K → Option V :=
  ops.foldl dictStep (fun _ => none)

/-- `l` has every entry of `d` exactly once and nothing else. -/
def Lists (l : List (K × V)) (d : K → Option V) : Prop :=
  (l.map Prod.fst).Nodup ∧ ∀ k v, (k, v) ∈ l ↔ d k = some v

/-- The order in which the map is iterated: a new key goes to the end, an assignment keeps the place, and a
removed entry is replaced by the last one. -/
def orderStep [DecidableEq K] (l : List (K × V)) : DictOp K V → List (K × V)
  | .put k v =>
    if k ∈ l.map Prod.fst then l.map (fun p => if p.1 = k then (k, v) else p) else l ++ [(k, v)]
  | .erase k =>
    if k ∈ l.map Prod.fst then
      match l.getLast? with
      | none => l
      | some z => if z.1 = k then l.dropLast else l.dropLast.map (fun p => if p.1 = k then z else p)
    else l
  | .clear => []

/-- The iteration order after a history that starts empty. -/
def orderAfter [DecidableEq K] (ops : List (DictOp K V)) : List (K × V) := ops.foldl orderStep []

/-- No two removals of present keys without the insertion of a new key or a `clear` in between. `pending`: there was
a removal since the last insertion of a new key or `clear`. -/
def Spaced [DecidableEq K] : Bool → (K → Option V) → List (DictOp K V) → Prop
  | _, _, [] => True
  | pending, d, .put k v :: ops =>
    Spaced (pending && (d k).isSome) (dictStep d (.put k v)) ops
  | pending, d, .erase k :: ops =>
    ((d k).isSome → pending = false) ∧ Spaced (pending || (d k).isSome) (dictStep d (.erase k)) ops
  | _, d, .clear :: ops => Spaced false (dictStep d .clear) ops

/-- How much is known about the links of the map (see `Spec.Allowed`). -/
inductive Phase where
  /-- every link goes to a later entry -/
  | calm
  /-- the last entry is the end of its chain -/
  | armed
  /-- nothing -/
  | disturbed
  deriving DecidableEq, Repr

/-- The phase after an operation. -/
def phaseStep [DecidableEq K] (ph : Phase) (l : List (K × V)) : DictOp K V → Phase
  | .put k _ => if k ∈ l.map Prod.fst then ph else if ph = .calm then .calm else .armed
  | .erase k =>
    if k ∈ l.map Prod.fst then
      if ph = .calm ∧ (l.getLast?).map Prod.fst = some k then .calm else .disturbed
    else ph
  | .clear => .calm

/-- An operation that `erase` as it is performs correctly: removing the last entry in iteration order is fine, and
removing another entry is fine unless the map is disturbed. -/
def Allowed [DecidableEq K] (ph : Phase) (l : List (K × V)) : DictOp K V → Prop
  | .erase k => k ∉ l.map Prod.fst ∨ ph ≠ .disturbed ∨ (l.getLast?).map Prod.fst = some k
  | _ => True

/-- Histories all of whose operations are allowed. -/
def SafeFrom [DecidableEq K] : Phase → List (K × V) → List (DictOp K V) → Prop
  | _, _, [] => True
  | ph, l, op :: ops => Allowed ph l op ∧ SafeFrom (phaseStep ph l op) (orderStep l op) ops

end Spec
end Coil
