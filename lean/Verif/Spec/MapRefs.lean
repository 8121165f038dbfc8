import Verif.Spec.HeapMap

/-!
# Where the entries of a map are

Which blocks the maps of a program occupy, told from the program alone: a block is allocated when a map is copied
or outgrows its block, travels with moves, and is gone when its map is destroyed, assigned to or outgrows it.
-/

namespace Coil
namespace Spec

variable {K V : Type}

/-- The number of blocks allocated so far, and the block (if any) and capacity of every live map. -/
structure Places where
  next : Nat
  place : List (Option (Option Nat × Nat))
  deriving DecidableEq, Repr

/-- The block and capacity of a live map. -/
def placeOf (p : Places) (v : Nat) : Option (Option Nat × Nat) := (p.place[v]?).join

/-- A place for a copy of `n` entries, and the number of blocks after that. -/
def copyPlace (p : Places) (n : Nat) : (Option Nat × Nat) × Nat :=
  if n = 0 then ((none, 0), p.next) else ((some p.next, n), p.next + 1)

/-- The entries of a map. -/
def entriesOf (e : Maps K V) (v : Nat) : List (K × V) := Content.entries ((contentOf e v).getD none)

/-- Where the maps are after a statement. -/
def placesStep [DecidableEq K] (e : Maps K V) (p : Places) : MapOp K V → Places
  | .create _ => { p with place := p.place ++ [some (none, 0)] }
  | .copyNew src =>
    ⟨(copyPlace p (entriesOf e src).length).2, p.place ++ [some (copyPlace p (entriesOf e src).length).1]⟩
  | .moveNew src => { p with place := p.place.set src (some (none, 0)) ++ [placeOf p src] }
  | .copyAssign dst src =>
    ⟨(copyPlace p (entriesOf e src).length).2, p.place.set dst (some (copyPlace p (entriesOf e src).length).1)⟩
  | .moveAssign dst src => { p with place := (p.place.set src (placeOf p dst)).set dst (placeOf p src) }
  | .on v (.put k _) =>
    let l := entriesOf e v
    if k ∉ l.map Prod.fst ∧ ((placeOf p v).getD (none, 0)).2 < l.length + 1 then
      ⟨p.next + 1, p.place.set v (some (some p.next, max (l.length + 1) (l.length * 3 / 2)))⟩
    else p
  | .on _ _ => p
  | .destroy v => { p with place := p.place.set v none }

/-- Where the maps are after a program. -/
def placesRun [DecidableEq K] : Maps K V → Places → List (MapOp K V) → Places
  | _, p, [] => p
  | e, p, op :: ops =>
    match mapsStep e op with
    | some e' => placesRun e' (placesStep e p op) ops
    | none => p

/-- Before the program. -/
def noPlaces : Places := ⟨0, []⟩

end Spec
end Coil
