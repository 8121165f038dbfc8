import Verif.Spec.Fixed
import Verif.Spec.Conv
import Verif.Model.Pool

/-!
# Specification of the entities

What there is follows from the whole history of what was done: no vector is changed.
-/

namespace Coil.Spec

/-- What the user has done to the entities. -/
inductive Deed where
  | add (name : Bytes)
  | remove (names : List Bytes)
  | focus (id : Int)
  deriving DecidableEq

/-- Something in the history removes the name. -/
def removedIn (h : List Deed) (name : Bytes) : Bool :=
  h.any fun
    | .remove names => decide (name ∈ names)
    | _ => false

/-- The names of the entities that were added and not removed later, in the order in which they were added. -/
def survivors : List Deed → List Bytes
  | [] => []
  | .add name :: later => if removedIn later name then survivors later else name :: survivors later
  | _ :: later => survivors later

/-- The last id that got the focus; 0 at first. -/
def focusAfter (h : List Deed) : Int :=
  ((h.filterMap fun | .focus k => some k | _ => none).getLast?).getD 0

/-- `k` is the number of elements before the first `x`. -/
def FirstAt (l : List Bytes) (x : Bytes) (k : Nat) : Prop := ∃ pre post, l = pre ++ x :: post ∧ x ∉ pre ∧ k = pre.length

/-- The text of an id. -/
def idText (k : Int) : Bytes := lit "EntityId{" ++ intDec k ++ lit "}"

/-- The text `t` stands for the index `k`, a number of 64 bits: a numeral without a sign, or with a plus, or with a minus after white space, which
counts down from 2^64 (C12). -/
def IndexText (t : Bytes) (k : Int) : Prop :=
  t.head? ≠ some 45 ∧ ∃ neg mag, SignedNumeral t neg mag ∧ mag < 2 ^ 64 ∧ k = if neg then (((2 ^ 64 - mag) % 2 ^ 64 : Nat) : Int) else (mag : Int)

/-- The type `std::size_t` on the platform; it has 64 bits. -/
def SizeType (pl : Platform) (sz : IntType) : Prop := sz = .ullong ∨ (sz = .ulong ∧ pl.long64 = true)

/-- The commands for entities. -/
def entityNames : List Bytes := [lit "entities.add", lit "entities.find", lit "entities.focused_entity", lit "entities.remove_some"]

/-- `EntityTold h i h' r`: after the history `h` the command `i` is carried out and leads to the history `h'`; `r` is the return value. -/
inductive EntityTold (h : List Deed) : Input → List Deed → Option Bytes → Prop
  | add {n named} : EntityTold h ⟨lit "entities.add", [⟨[n]⟩], named⟩ (h ++ [.add n]) (some (idText (survivors h).length))
  | found {n k named} : FirstAt (survivors h) n k → EntityTold h ⟨lit "entities.find", [⟨[n]⟩], named⟩ h (some (idText k))
  | missing {n named} : n ∉ survivors h → EntityTold h ⟨lit "entities.find", [⟨[n]⟩], named⟩ h (some [])
  | focus {named} : EntityTold h ⟨lit "entities.focused_entity", [], named⟩ h (some (idText (focusAfter h)))
  | setFocus {t k named} : IndexText t k →
      EntityTold h ⟨lit "entities.focused_entity", [⟨[t]⟩], named⟩ (h ++ [.focus k]) (some (idText k))
  | remove {v named} : EntityTold h ⟨lit "entities.remove_some", [v], named⟩ (h ++ [.remove v.subvalues]) none

/-- What becomes of one command: a command for entities is carried out, or it is an error and nothing is changed; all other commands leave the
entities alone. -/
def EntityEffect (h : List Deed) (i : Input) (h' : List Deed) (out : ExecOut) : Prop :=
  (i.name ∈ entityNames → ∃ r, out = .ok r ∧ r.output = [] ∧
    ((EntityTold h i h' r.returnValue ∧ r.errors = []) ∨
      ((¬ ∃ h1 v, EntityTold h i h1 v) ∧ h' = h ∧ r.returnValue = none ∧ r.errors ≠ []))) ∧
  (i.name ∉ entityNames → h' = h)

/-- `EntityStory d h reqs outs h'`: from the history `h` on, the requests lead to the results `outs` and the history `h'`. -/
inductive EntityStory (d : Delims) : List Deed → List Request → List ExecOut → List Deed → Prop
  | nil {h} : EntityStory d h [] [] h
  | wrong {h t m out rest outs h'} : Rejects d t m → EntityStory d h rest outs h' → EntityStory d h (.line t :: rest) (out :: outs) h'
  | line {h t i h1 out rest outs h'} : Accepts d t i → EntityEffect h i h1 out → EntityStory d h1 rest outs h' →
      EntityStory d h (.line t :: rest) (out :: outs) h'
  | input {h i h1 out rest outs h'} : EntityEffect h i h1 out → EntityStory d h1 rest outs h' →
      EntityStory d h (.input i :: rest) (out :: outs) h'

/-- The entities are those of the history. -/
def Keeps (p : Pool) (h : List Deed) : Prop := p.names = survivors h ∧ p.focused = focusAfter h

end Coil.Spec
