import Verif.Model.Passing

/-!
# What objects allow

A log of events (`Pass.Ev`) is checked against the rules for objects. Only the names of the events are taken from the model.
-/

namespace Coil
namespace Spec
open Pass

variable {α : Type}

/-- The state of an object. -/
inductive Slot (α : Type) where
  /-- it has a value -/
  | live (x : α)
  /-- it was moved from: it can only be destroyed -/
  | husk
  | gone
  deriving DecidableEq, Repr

/-- The objects so far, and the values of the parameters in each call of the user function so far. -/
structure World (α : Type) where
  slots : List (Slot α)
  calls : List (List α)
  deriving DecidableEq, Repr

/-- The values of objects that all have one. -/
def World.values (w : World α) : List Nat → Option (List α)
  | [] => some []
  | o :: os =>
    match w.slots[o]? with
    | some (.live x) => (w.values os).map (x :: ·)
    | _ => none

/-- The effect of an event, `none` if it breaks the rules: an object is constructed once, only objects with a value are copied,
moved from and passed to functions, only existing objects are destroyed, and only once. -/
def Rule (w : World α) : Ev α → Option (World α)
  | .make o x => if o = w.slots.length then some { w with slots := w.slots ++ [.live x] } else none
  | .copy src dst =>
    match w.slots[src]? with
    | some (.live x) => if dst = w.slots.length then some { w with slots := w.slots ++ [.live x] } else none
    | _ => none
  | .move src dst =>
    match w.slots[src]? with
    | some (.live x) => if dst = w.slots.length then some { w with slots := w.slots.set src .husk ++ [.live x] } else none
    | _ => none
  | .failed src =>
    match w.slots[src]? with
    | some (.live _) => some { w with slots := w.slots.set src .husk }
    | _ => none
  | .destroy o =>
    match w.slots[o]? with
    | some (.live _) => some { w with slots := w.slots.set o .gone }
    | some .husk => some { w with slots := w.slots.set o .gone }
    | _ => none
  | .call os => (w.values os).map (fun xs => { w with calls := w.calls ++ [xs] })
  | .take o =>
    match w.slots[o]? with
    | some (.live _) => some { w with slots := w.slots.set o .husk }
    | some .husk => some w
    | _ => none

/-- The effect of a log. -/
def Rules : World α → List (Ev α) → Option (World α)
  | w, [] => some w
  | w, e :: es => (Rule w e).bind (fun w' => Rules w' es)

/-- Before anything happened. -/
def World.start : World α := ⟨[], []⟩

/-- Everything that was constructed is destroyed. -/
def World.Clean (w : World α) : Prop := ∀ s ∈ w.slots, s = .gone

/-- The events that are copies. -/
def copies (log : List (Ev α)) : Nat := (log.filter (fun e => match e with | .copy _ _ => true | _ => false)).length

/-- The events that are moves. -/
def moves (log : List (Ev α)) : Nat := (log.filter (fun e => match e with | .move _ _ => true | _ => false)).length

/-- The events that make a value. -/
def makes (log : List (Ev α)) : Nat := (log.filter (fun e => match e with | .make _ _ => true | _ => false)).length

/-- The conversions all give values. -/
def AllConvert (cs : List (Outcome α)) (xs : List α) : Prop := cs = xs.map .value

end Spec
end Coil
