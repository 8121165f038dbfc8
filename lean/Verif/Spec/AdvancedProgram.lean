import Verif.Model.AdvancedProgram
import Verif.Spec.Account
import Verif.Spec.Growing
import Verif.Spec.Swarm

/-!
# Specification of the program of examples/advanced
-/

namespace Coil.Spec
open Vw (Field)

/-- The ids of the entities. -/
def people : List Bytes := [lit "player", lit "npc1", lit "npc2"]

/-- What a name stands for: one of the four commands of the beginning, or a variable for an id. -/
inductive Sense where
  | rename
  | create
  | list
  | direction
  | whole (id : Bytes)
  | field (f : Field) (id : Bytes)
  deriving DecidableEq

/-- What the names stand for, the names and payloads of the entities by their ids, and the angle. -/
structure AdvancedHistory where
  sense : Bytes → Option Sense
  name : Bytes → Bytes
  payload : Bytes → Bytes
  angle : Fl

/-- The command of this name. -/
def AdvancedHistory.Means (h : AdvancedHistory) (n : Bytes) (s : Sense) : Prop := n ≠ [] ∧ h.sense n = some s

/-- What is known of an entity. -/
def AdvancedHistory.fact (h : AdvancedHistory) (f : Field) (id : Bytes) : Bytes :=
  match f with
  | .id => id
  | .name => h.name id
  | .payload => h.payload id

/-- Changing one text. -/
def instead {B : Type} (g : Bytes → B) (n : Bytes) (b : B) : Bytes → B := fun m => if m = n then b else g m

/-- What the names stand for after four variables are made. -/
def AdvancedHistory.variables (h : AdvancedHistory) (v id : Bytes) : AdvancedHistory :=
  { h with sense := instead (instead (instead (instead h.sense v (some (.whole id))) (v ++ lit ".id") (some (.field .id id)))
      (v ++ lit ".name") (some (.field .name id))) (v ++ lit ".payload") (some (.field .payload id)) }

/-- The list of the entities. -/
def AdvancedHistory.listing (h : AdvancedHistory) : Bytes :=
  lit "ID\tName\tPayload\n--\t----\t-------\n" ++
    people.flatMap fun id => id ++ lit "\t" ++ upToNul (h.name id) ++ lit "\t" ++ upToNul (h.payload id) ++ lit "\n"

/-- The parts of the text of an angle: the text of the number, and whether the unit is radians. -/
inductive AngleParts : Bytes → Bytes → Bool → Prop
  | radians {b} : AngleParts (b ++ lit "r") b true
  | degrees {b} : AngleParts (b ++ lit "d") b false
  | plain {b} : b ≠ [] → (∀ a, b ≠ a ++ lit "r" ∧ b ≠ a ++ lit "d") → AngleParts b b false

/-- How an angle is told. -/
def angleText (x : Fl) : Bytes := Fl.printG x ++ lit " degrees"

/-- What the commands do. -/
inductive AdvancedTold (tiny : Nat → Nat → Bool) (nan : Fl → Fl → Bool) : Account AdvancedHistory
  | rename {h i id t} : h.Means i.name .rename → i.arguments = [⟨[id]⟩, ⟨[t]⟩] → id ∈ people →
      AdvancedTold tiny nan h i { h with name := instead h.name id t } (.good none [])
  | stranger {h i id t} : h.Means i.name .rename → i.arguments = [⟨[id]⟩, ⟨[t]⟩] → id ∉ people →
      AdvancedTold tiny nan h i h (.bad [lit "Failed to find entity '" ++ id ++ lit "'"])
  | create {h i v id} : h.Means i.name .create → i.arguments = [⟨[v]⟩, ⟨[id]⟩] → i.name ∉ [v, v ++ lit ".id", v ++ lit ".name"] →
      AdvancedTold tiny nan h i (h.variables v id) (.good none [])
  | list {h i} : h.Means i.name .list → i.arguments = [] → AdvancedTold tiny nan h i h (.good none h.listing)
  | direction {h i} : h.Means i.name .direction → i.arguments = [] → AdvancedTold tiny nan h i h (.good (some (angleText h.angle)) [])
  | turn {h i t b rad x y} : h.Means i.name .direction → i.arguments = [⟨[t]⟩] → AngleParts t b rad → ReadsFloat tiny b x →
      y = (if rad then Fl.mul .single nan x (degreesPerRadian nan) else x) →
      AdvancedTold tiny nan h i { h with angle := y } (.good (some (angleText y)) [])
  | noAngle {h i t b rad e} : h.Means i.name .direction → i.arguments = [⟨[t]⟩] → AngleParts t b rad →
      (singleConv tiny).fromString ⟨[b]⟩ = .ok (.error e) → AdvancedTold tiny nan h i h (.bad [e])
  | emptyAngle {h i} : h.Means i.name .direction → i.arguments = [⟨[[]]⟩] → AdvancedTold tiny nan h i h (.bad [lit "Conversion error"])
  | whole {h i id} : h.Means i.name (.whole id) → i.arguments = [] →
      AdvancedTold tiny nan h i h (.good (some (if id ∈ people then lit "EntityId{" ++ id ++ lit "}" else lit "null")) [])
  | setWhole {h i id v} : h.Means i.name (.whole id) → i.arguments = [v] → AdvancedTold tiny nan h i h (.bad [lit "This property is read-only"])
  | field {h i f id} : h.Means i.name (.field f id) → i.arguments = [] → id ∈ people →
      AdvancedTold tiny nan h i h (.good (some (h.fact f id)) [])
  | setId {h i id v} : h.Means i.name (.field .id id) → i.arguments = [v] → id ∈ people →
      AdvancedTold tiny nan h i h (.bad [lit "This property is read-only"])
  | setName {h i id t} : h.Means i.name (.field .name id) → i.arguments = [⟨[t]⟩] → id ∈ people →
      AdvancedTold tiny nan h i { h with name := instead h.name id t } (.good (some t) [])
  | setPayload {h i id t} : h.Means i.name (.field .payload id) → i.arguments = [⟨[t]⟩] → id ∈ people →
      AdvancedTold tiny nan h i { h with payload := instead h.payload id t } (.good (some t) [])

/-- The commands that make the program undefined: using a variable for a part of an entity that there is not, and replacing
`entities.create_entity_variable` while it still has variables to make. -/
def AdvancedTrouble (h : AdvancedHistory) (i : Input) : Prop :=
  (∃ f id, h.Means i.name (.field f id) ∧ id ∉ people ∧
    (i.arguments = [] ∨ (f = .id ∧ ∃ v, i.arguments = [v]) ∨ ∃ t, i.arguments = [⟨[t]⟩])) ∨
  ∃ v id, h.Means i.name .create ∧ i.arguments = [⟨[v]⟩, ⟨[id]⟩] ∧ i.name ∈ [v, v ++ lit ".id", v ++ lit ".name"]

/-- The beginning. -/
def advancedBeginning : AdvancedHistory where
  sense := instead (instead (instead (instead (fun _ => none) (lit "entities.rename") (some .rename)) (lit "entities.create_entity_variable") (some .create))
    (lit "entities.list") (some .list)) (lit "direction") (some .direction)
  name := instead (instead (fun _ => lit "Player") (lit "npc1") (lit "NPC 1")) (lit "npc2") (lit "NPC 2")
  payload := instead (instead (fun _ => lit "I am a player") (lit "npc1") (lit "A pretty weak NPC")) (lit "npc2") (lit "A strong NPC")
  angle := .fin false 11796480 (-18)

/-- The names of the variables. -/
def fieldName (v : Bytes) : Field → Bytes
  | .id => v ++ lit ".id"
  | .name => v ++ lit ".name"
  | .payload => v ++ lit ".payload"

end Coil.Spec
