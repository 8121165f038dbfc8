import Verif.Model.Angle
import Verif.Model.Kept

/-!
# The program of examples/advanced

All commands of `AdvancedExample::run` together: the commands for entities, the command that makes variables, the variables it makes, and
`direction`.

Simplification: the views that the variables have captured are texts; `Model/Kept.lean` has the views, and C95 relates the two.
-/

namespace Coil
open Vw

/-- `EntitySystem entities` and `float angle` (AdvancedExample.cpp 124, 155). -/
structure AdvancedWorld where
  entities : List Entity
  angle : Fl
  deriving DecidableEq

/-- The beginning (AdvancedExample.cpp 124-127, 155). -/
def AdvancedWorld.start : AdvancedWorld :=
  ⟨[⟨lit "player", lit "Player", lit "I am a player"⟩, ⟨lit "npc1", lit "NPC 1", lit "A pretty weak NPC"⟩,
    ⟨lit "npc2", lit "NPC 2", lit "A strong NPC"⟩], .fin false 11796480 (-18)⟩

/-- The functions: those that are registered at the beginning, and those of the variables. -/
inductive AdvancedCode where
  | rename
  | create
  | list
  | angle
  | setAngle
  | whole
  | setWhole
  | field (f : Field)
  | setField (f : Field)
  deriving DecidableEq

/-- `entities.find(id)` of the captured id (AdvancedExample.cpp 33-40, 141). -/
def withFound {R : Type} (k : Bytes → Option Entity → Prog AdvancedWorld AdvancedCode Bytes R) : Prog AdvancedWorld AdvancedCode Bytes R :=
  .captured fun id => .get fun w => k id (lookup id w.entities)

/-- `get()->…` (AdvancedExample.cpp 143-145): the pointer is not checked. -/
def memberOf (f : Field) : Prog AdvancedWorld AdvancedCode Bytes Bytes :=
  withFound fun _ e =>
    match e with
    | none => .ub .nullDeref
    | some e => .ret (f.of e)

/-- The four variables (AdvancedExample.cpp 142-145). -/
def variablesFor (v id : Bytes) : List (Bytes × List (AdvancedCode × Bytes)) :=
  [(v, [(.whole, id), (.setWhole, id)]),
    (v ++ lit ".id", [(.field .id, id), (.setField .id, id)]),
    (v ++ lit ".name", [(.field .name, id), (.setField .name, id)]),
    (v ++ lit ".payload", [(.field .payload, id), (.setField .payload, id)])]

/-- Where the angle is. -/
def AdvancedWorld.angleAt : AngleAt AdvancedWorld := ⟨fun w => w.angle, fun w x => { w with angle := x }⟩

/-- The functions of the program (AdvancedExample.cpp 65-105, 129-156, Property.h 18-44). -/
def advancedFunctions (tiny : Nat → Nat → Bool) (nan : Fl → Fl → Bool) : AdvancedCode → FunctorDef AdvancedWorld AdvancedCode Bytes
  | .rename => ⟨[⟨Bytes, stringConv⟩, ⟨Bytes, stringConv⟩], Unit, lit "void", none, fun a => .captured fun _ => .get fun w =>
      match lookup a.1 w.entities with
      | none => .reportError (lit "Failed to find entity '" ++ a.1 ++ lit "'") (.ret ())
      | some _ => .set { w with entities := change a.1 (Field.name.put a.2.1) w.entities } (.ret ())⟩
  | .create => ⟨[⟨Bytes, stringConv⟩, ⟨Bytes, stringConv⟩], Unit, lit "void", none, fun a => addAllText (variablesFor a.1 a.2.1) (.ret ())⟩
  | .list => ⟨[], Unit, lit "void", none, fun _ => .logline (lit "ID\tName\tPayload") <| .logline (lit "--\t----\t-------") <|
      .captured fun _ => .get fun w => w.entities.foldr (fun e k => .logline (entityLine e) k) (.ret ())⟩
  | .angle => (angleDefs tiny nan AdvancedWorld.angleAt)[0]'(by show 0 < 2; decide)
  | .setAngle => (angleDefs tiny nan AdvancedWorld.angleAt)[1]'(by show 1 < 2; decide)
  | .whole => ⟨[], Option Entity, lit "Entity", some entityText, fun _ => withFound fun _ e => .ret e⟩
  | .setWhole => ⟨[⟨Value, valueConv⟩], Option Entity, lit "Entity", some entityText, fun _ =>
      .reportError (lit "This property is read-only") <| withFound fun _ e => .ret e⟩
  | .field f => ⟨[], Bytes, lit "string", some id, fun _ => memberOf f⟩
  | .setField .id => ⟨[⟨Value, valueConv⟩], Bytes, lit "string", some id, fun _ =>
      .reportError (lit "This property is read-only") <| memberOf .id⟩
  | .setField f => ⟨[⟨Bytes, stringConv⟩], Bytes, lit "string", some id, fun a => withFound fun id e =>
      match e with
      | none => .ub .nullDeref
      | some _ => .get fun w => .set { w with entities := change id (f.put a.1) w.entities } (memberOf f)⟩

/-- The commands at the beginning (AdvancedExample.cpp 129-156). -/
def advancedTable : List (Bytes × List (AdvancedCode × Bytes)) :=
  [(lit "entities.rename", [(.rename, [])]), (lit "entities.create_entity_variable", [(.create, [])]), (lit "entities.list", [(.list, [])]),
    (lit "direction", [(.angle, []), (.setAngle, [])])]

end Coil
