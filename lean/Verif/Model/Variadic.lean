import Verif.Model.Exec

/-!
# Entities with ids and names

The class `Entities` of examples/variadic/VariadicExample.cpp and its commands.

Simplification: `std::size_t` is `unsigned long`.
-/

namespace Coil

variable {W C D : Type}

/-- `Entity` (VariadicExample.cpp 12-16). -/
structure Entity where
  id : Int
  name : Bytes
  deriving DecidableEq, Repr

/-- Where the program keeps the entities. -/
structure EntitiesAt (W : Type) where
  read : W → List Entity
  write : W → List Entity → W

/-- The loops of `Entities::getById` and `getByName` (VariadicExample.cpp 21-35): the position of the first entity with a property. -/
def findEntity (p : Entity → Bool) : List Entity → Option Nat
  | [] => none
  | e :: es => if p e then some 0 else (findEntity p es).map (· + 1)

/-- The end of `Entities::rename` (VariadicExample.cpp 57-60), where the entity is looked for with `p`. -/
def renameWhere (at_ : EntitiesAt W) (entity : Value) (newName : Bytes) (p : Entity → Bool) : Prog W C D Unit :=
  .get fun w =>
    match findEntity p (at_.read w) with
    | some i => .set (at_.write w ((at_.read w).modify i fun e => { e with name := newName })) (.ret ())
    | none => .reportError (lit "Failed to find entity '" ++ entity.str ++ lit "'") (.ret ())

/-- `Entities::rename` (VariadicExample.cpp 37-61). -/
def renameProg (pl : Platform) (at_ : EntitiesAt W) (entity : Value) (newName : Bytes) : Prog W C D Unit :=
  (Prog.ofRes ((intConv pl .ulong).fromString entity)).bind fun
    | .ok id => renameWhere at_ entity newName fun e => e.id = id
    | .error idError =>
      (Prog.ofRes (stringConv.fromString entity)).bind fun
        | .ok name => renameWhere at_ entity newName fun e => e.name = name
        | .error nameError =>
          .reportError (lit "Unknown type of 'entity'") (.reportError idError (.reportError nameError (.ret ())))

/-- The function object of `entities.rename` (VariadicExample.cpp 84). -/
def renameDef (pl : Platform) (at_ : EntitiesAt W) : FunctorDef W C D where
  params := [⟨Value, valueConv⟩, ⟨Bytes, stringConv⟩]
  R := Unit
  retName := lit "void"
  print := none
  body a := renameProg pl at_ a.1 a.2.1

/-- The loop of `Entities::list` (VariadicExample.cpp 66-67): `context.loglinef("%zu: %s", ...)`. -/
def listLoop : List Entity → Prog W C D Unit
  | [] => .ret ()
  | e :: es => .logline (intDec e.id ++ lit ": " ++ cstr e.name) (listLoop es)

/-- The function object of `entities.list` (VariadicExample.cpp 63-68, 85). -/
def listDef (at_ : EntitiesAt W) : FunctorDef W C D where
  params := []
  R := Unit
  retName := lit "void"
  print := none
  body _ := .logline (lit "Entities:") (.get fun w => listLoop (at_.read w))

/-- The function object of `entities.add` (VariadicExample.cpp 70-73, 86). -/
def addEntityDef (pl : Platform) (at_ : EntitiesAt W) : FunctorDef W C D where
  params := [⟨Int, intConv pl .ulong⟩, ⟨Bytes, stringConv⟩]
  R := Unit
  retName := lit "void"
  print := none
  body a := .get fun w => .set (at_.write w (at_.read w ++ [⟨a.1, a.2.1⟩])) (.ret ())

end Coil
