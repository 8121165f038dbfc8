import Verif.Model.ViewsLift
import Verif.Model.Enums

/-!
# Functions that keep views

Two of the examples keep views of their arguments after the command has ended: `Inventory::add` (examples/named/NamedExample.cpp 86-98)
stores a `std::string_view` in the inventory, and `entities.create_entity_variable` (examples/advanced/AdvancedExample.cpp 140-146) registers
function objects that have captured one. Both are modelled twice: as they are, on views (`Model/Views.lean`), and with copies of the texts
(`Model/Exec.lean`).

Simplifications. Named arguments are looked at as soon as they are asked for. Captured views are kept in the state of the program, and the
function objects capture their index. `std::find_if` on entities looks at the whole view if there is an entity. Texts are shorter than 2^31
bytes, so that the casts to `int` keep their lengths. `direction` (AdvancedExample.cpp 155-156) is left out.
-/

namespace Coil
namespace Vw

variable {S W C D R R' : Type}

/-- One statement after another. -/
def VProg.bind : VProg W C D R → (R → VProg W C D R') → VProg W C D R'
  | .ret r, f => f r
  | .throw e, _ => .throw e
  | .ub w, _ => .ub w
  | .diverge, _ => .diverge
  | .log s k, f => .log s (k.bind f)
  | .logline s k, f => .logline s (k.bind f)
  | .reportError s k, f => .reportError s (k.bind f)
  | .hasErrors k, f => .hasErrors (fun b => (k b).bind f)
  | .named k, f => .named (fun l => (k l).bind f)
  | .setNamed i v k, f => .setNamed i v (k.bind f)
  | .get k, f => .get (fun w => (k w).bind f)
  | .set w k, f => .set w (k.bind f)
  | .captured k, f => .captured (fun d => (k d).bind f)
  | .add n fs k, f => .add n fs (k.bind f)
  | .remove n k, f => .remove n (k.bind f)
  | .clear k, f => .clear (k.bind f)
  | .execLine c k, f => .execLine c (fun o => (k o).bind f)
  | .execInput i k, f => .execInput i (fun o => (k o).bind f)
  | .make t k, f => .make t (fun b => (k b).bind f)
  | .write b t k, f => .write b t (k.bind f)
  | .free b k, f => .free b (k.bind f)
  | .read r k, f => .read r (fun t => (k t).bind f)

/-- `NamedArgs::getOrReport<T>(key, argType, defaultValue)` (NamedArgs.h 75-86) on views. -/
def vnamedT {T : Type} (conv : Conv T) (key : Bytes) (required : Bool) (dflt : Option T) : VProg W C D (Option T) :=
  .named fun l => readNamedThen l fun l' =>
    match namedFind key l' with
    | none =>
      if required then .reportError (lit "Missing named argument '" ++ cstr key ++ lit "'") (.ret none) else .ret dflt
    | some nv =>
      match conv.fromString nv.value with
      | .ok (.ok x) => .ret (some x)
      | .ok (.error e) => .reportError e (.ret none)
      | .ub w => .ub w
      | .diverge => .diverge

/-! ## The inventory -/

/-- `enum class Source` (NamedExample.cpp 13-19). -/
def sourceDecl : EnumDecl :=
  ⟨lit "Source", .int, true, [(lit "None", 0), (lit "Loot", 1), (lit "Reward", 2), (lit "Debug", 3)]⟩

/-- `enum class Type` (NamedExample.cpp 21-27). -/
def typeDecl : EnumDecl :=
  ⟨lit "Type", .int, true, [(lit "None", 0), (lit "Key", 1), (lit "Weapon", 2), (lit "Currency", 3)]⟩

/-- `Item` (NamedExample.cpp 29-36); `N` is the type of the name. -/
structure Item (N : Type) where
  id : Int
  name : N
  amount : Int
  source : Int
  type : Int
  deriving DecidableEq

/-- What `Inventory::list` is asked for (NamedExample.cpp 45-48). -/
structure Filter where
  name : Option Bytes
  minAmount : Option Int
  source : Option Int
  type : Option Int

/-- `text.find(part) != npos`. -/
def contains (text part : Bytes) : Bool :=
  match text with
  | [] => part.isEmpty
  | c :: rest => part.isPrefixOf (c :: rest) || contains rest part

/-- The part of `doesItemMatch` that is about the name (NamedExample.cpp 56). -/
def Filter.nameOk (f : Filter) (t : Bytes) : Bool :=
  match f.name with
  | none => true
  | some n => contains t n

/-- The rest of `doesItemMatch` (NamedExample.cpp 57-61). -/
def Filter.restOk {N : Type} (f : Filter) (i : Item N) : Bool :=
  (match f.minAmount with
    | none => true
    | some a => decide (a ≤ i.amount)) &&
  (match f.source with
    | none => true
    | some s => i.source == s) &&
  (match f.type with
    | none => true
    | some t => i.type == t)

/-- A line of the list (NamedExample.cpp 73-81). -/
def itemLine {N : Type} (pl : Platform) (i : Item N) (name : Bytes) : Bytes :=
  natDec i.id.toNat ++ lit "\t" ++ cstr name ++ lit "\t" ++ natDec i.amount.toNat ++ lit "\t" ++
    enumName (sourceDecl.entries pl) i.source ++ lit "\t" ++ enumName (typeDecl.entries pl) i.type

/-- The functions of the inventory. -/
inductive InvCode where
  | list
  | add
  deriving DecidableEq

/-- The loop of `Inventory::list` (NamedExample.cpp 67-83), with names that are views. -/
def listLoop (pl : Platform) (f : Filter) : List (Item Ref) → VProg (List (Item Ref)) InvCode Unit Unit
  | [] => .ret ()
  | i :: rest =>
    match f.name with
    | none =>
      if f.restOk i then .read i.name fun t => .logline (itemLine pl i t) (listLoop pl f rest) else listLoop pl f rest
    | some _ => .read i.name fun t =>
      if f.nameOk t && f.restOk i then .read i.name fun t => .logline (itemLine pl i t) (listLoop pl f rest) else listLoop pl f rest

/-- The same with names that are texts. -/
def listLoopText {C D : Type} (pl : Platform) (f : Filter) : List (Item Bytes) → Prog (List (Item Bytes)) C D Unit
  | [] => .ret ()
  | i :: rest =>
    if f.nameOk i.name && f.restOk i then .logline (itemLine pl i i.name) (listLoopText pl f rest) else listLoopText pl f rest

/-- The inventory (NamedExample.cpp 38-99); `sz` is the type `std::size_t`. -/
def inventory (pl : Platform) (sz : IntType) : InvCode → VDef (List (Item Ref)) InvCode Unit
  | .list => ⟨[], Unit, none, fun _ =>
      (vnamedT stringConv (lit "name") false none).bind fun name =>
      (vnamedT (intConv pl sz) (lit "min_amount") false none).bind fun minAmount =>
      (vnamedT (enumConv pl sourceDecl) (lit "source") false none).bind fun source =>
      (vnamedT (enumConv pl typeDecl) (lit "type") false none).bind fun type =>
      .hasErrors fun b =>
        if b then .ret ()
        else .logline (lit "ID\tName\tAmount\tSource\tType") <| .logline (lit "--\t----\t------\t------\t----") <|
          .get fun items => listLoop pl ⟨name, minAmount, source, type⟩ items⟩
  | .add => ⟨[.owned ⟨Int, intConv pl sz⟩, .view], Unit, none, fun a =>
      (vnamedT (intConv pl sz) (lit "amount") false (some 1)).bind fun amount =>
      (vnamedT (enumConv pl typeDecl) (lit "type") false (some 2)).bind fun type =>
      match amount, type with
      | some n, some t => .get fun items => .set (items ++ [⟨a.1, a.2.1, n, 3, t⟩]) (.ret ())
      | _, _ => .ret ()⟩

/-- `Inventory::list` (NamedExample.cpp 41-84) with names that are texts. -/
def listTextDef {C D : Type} (pl : Platform) (sz : IntType) : FunctorDef (List (Item Bytes)) C D :=
  ⟨[], Unit, lit "void", none, fun _ =>
    (namedGetOrReportT stringConv (lit "name") false none).bind fun name =>
    (namedGetOrReportT (intConv pl sz) (lit "min_amount") false none).bind fun minAmount =>
    (namedGetOrReportT (enumConv pl sourceDecl) (lit "source") false none).bind fun source =>
    (namedGetOrReportT (enumConv pl typeDecl) (lit "type") false none).bind fun type =>
    .hasErrors fun b =>
      if b then .ret ()
      else .logline (lit "ID\tName\tAmount\tSource\tType") <| .logline (lit "--\t----\t------\t------\t----") <|
        .get fun items => listLoopText pl ⟨name, minAmount, source, type⟩ items⟩

/-- `Inventory::add` (NamedExample.cpp 86-98) with names that are texts. -/
def addTextDef {C D : Type} (pl : Platform) (sz : IntType) : FunctorDef (List (Item Bytes)) C D :=
  ⟨[⟨Int, intConv pl sz⟩, ⟨Bytes, stringConv⟩], Unit, lit "void", none, fun a =>
    (namedGetOrReportT (intConv pl sz) (lit "amount") false (some 1)).bind fun amount =>
    (namedGetOrReportT (enumConv pl typeDecl) (lit "type") false (some 2)).bind fun type =>
    match amount, type with
    | some n, some t => .get fun items => .set (items ++ [⟨a.1, a.2.1, n, 3, t⟩]) (.ret ())
    | _, _ => .ret ()⟩

/-- The inventory with copies of the names (NamedExample.cpp 38-99). -/
def inventoryText (pl : Platform) (sz : IntType) : InvCode → FunctorDef (List (Item Bytes)) InvCode Unit
  | .list => listTextDef pl sz
  | .add => addTextDef pl sz

/-! ## The entities -/

/-- `Entity` (AdvancedExample.cpp 18-23). -/
structure Entity where
  id : Bytes
  name : Bytes
  payload : Bytes
  deriving DecidableEq

/-- `EntitySystem`, and the views that were captured. -/
structure Entities (N : Type) where
  entities : List Entity
  ids : List N
  deriving DecidableEq

/-- `EntitySystem::find` (AdvancedExample.cpp 33-40). -/
def lookup (t : Bytes) : List Entity → Option Entity
  | [] => none
  | e :: rest => if e.id = t then some e else lookup t rest

/-- Changing the entity that `find` gives. -/
def change (t : Bytes) (f : Entity → Entity) : List Entity → List Entity
  | [] => []
  | e :: rest => if e.id = t then f e :: rest else e :: change t f rest

/-- The members of an entity. -/
inductive Field where
  | id
  | name
  | payload
  deriving DecidableEq

/-- Reading a member. -/
def Field.of : Field → Entity → Bytes
  | .id, e => e.id
  | .name, e => e.name
  | .payload, e => e.payload

/-- Writing a member; there is no setter for the id. -/
def Field.put (v : Bytes) : Field → Entity → Entity
  | .id, e => e
  | .name, e => { e with name := v }
  | .payload, e => { e with payload := v }

/-- The functions of the example: the registered ones, and those of the variables they make. -/
inductive EntCode where
  | rename
  | create
  | list
  | whole
  | wholeSet
  | field (f : Field)
  | fieldSet (f : Field)
  deriving DecidableEq

/-- `TypeSerializer<Entity>` (AdvancedExample.cpp 108-118), and pointers. -/
def entityText (e : Option Entity) : Bytes :=
  match e with
  | none => lit "null"
  | some e => lit "EntityId{" ++ cstr e.id ++ lit "}"

/-- `entities.find(id)` of the captured view (AdvancedExample.cpp 141). -/
def captureThen (k : Bytes → Option Entity → VProg (Entities Ref) EntCode Nat R) : VProg (Entities Ref) EntCode Nat R :=
  .captured fun i => .get fun w =>
    match w.ids[i]? with
    | none => .ub .oobRead
    | some r => if w.entities = [] then k [] none else .read r fun t => k t (lookup t w.entities)

/-- The same on texts. -/
def captureThenText (k : Bytes → Option Entity → Prog (Entities Bytes) EntCode Nat R) : Prog (Entities Bytes) EntCode Nat R :=
  .captured fun i => .get fun w =>
    match w.ids[i]? with
    | none => .ub .oobRead
    | some t => if w.entities = [] then k [] none else k t (lookup t w.entities)

/-- The getter of a member (AdvancedExample.cpp 143-145): the pointer is not checked. -/
def fieldGet (f : Field) : VProg (Entities Ref) EntCode Nat Bytes :=
  captureThen fun _ e =>
    match e with
    | none => .ub .nullDeref
    | some e => .ret (f.of e)

/-- The same on texts. -/
def fieldGetText (f : Field) : Prog (Entities Bytes) EntCode Nat Bytes :=
  captureThenText fun _ e =>
    match e with
    | none => .ub .nullDeref
    | some e => .ret (f.of e)

/-- The functors that make up the four variables (AdvancedExample.cpp 142-145). -/
def variableCodes (i : Nat) (name : Bytes) : List (Bytes × List (EntCode × Nat)) :=
  [(name, [(.whole, i), (.wholeSet, i)]),
    (name ++ lit ".id", [(.field .id, i), (.fieldSet .id, i)]),
    (name ++ lit ".name", [(.field .name, i), (.fieldSet .name, i)]),
    (name ++ lit ".payload", [(.field .payload, i), (.fieldSet .payload, i)])]

/-- `bindings[…] = …;` several times, from a function object that has captured `bindings`. -/
def addAll {W C D R : Type} : List (Bytes × List (C × D)) → VProg W C D R → VProg W C D R
  | [], k => k
  | (n, fs) :: rest, k => .captured fun _ => .add n fs (addAll rest k)

/-- The same on texts. -/
def addAllText {W C D R : Type} : List (Bytes × List (C × D)) → Prog W C D R → Prog W C D R
  | [], k => k
  | (n, fs) :: rest, k => .captured fun _ => .add n fs (addAllText rest k)

/-- The lines of `entities.list` (AdvancedExample.cpp 151-152). -/
def entityLine (e : Entity) : Bytes := cstr e.id ++ lit "\t" ++ cstr e.name ++ lit "\t" ++ cstr e.payload

/-- The entities (AdvancedExample.cpp 129-153). -/
def advanced : EntCode → VDef (Entities Ref) EntCode Nat
  | .rename => ⟨[.view, .owned ⟨Bytes, stringConv⟩], Unit, none, fun a => .captured fun _ => .get fun w =>
      .read a.1 fun t =>
      match lookup t w.entities with
      | none => .reportError (lit "Failed to find entity '" ++ t ++ lit "'") (.ret ())
      | some _ => .set { w with entities := change t (Field.name.put a.2.1) w.entities } (.ret ())⟩
  | .create => ⟨[.view, .view], Unit, none, fun a => .captured fun _ => .get fun w =>
      .set { w with ids := w.ids ++ ([a.2.1] : List Ref) } <| .read a.1 fun n => addAll (variableCodes w.ids.length n) (.ret ())⟩
  | .list => ⟨[], Unit, none, fun _ => .logline (lit "ID\tName\tPayload") <| .logline (lit "--\t----\t-------") <|
      .captured fun _ => .get fun w => w.entities.foldr (fun e k => .logline (entityLine e) k) (.ret ())⟩
  | .whole => ⟨[], Option Entity, some fun _ e => .ok (entityText e), fun _ => captureThen fun _ e => .ret e⟩
  | .wholeSet => ⟨[.value], Option Entity, some fun _ e => .ok (entityText e), fun _ =>
      .reportError (lit "This property is read-only") <| captureThen fun _ e => .ret e⟩
  | .field f => ⟨[], Bytes, some fun _ t => .ok t, fun _ => fieldGet f⟩
  | .fieldSet .id => ⟨[.value], Bytes, some fun _ t => .ok t, fun _ => .reportError (lit "This property is read-only") <| fieldGet .id⟩
  | .fieldSet f => ⟨[.owned ⟨Bytes, stringConv⟩], Bytes, some fun _ t => .ok t, fun a => captureThen fun t e =>
      match e with
      | none => .ub .nullDeref
      | some _ => .get fun w => .set { w with entities := change t (f.put a.1) w.entities } (fieldGet f)⟩

/-- The entities with copies of the texts that are captured. -/
def advancedText : EntCode → FunctorDef (Entities Bytes) EntCode Nat
  | .rename => ⟨[⟨Bytes, stringConv⟩, ⟨Bytes, stringConv⟩], Unit, lit "void", none, fun a => .captured fun _ => .get fun w =>
      match lookup a.1 w.entities with
      | none => .reportError (lit "Failed to find entity '" ++ a.1 ++ lit "'") (.ret ())
      | some _ => .set { w with entities := change a.1 (Field.name.put a.2.1) w.entities } (.ret ())⟩
  | .create => ⟨[⟨Bytes, stringConv⟩, ⟨Bytes, stringConv⟩], Unit, lit "void", none, fun a => .captured fun _ => .get fun w =>
      .set { w with ids := w.ids ++ [a.2.1] } <| addAllText (variableCodes w.ids.length a.1) (.ret ())⟩
  | .list => ⟨[], Unit, lit "void", none, fun _ => .logline (lit "ID\tName\tPayload") <| .logline (lit "--\t----\t-------") <|
      .captured fun _ => .get fun w => w.entities.foldr (fun e k => .logline (entityLine e) k) (.ret ())⟩
  | .whole => ⟨[], Option Entity, lit "Entity", some entityText, fun _ => captureThenText fun _ e => .ret e⟩
  | .wholeSet => ⟨[⟨Value, valueConv⟩], Option Entity, lit "Entity", some entityText, fun _ =>
      .reportError (lit "This property is read-only") <| captureThenText fun _ e => .ret e⟩
  | .field f => ⟨[], Bytes, lit "string", some id, fun _ => fieldGetText f⟩
  | .fieldSet .id => ⟨[⟨Value, valueConv⟩], Bytes, lit "string", some id, fun _ =>
      .reportError (lit "This property is read-only") <| fieldGetText .id⟩
  | .fieldSet f => ⟨[⟨Bytes, stringConv⟩], Bytes, lit "string", some id, fun a => captureThenText fun t e =>
      match e with
      | none => .ub .nullDeref
      | some _ => .get fun w => .set { w with entities := change t (f.put a.1) w.entities } (fieldGetText f)⟩

/-! ## Sessions -/

/-- Executing lines whose texts stay in place, as the examples do with string literals (`common::executeCommand`, ExamplesCommon.cpp 27-43). -/
def inPlace (lex : VLexer) (V : C → VDef W C D) (ops : RegOps S C D) (catching : Bool) (fuel : Nat) :
    VSys S W C D → List Bytes → Res (VSys S W C D × List VOut)
  | s, [] => .ok (s, [])
  | s, t :: ts => do
    let (s1, o) ← vexecute lex V ops catching fuel { s with mem := s.mem.make t } ⟨s.mem.length, 0, t.length⟩
    let (s2, os) ← inPlace lex V ops catching fuel s1 ts
    .ok (s2, o :: os)

/-- What a console shows of a result (main.cpp 99-113). -/
structure Shown where
  errors : List Bytes
  returnValue : Option Bytes
  output : Bytes
  deriving DecidableEq

/-- What can be shown of what `execute` gives; an exception ends the console. -/
inductive ShownOut where
  | exn (e : Exn)
  | shown (r : Shown)
  deriving DecidableEq

/-- What is shown, on views. -/
def VOut.shown : VOut → ShownOut
  | .error e => .exn e
  | .ok r => .shown ⟨r.errors, r.returnValue, r.output⟩

/-- What is shown, on texts. -/
def shownText : ExecOut → ShownOut
  | .error e => .exn e
  | .ok r => .shown ⟨r.errors, r.returnValue, r.output⟩

/-- A console that reads each line into a string of its own, which is destroyed before the next line is read (main.cpp 115-122). -/
def eachLine (lex : VLexer) (V : C → VDef W C D) (ops : RegOps S C D) (catching : Bool) (fuel : Nat) :
    VSys S W C D → List Bytes → Res (VSys S W C D × List ShownOut)
  | s, [] => .ok (s, [])
  | s, t :: ts => do
    let (s1, o) ← vexecute lex V ops catching fuel { s with mem := s.mem.make t } ⟨s.mem.length, 0, t.length⟩
    let m ← s1.mem.free s.mem.length
    let (s2, os) ← eachLine lex V ops catching fuel { s1 with mem := m } ts
    .ok (s2, o.shown :: os)

/-- A console that reads all lines into the same buffer. -/
def oneBuffer (lex : VLexer) (V : C → VDef W C D) (ops : RegOps S C D) (catching : Bool) (fuel : Nat) (b : Nat) :
    VSys S W C D → List Bytes → Res (VSys S W C D × List ShownOut)
  | s, [] => .ok (s, [])
  | s, t :: ts => do
    let m ← s.mem.write b t
    let (s1, o) ← vexecute lex V ops catching fuel { s with mem := m } ⟨b, 0, t.length⟩
    let (s2, os) ← oneBuffer lex V ops catching fuel b s1 ts
    .ok (s2, o.shown :: os)

end Vw
end Coil
