import Verif.Model.Lifetime

/-!
# The texts and places of commands in `Bindings` (src/Coil.cpp 204-238, include/coil/detail/UnorderedMap.h, Vector.h)

A `Command` has a member `name`, a view of the text of the map's key (Coil.cpp 214). This model follows where the texts and the
nodes are: the text of a key is a heap block owned by the key (`String` has no small-string optimisation, String.cpp 12-20), the nodes are in
the block of a `Vector`. Which node a look-up finds is a parameter of the statements here (`found`), so that what is proved holds for every
hash table; the look-up is in Model/UMap.
-/

namespace Coil
namespace Names

/-- A node: the text block of `m_key`, the view `m_value.name` (block and length; null after `StringView{}`), and which call of `add` made the
value (`m_value.functors`). A moved-from key has no block (Buffer.cpp 18-21). -/
structure Node where
  key : Option Nat
  name : Option (Nat × Nat)
  cmd : Nat
  deriving DecidableEq, Repr

/-- Text blocks with a flag that says whether they are alive; the block of the node vector, its capacity and the nodes; the number of calls of `add`. -/
structure State where
  texts : List (Bytes × Bool)
  block : Nat
  cap : Nat
  nodes : List Node
  adds : Nat
  deriving DecidableEq, Repr

/-- The calls. -/
inductive Op where
  | add (name : Bytes) (found : Option Nat)
  | remove (found : Option Nat)
  | clear
  deriving DecidableEq, Repr

/-- `new char[]` and the copy of the text (String.cpp 12-20). -/
def alloc (texts : List (Bytes × Bool)) (t : Bytes) : List (Bytes × Bool) × Nat := (texts ++ [(t, true)], texts.length)

/-- `delete[]` in `~Buffer` (Buffer.cpp 23-30); nothing for a moved-from string. -/
def freeKey (texts : List (Bytes × Bool)) : Option Nat → Res (List (Bytes × Bool))
  | none => .ok texts
  | some b =>
    match texts[b]? with
    | some (t, true) => .ok (texts.set b (t, false))
    | _ => .ub .useAfterFree

/-- The destructors of nodes, last one first (Vector.h 150-155). -/
def destroyAll : List (Bytes × Bool) → List Node → Res (List (Bytes × Bool))
  | texts, [] => .ok texts
  | texts, n :: ns => do
    let texts1 ← destroyAll texts ns
    freeKey texts1 n.key

/-- `String::operator StringView` (String.cpp 167-170). -/
def viewOf (texts : List (Bytes × Bool)) : Option Nat → Res (Nat × Nat)
  | none => .ub .nullDeref
  | some b =>
    match texts[b]? with
    | some (t, true) => .ok (b, t.length)
    | _ => .ub .useAfterFree

/-- The move constructor of a node: the key's block moves, the view is copied (the members are moved one by one). -/
def Node.moveOut (n : Node) : Node × Node := (n, { n with key := none })

/-- `Vector::grow` (Vector.h 258-278): nodes are moved to a new block and the moved-from nodes destroyed. -/
def grow (s : State) (cap : Nat) : Res State := do
  let texts ← destroyAll s.texts (s.nodes.map (fun n => n.moveOut.2))
  .ok { s with texts := texts, block := s.block + 1, cap := cap, nodes := s.nodes.map (fun n => n.moveOut.1) }

/-- The growth in `pushBack` (Vector.h 123-132). -/
def growForPush (s : State) : Res State :=
  if s.nodes.length + 1 > s.cap then
    grow s (if s.nodes.length + 1 > s.nodes.length * 3 / 2 then s.nodes.length + 1 else s.nodes.length * 3 / 2)
  else .ok s

/-- Effects of the calls.
* `add` (Coil.cpp 211-217) with `insertOrAssign` (UnorderedMap.h 140-159): `String{name}` is made first. If the key is found, the value is
  assigned and the new key destroyed; otherwise a node is added. Then the name is set to a view of the node's key.
* `remove` (219-222) with `erase` (161-215): `exchange` with the last node, then `popBack`.
* `clear` (233-236). -/
def step (s : State) : Op → Res State
  | .add name found =>
    let (texts, k) := alloc s.texts name
    match found with
    | some i => do
      let n ← readAt s.nodes i
      let n1 := { n with name := none, cmd := s.adds }
      let texts1 ← freeKey texts (some k)
      let v ← viewOf texts1 n1.key
      .ok { s with texts := texts1, nodes := s.nodes.set i { n1 with name := some v }, adds := s.adds + 1 }
    | none => do
      let s1 ← growForPush { s with texts := texts }
      let v ← viewOf s1.texts (some k)
      .ok { s1 with nodes := s1.nodes ++ [⟨some k, some v, s.adds⟩], adds := s.adds + 1 }
  | .remove none => .ok s
  | .remove (some i) => do
    let n ← readAt s.nodes i
    let l ← readAt s.nodes (s.nodes.length - 1)
    let nodes := if i ≠ s.nodes.length - 1 then (s.nodes.set i l).set (s.nodes.length - 1) n else s.nodes
    let texts ← freeKey s.texts n.key
    .ok { s with texts := texts, nodes := nodes.dropLast }
  | .clear => do
    let texts ← destroyAll s.texts s.nodes
    .ok { s with texts := texts, nodes := [] }

/-- A history. -/
def run : State → List Op → Res State
  | s, [] => .ok s
  | s, op :: ops => do
    let s' ← step s op
    run s' ops

/-- A new registry: `Vector` of capacity 0. -/
def State.init : State := ⟨[], 0, 0, [], 0⟩

/-- Reading the characters of a view. -/
def readView (s : State) : Option (Nat × Nat) → Res Bytes
  | none => .ub .nullDeref
  | some (b, len) =>
    match s.texts[b]? with
    | some (t, true) => if len ≤ t.length then .ok (t.take len) else .ub .oobRead
    | _ => .ub .useAfterFree

/-- A `Command const&` or `Command const*` (Coil.cpp 216, 230): an element of a block of nodes. -/
structure Ref where
  block : Nat
  index : Nat
  deriving DecidableEq, Repr

/-- The command that a reference refers to: undefined behaviour if the block was released or the element destroyed. -/
def deref (s : State) (r : Ref) : Res Node :=
  if r.block = s.block then
    match s.nodes[r.index]? with
    | some n => .ok n
    | none => .ub .deadObject
  else .ub .useAfterFree

/-- Reading `name` through a reference. -/
def refName (s : State) (r : Ref) : Res Bytes := do
  let n ← deref s r
  readView s n.name

end Names
end Coil
