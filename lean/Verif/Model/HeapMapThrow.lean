import Verif.Model.HeapMap
import Verif.Model.VectorThrow

/-!
# Maps when memory runs out (include/coil/detail/UnorderedMap.h)

`Model/HeapMap.lean` with exceptions. An allocation of either vector may throw, and so may the copy of a node (its key or
its value may be a string). Moving keys and values does not throw, and copying indices does not. Each statement comes with
a `Fail`: whether the bucket vector gets no memory, and the fuse (`Vec.Fuse`) of the node vector.
-/

namespace Coil
namespace HMap
open Spec

variable {K V : Type}

/-- What goes wrong during a statement: whether an allocation for buckets throws, and how many allocations and copies for
nodes succeed before one throws. -/
structure Fail where
  buckets : Bool
  nodes : Vec.Fuse
  deriving DecidableEq, Repr

/-- Nothing goes wrong. -/
def Fail.never : Fail := ⟨false, none⟩

/-- Whether `Buffer(n, size)` asks for memory (Buffer.cpp 5-8). -/
def asks (size n : Nat) : Bool := decide (0 < n * size % 2 ^ 64)

/-- Whether `resize(n)` of a bucket vector asks for memory (Vector.h 106-115). -/
def resizeAsks (c : Cfg K V) (h : HState K V) (v n : Nat) : Res Bool := do
  let buf ← Vec.getVar h.buckets.vars v
  .ok (decide (buf.cap < n) && asks c.indexSize n)

/-- Whether copying a bucket vector asks for memory (Vector.h 82-85, 96-101). -/
def copyAsks (c : Cfg K V) (h : HState K V) (v : Nat) : Res Bool := do
  let buf ← Vec.getVar h.buckets.vars v
  .ok (asks c.indexSize buf.size)

/-- A statement on the node vectors, and whether it threw. -/
def nodesT (c : Cfg K V) (h : HState K V) (op : Vec.Op (UNode K V)) (f : Vec.Fuse) : Res (HState K V × Bool) := do
  let (s, t) ← Vec.stepT c.nodeSize false c.moved id (fun _ x => x) c.spare h.nodes op f
  .ok ({ h with nodes := s }, t)

/-- Code that does not throw. -/
def calmly (r : Res (HState K V)) : Res (HState K V × Bool) := do
  let h ← r
  .ok (h, false)

/-- `m_buckets.resize(n)` comes first in `rehash` (UnorderedMap.h 299-306) and is the only part of it that may throw. -/
def rehashT (c : Cfg K V) (h : HState K V) (v n : Nat) (fail : Bool) : Res (HState K V × Bool) := do
  let a ← resizeAsks c h v n
  if fail && a then .ok (h, true) else calmly (rehash c h v n)

/-- The growth step of `insertOrAssign` (UnorderedMap.h 149-151). -/
def growIfNeededT (c : Cfg K V) (h : HState K V) (v : Nat) (fail : Bool) : Res (HState K V × Bool) := do
  let size ← sizeVar h.nodes v
  let n ← sizeVar h.buckets v
  if c.exceeds (size + 1) n = true then rehashT c h v (size * 2) fail else .ok (h, false)

/-- The end of `insertOrAssign` (UnorderedMap.h 156): linking the new node, unless `pushBack` threw. -/
def linkT (c : Cfg K V) (v new : Nat) (p : HState K V × Bool) : Res (HState K V × Bool) :=
  match p with
  | (h, true) => .ok (h, true)
  | (h, false) => calmly (insertNode c h v new)

/-- Adding the new node in `insertOrAssign` (UnorderedMap.h 153-158), unless growing threw. -/
def addT (c : Cfg K V) (v : Nat) (k : K) (x : V) (f : Vec.Fuse) (p : HState K V × Bool) : Res (HState K V × Bool) :=
  match p with
  | (h, true) => .ok (h, true)
  | (h, false) => do
    let new ← sizeVar h.nodes v
    let q ← nodesT c h (.pushBack v ⟨k, x, none, none, none⟩) f
    linkT c v new q

/-- `insertOrAssign` (UnorderedMap.h 140-159). -/
def insertOrAssignT [DecidableEq K] (c : Cfg K V) (h : HState K V) (v : Nat) (k : K) (x : V) (fail : Fail) :
    Res (HState K V × Bool) := do
  match ← findIndex c h v k with
  | some i => calmly (modifyNode c h v i (fun n => { n with value := x }))
  | none => do
    let p ← growIfNeededT c h v fail.buckets
    addT c v k x fail.nodes p

/-- The constructor (UnorderedMap.h 118-121). When `rehash` throws, the members, which hold no memory, are destroyed and
there is no new map. -/
def createT [DecidableEq K] (c : Cfg K V) (h : HState K V) (n : Nat) (fail : Bool) : Res (HState K V × Bool) :=
  if fail && asks c.indexSize n then .ok (h, true) else calmly (step c h (.create n))

/-- The end of the implicit copy constructor: when copying `m_nodes` threw, the member `m_buckets` is destroyed and there is
no new map. -/
def unwindCopy (c : Cfg K V) (v : Nat) (p : HState K V × Bool) : Res (HState K V × Bool) :=
  match p with
  | (h, false) => .ok (h, false)
  | (h, true) => do
    let h1 ← onBuckets c h (.destroy v)
    .ok ({ h1 with buckets := ⟨h1.buckets.mem, h1.buckets.vars.dropLast⟩ }, true)

/-- The implicit copy constructor: `m_buckets`, then `m_nodes` (UnorderedMap.h 333-334). -/
def copyNewT (c : Cfg K V) (h : HState K V) (src : Nat) (fail : Fail) : Res (HState K V × Bool) := do
  let a ← copyAsks c h src
  if fail.buckets && a then .ok (h, true)
  else do
    let v := h.buckets.vars.length
    let h1 ← onBuckets c h (.copyNew src)
    let p ← nodesT c h1 (.copyNew src) fail.nodes
    unwindCopy c v p

/-- The implicit copy assignment: `m_buckets`, then `m_nodes` (UnorderedMap.h 333-334). When the second throws, the first has
been assigned. -/
def copyAssignT (c : Cfg K V) (h : HState K V) (dst src : Nat) (fail : Fail) : Res (HState K V × Bool) := do
  let a ← copyAsks c h src
  if fail.buckets && a then .ok (h, true)
  else do
    let h1 ← onBuckets c h (.copyAssign dst src)
    nodesT c h1 (.copyAssign dst src) fail.nodes

/-- The effect of a statement, and whether it threw. Moves, `erase`, `clear` and the destructor neither allocate nor copy. -/
def stepT [DecidableEq K] (c : Cfg K V) (h : HState K V) (op : MapOp K V) (fail : Fail) : Res (HState K V × Bool) :=
  match op with
  | .create n => createT c h n fail.buckets
  | .copyNew src => copyNewT c h src fail
  | .copyAssign dst src => copyAssignT c h dst src fail
  | .on v (.put k x) => insertOrAssignT c h v k x fail
  | op => calmly (step c h op)

/-- A program that catches exceptions: a statement with what goes wrong in it, and how to go on depending on whether it
threw. -/
inductive TryMaps (K V : Type) where
  | stop
  | stmt (op : MapOp K V) (fail : Fail) (next : Bool → TryMaps K V)

/-- The effect of such a program. -/
def runT [DecidableEq K] (c : Cfg K V) : HState K V → TryMaps K V → Res (HState K V)
  | h, .stop => .ok h
  | h, .stmt op fail next => do
    let (h1, threw) ← stepT c h op fail
    runT c h1 (next threw)

end HMap
end Coil
