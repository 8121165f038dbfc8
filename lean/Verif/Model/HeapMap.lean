import Verif.Model.UMap
import Verif.Model.Vector
import Verif.Spec.HeapMap

/-!
# `UnorderedMap` over `Vector`s on the heap (include/coil/detail/UnorderedMap.h with Vector.h and Buffer.h)

`Model/UMap.lean` treats the two vectors of a map as lists. Here they are the vectors of `Model/Vector.lean`: blocks on a
heap with slots that are constructed and destroyed one by one, so that growing moves the nodes to another block and
references into the old block dangle. A program has several maps; the map with number `v` owns vector `v` of the
nodes and vector `v` of the buckets. References to nodes inside a function (`Node& newNode`) are used only while the
vector does not grow, and are modelled by indexing again.

All maps of a program have the same load factor.
-/

namespace Coil
namespace HMap
open Spec

/-- What a map is instantiated with: hash function, the comparison `1.0f * n / b > m_maxLoadFactor`, whether `erase` has
the repair (`UMap.fillHole`; the code is `fixed = false`), the sizes of a node and of an index, and what moving
leaves behind in a key and in a value. `spare` is never used (`resize` is not called on `m_nodes`). -/
structure Cfg (K V : Type) where
  hash : K → Nat
  exceeds : Nat → Nat → Bool
  fixed : Bool
  nodeSize : Nat
  indexSize : Nat
  movedKey : K → K
  movedValue : V → V
  spare : UNode K V

/-- The vectors `m_nodes` and `m_buckets` of all maps (UnorderedMap.h 333-334). -/
structure HState (K V : Type) where
  nodes : Vec.State (UNode K V)
  buckets : Vec.State (Option Nat)
  deriving DecidableEq, Repr

variable {K V : Type}

/-- A moved-from node (UnorderedMap.h 41-48): key and value are moved from, the indices are copied. -/
def Cfg.moved (c : Cfg K V) (nd : UNode K V) : UNode K V :=
  { nd with key := c.movedKey nd.key, value := c.movedValue nd.value }

/-- `Vector::size` (Vector.h 172-175) of a vector variable. -/
def sizeVar {α : Type} (s : Vec.State α) (v : Nat) : Res Nat := do
  let buf ← Vec.getVar s.vars v
  .ok buf.size

/-- `Vector::operator[]` (Vector.h 233-245) of a vector variable, read. -/
def readVar {α : Type} (s : Vec.State α) (v i : Nat) : Res α := do
  let buf ← Vec.getVar s.vars v
  Mem.readElem s.mem buf i

/-- A statement on the node vectors. -/
def onNodes (c : Cfg K V) (h : HState K V) (op : Vec.Op (UNode K V)) : Res (HState K V) := do
  let s ← Vec.step c.nodeSize c.moved c.spare h.nodes op
  .ok { h with nodes := s }

/-- A statement on the bucket vectors. `resize` value-initialises an index to 0 (Buffer.h 35-50). -/
def onBuckets (c : Cfg K V) (h : HState K V) (op : Vec.Op (Option Nat)) : Res (HState K V) := do
  let s ← Vec.step c.indexSize id (some 0) h.buckets op
  .ok { h with buckets := s }

/-- Changing members of a node. -/
def modifyNode (c : Cfg K V) (h : HState K V) (v i : Nat) (f : UNode K V → UNode K V) : Res (HState K V) := do
  let nd ← readVar h.nodes v i
  onNodes c h (.write v i (f nd))

/-- Writing `m_buckets[b]` for a possibly invalid bucket index. -/
def writeBucket (c : Cfg K V) (h : HState K V) (v : Nat) (b x : Option Nat) : Res (HState K V) :=
  match b with
  | some b => onBuckets c h (.write v b x)
  | none => .ub .oobWrite

/-- `computeBucketIndex` (UnorderedMap.h 250-255). -/
def bucketOf (c : Cfg K V) (h : HState K V) (v : Nat) (k : K) : Res Nat := do
  let n ← sizeVar h.buckets v
  if n = 0 then .ub .divByZero else .ok (c.hash k % n)

/-- The loop of `findNodeIndex` (UnorderedMap.h 314-326). -/
def findLoop [DecidableEq K] (h : HState K V) (v : Nat) (k : K) : Nat → Option Nat → Res (Option Nat)
  | _, none => .ok none
  | 0, some _ => .diverge
  | fuel + 1, some i => do
    let nd ← readVar h.nodes v i
    if nd.key = k then .ok (some i) else findLoop h v k fuel nd.next

/-- `findNodeIndex` (UnorderedMap.h 308-327). -/
def findIndex [DecidableEq K] (c : Cfg K V) (h : HState K V) (v : Nat) (k : K) : Res (Option Nat) := do
  let b ← bucketOf c h v k
  let first ← readVar h.buckets v b
  let n ← sizeVar h.nodes v
  findLoop h v k (n + 1) first

/-- `find` (UnorderedMap.h 226-242), dereferenced: the value of the key, if any. -/
def find [DecidableEq K] (c : Cfg K V) (h : HState K V) (v : Nat) (k : K) : Res (Option V) := do
  match ← findIndex c h v k with
  | none => .ok none
  | some i => do
    let nd ← readVar h.nodes v i
    .ok (some nd.value)

/-- The loop of `insertNode` (UnorderedMap.h 276-290). -/
def insertLoop (c : Cfg K V) (v new : Nat) : Nat → Nat → HState K V → Res (HState K V)
  | 0, _, _ => .diverge
  | fuel + 1, i, h => do
    let nd ← readVar h.nodes v i
    match nd.next with
    | none => do
      let h1 ← modifyNode c h v i (fun n => { n with next := some new })
      modifyNode c h1 v new (fun n => { n with prev := some i })
    | some j => insertLoop c v new fuel j h

/-- `insertNode` (UnorderedMap.h 257-291). -/
def insertNode (c : Cfg K V) (h : HState K V) (v new : Nat) : Res (HState K V) := do
  let nd ← readVar h.nodes v new
  let b ← bucketOf c h v nd.key
  let h1 ← modifyNode c h v new (fun n => { n with bucket := some b, next := none, prev := none })
  let first ← readVar h1.buckets v b
  match first with
  | none => onBuckets c h1 (.write v b (some new))
  | some f => do
    let n ← sizeVar h1.nodes v
    insertLoop c v new (n + 1) f h1

/-- The loop of `resetBuckets` (UnorderedMap.h 293-297): `count` more buckets from index `i`. -/
def resetLoop (c : Cfg K V) (v : Nat) : Nat → Nat → HState K V → Res (HState K V)
  | 0, _, h => .ok h
  | count + 1, i, h => do
    let h1 ← onBuckets c h (.write v i none)
    resetLoop c v count (i + 1) h1

/-- `resetBuckets` (UnorderedMap.h 293-297). -/
def resetBuckets (c : Cfg K V) (h : HState K V) (v : Nat) : Res (HState K V) := do
  let n ← sizeVar h.buckets v
  resetLoop c v n 0 h

/-- The loop of `rehash` (UnorderedMap.h 304-305): `count` more nodes from index `i`. -/
def rehashLoop (c : Cfg K V) (v : Nat) : Nat → Nat → HState K V → Res (HState K V)
  | 0, _, h => .ok h
  | count + 1, i, h => do
    let h1 ← insertNode c h v i
    rehashLoop c v count (i + 1) h1

/-- `rehash` (UnorderedMap.h 299-306). -/
def rehash (c : Cfg K V) (h : HState K V) (v n : Nat) : Res (HState K V) := do
  let h1 ← onBuckets c h (.resize v n)
  let h2 ← resetBuckets c h1 v
  let count ← sizeVar h2.nodes v
  rehashLoop c v count 0 h2

/-- The growth step of `insertOrAssign` (UnorderedMap.h 149-151). -/
def growIfNeeded (c : Cfg K V) (h : HState K V) (v : Nat) : Res (HState K V) := do
  let size ← sizeVar h.nodes v
  let n ← sizeVar h.buckets v
  if c.exceeds (size + 1) n = true then rehash c h v (size * 2) else .ok h

/-- `insertOrAssign` (UnorderedMap.h 140-159). -/
def insertOrAssign [DecidableEq K] (c : Cfg K V) (h : HState K V) (v : Nat) (k : K) (x : V) : Res (HState K V) := do
  match ← findIndex c h v k with
  | some i => modifyNode c h v i (fun n => { n with value := x })
  | none => do
    let h1 ← growIfNeeded c h v
    let new ← sizeVar h1.nodes v
    let h2 ← onNodes c h1 (.pushBack v ⟨k, x, none, none, none⟩)
    insertNode c h2 v new

/-- Setting the link of the predecessor of a node, or its bucket if there is none (UnorderedMap.h 171-181, 200-209). -/
def linkBefore (c : Cfg K V) (h : HState K V) (v : Nat) (nd : UNode K V) (x : Option Nat) : Res (HState K V) :=
  match nd.prev with
  | some p => modifyNode c h v p (fun n => { n with next := x })
  | none => writeBucket c h v nd.bucket x

/-- Setting the back link of the successor of a node, if any (UnorderedMap.h 183-187). -/
def linkAfter (c : Cfg K V) (h : HState K V) (v : Nat) (nd : UNode K V) (x : Option Nat) : Res (HState K V) :=
  match nd.next with
  | some q => modifyNode c h v q (fun n => { n with prev := x })
  | none => .ok h

/-- Unlinking in `erase` (UnorderedMap.h 166-190). -/
def unlink (c : Cfg K V) (h : HState K V) (v i : Nat) : Res (HState K V) := do
  let e ← readVar h.nodes v i
  let h1 ← linkBefore c h v e e.next
  let e1 ← readVar h1.nodes v i
  let h2 ← linkAfter c h1 v e1 e1.prev
  modifyNode c h2 v i (fun n => { n with prev := none, next := none })

/-- The step that `erase` leaves out (`UMap.relinkNext`). -/
def relinkNext (c : Cfg K V) (h : HState K V) (v : Nat) (nd : UNode K V) (i : Nat) : Res (HState K V) :=
  if c.fixed = true then linkAfter c h v nd (some i) else .ok h

/-- `exchange` of two nodes (Utility.h 25-31): three moves through a temporary. -/
def exchangeNodes (c : Cfg K V) (h : HState K V) (v i j : Nat) : Res (HState K V) := do
  let temp ← readVar h.nodes v i
  let h1 ← onNodes c h (.write v i (c.moved temp))
  let nd ← readVar h1.nodes v j
  let h2 ← onNodes c h1 (.write v j (c.moved nd))
  let h3 ← onNodes c h2 (.write v i nd)
  onNodes c h3 (.write v j temp)

/-- Moving the last node into the hole and `popBack` (UnorderedMap.h 196-217). -/
def fillHole (c : Cfg K V) (h : HState K V) (v i : Nat) : Res (HState K V) := do
  let n ← sizeVar h.nodes v
  if i ≠ n - 1 then
    let last := n - 1
    let l ← readVar h.nodes v last
    let h1 ← linkBefore c h v l (some i)
    let l1 ← readVar h1.nodes v last
    let h2 ← relinkNext c h1 v l1 i
    let h3 ← exchangeNodes c h2 v i last
    onNodes c h3 (.popBack v)
  else
    onNodes c h (.popBack v)

/-- `erase` (UnorderedMap.h 161-218). -/
def erase [DecidableEq K] (c : Cfg K V) (h : HState K V) (v : Nat) (k : K) : Res (HState K V) := do
  match ← findIndex c h v k with
  | none => .ok h
  | some i => do
    let h1 ← unlink c h v i
    fillHole c h1 v i

/-- `clear` (UnorderedMap.h 220-224). -/
def clear (c : Cfg K V) (h : HState K V) (v : Nat) : Res (HState K V) := do
  let h1 ← onNodes c h (.clear v)
  resetBuckets c h1 v

/-- A loop from `begin()` to `end()` (UnorderedMap.h 123-138): `count` more nodes from index `i`. -/
def iterateFrom (h : HState K V) (v : Nat) : Nat → Nat → Res (List (K × V))
  | 0, _ => .ok []
  | count + 1, i => do
    let nd ← readVar h.nodes v i
    let rest ← iterateFrom h v count (i + 1)
    .ok ((nd.key, nd.value) :: rest)

/-- The entries in iteration order. -/
def iterate (h : HState K V) (v : Nat) : Res (List (K × V)) := do
  let n ← sizeVar h.nodes v
  iterateFrom h v n 0

/-- The pointer in an iterator (UnorderedMap.h 50-116): block and index. -/
structure Ref where
  block : Nat
  index : Nat
  deriving DecidableEq, Repr

/-- Dereferencing an iterator (UnorderedMap.h 55-62, 89-96). -/
def Ref.get (h : HState K V) (r : Ref) : Res (K × V) := do
  let cells ← h.nodes.mem.cells r.block
  match cells[r.index]? with
  | some (some nd) => .ok (nd.key, nd.value)
  | some none => .ub .deadObject
  | none => .ub .oobRead

/-- `find` (UnorderedMap.h 226-242): the iterator, `none` for `end()`. -/
def findRef [DecidableEq K] (c : Cfg K V) (h : HState K V) (v : Nat) (k : K) : Res (Option Ref) := do
  match ← findIndex c h v k with
  | none => .ok none
  | some i => do
    let buf ← Vec.getVar h.nodes.vars v
    let b ← Mem.deref buf.ptr
    .ok (some ⟨b, i⟩)

/-- The effect of a statement. The constructor (UnorderedMap.h 118-121) starts with empty vectors; copies, moves and
destruction are those of the members (the class declares none of them). -/
def step [DecidableEq K] (c : Cfg K V) (h : HState K V) : MapOp K V → Res (HState K V)
  | .create n => do
    let v := h.nodes.vars.length
    let h1 ← onBuckets c h (.create 0)
    let h2 ← onNodes c h1 (.create 0)
    rehash c h2 v n
  | .copyNew src => do
    let h1 ← onBuckets c h (.copyNew src)
    onNodes c h1 (.copyNew src)
  | .moveNew src => do
    let h1 ← onBuckets c h (.moveNew src)
    onNodes c h1 (.moveNew src)
  | .copyAssign dst src => do
    let h1 ← onBuckets c h (.copyAssign dst src)
    onNodes c h1 (.copyAssign dst src)
  | .moveAssign dst src => do
    let h1 ← onBuckets c h (.moveAssign dst src)
    onNodes c h1 (.moveAssign dst src)
  | .on v (.put k x) => insertOrAssign c h v k x
  | .on v (.erase k) => erase c h v k
  | .on v .clear => clear c h v
  | .destroy v => do
    let h1 ← onNodes c h (.destroy v)
    onBuckets c h1 (.destroy v)

/-- The effect of a program. -/
def run [DecidableEq K] (c : Cfg K V) : HState K V → List (MapOp K V) → Res (HState K V)
  | h, [] => .ok h
  | h, op :: ops => do
    let h1 ← step c h op
    run c h1 ops

/-- The state before the program. -/
def start : HState K V := ⟨⟨Mem.empty, []⟩, ⟨Mem.empty, []⟩⟩

end HMap
end Coil
