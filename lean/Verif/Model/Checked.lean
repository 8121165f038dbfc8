import Verif.Model.Assert
import Verif.Model.UMap

/-!
# Builds with assertions (`COIL_CONFIG_ENABLE_ASSERTS`, include/coil/detail/Assert.h)

The rest of the model follows builds without assertions (the default, Config.h 10-13). Here the functions of the map are
written once more, with every `COIL_ASSERT` on their way: those of `UnorderedMap.h` and those of `Vector::operator[]`,
`Vector::back` and `Vector::popBack`, which the map calls. A failed assertion is the outcome `ub .assertion`.
-/

namespace Coil

/-- Writing a field through `Vector::operator[]` (Vector.h 240-245). -/
def modifyC {α : Type} (l : List α) (i : Nat) (f : α → α) : Res (List α) := do
  assertThat (i < l.length)
  modifyAt l i f

namespace UMap

variable {K V : Type} [DecidableEq K] (hash : K → Nat)

/-- The loop of `findNodeIndex` with its assertion (UnorderedMap.h 314-326). -/
def findLoopC (nodes : List (UNode K V)) (k : K) : Nat → Option Nat → Res (Option Nat)
  | _, none => .ok none
  | 0, some _ => .diverge
  | fuel + 1, some i => do
    assertThat (i < nodes.length)
    let nd ← readC nodes i
    if nd.key = k then .ok (some i) else findLoopC nodes k fuel nd.next

/-- `findNodeIndex` with its assertions (UnorderedMap.h 308-327). -/
def findIndexC (m : UMap K V) (k : K) : Res (Option Nat) := do
  let b ← bucketOf hash m k
  assertThat (b < m.buckets.length)
  let first ← readC m.buckets b
  findLoopC m.nodes k (m.nodes.length + 1) first

/-- `find` with its assertions (UnorderedMap.h 226-242). -/
def findC (m : UMap K V) (k : K) : Res (Option V) := do
  match ← findIndexC hash m k with
  | none => .ok none
  | some i => do
    let nd ← readC m.nodes i
    .ok (some nd.value)

/-- The loop of `insertNode` with its assertion (UnorderedMap.h 276-290). `newNode` is a reference that was taken before (260). -/
def insertLoopC (nodes : List (UNode K V)) (new : Nat) : Nat → Nat → Res (List (UNode K V))
  | 0, _ => .diverge
  | fuel + 1, i => do
    assertThat (i < nodes.length)
    let nd ← readC nodes i
    match nd.next with
    | none => do
      let nodes1 ← modifyC nodes i (fun n => { n with next := some new })
      modifyC nodes1 new (fun n => { n with prev := some i })
    | some j => insertLoopC nodes new fuel j

/-- `insertNode` with its assertions (UnorderedMap.h 257-291). -/
def insertNodeC (m : UMap K V) (new : Nat) : Res (UMap K V) := do
  assertThat (new < m.nodes.length)
  let nd ← readC m.nodes new
  let b ← bucketOf hash m nd.key
  assertThat (b < m.buckets.length)
  let nodes1 ← modifyC m.nodes new (fun n => { n with bucket := some b, next := none, prev := none })
  let first ← readC m.buckets b
  match first with
  | none => do
    let bs ← writeC m.buckets b (some new)
    .ok ⟨bs, nodes1⟩
  | some f => do
    let nodes2 ← insertLoopC nodes1 new (nodes1.length + 1) f
    .ok ⟨m.buckets, nodes2⟩

/-- The loop of `rehash` (UnorderedMap.h 304-305). -/
def rehashLoopC : Nat → Nat → UMap K V → Res (UMap K V)
  | 0, _, m => .ok m
  | count + 1, i, m => do
    let m' ← insertNodeC hash m i
    rehashLoopC count (i + 1) m'

/-- `rehash` (UnorderedMap.h 299-306). The indices of `resetBuckets` (293-297) are below the size by its loop condition. -/
def rehashC (m : UMap K V) (n : Nat) : Res (UMap K V) :=
  rehashLoopC hash m.nodes.length 0 ⟨List.replicate n none, m.nodes⟩

/-- The constructor (UnorderedMap.h 118-121). -/
def createC (bucketsCount : Nat) : Res (UMap K V) := rehashC hash ⟨[], []⟩ bucketsCount

/-- The growth step of `insertOrAssign` (UnorderedMap.h 149-151). -/
def growIfNeededC (exceeds : Nat → Nat → Bool) (m : UMap K V) : Res (UMap K V) :=
  if exceeds (m.nodes.length + 1) m.buckets.length = true then rehashC hash m (m.nodes.length * 2) else .ok m

/-- `insertOrAssign` with its assertions (UnorderedMap.h 140-159); the last one is that of the subscript in line 158. -/
def insertOrAssignC (exceeds : Nat → Nat → Bool) (m : UMap K V) (k : K) (v : V) : Res (UMap K V) := do
  match ← findIndexC hash m k with
  | some i => do
    let nodes ← modifyC m.nodes i (fun n => { n with value := v })
    .ok ⟨m.buckets, nodes⟩
  | none => do
    let m1 ← growIfNeededC hash exceeds m
    let m2 ← insertNodeC hash ⟨m1.buckets, m1.nodes ++ [⟨k, v, none, none, none⟩]⟩ m1.nodes.length
    assertThat (m1.nodes.length < m2.nodes.length)
    .ok m2

/-- `index < size` for a possibly invalid index, which is the greatest `size_t` (UnorderedMap.h 330). -/
def IdxLt (i : Option Nat) (n : Nat) : Prop :=
  match i with
  | some i => i < n
  | none => False

instance (i : Option Nat) (n : Nat) : Decidable (IdxLt i n) := by
  unfold IdxLt
  cases i <;> infer_instance

/-- Reading `m_buckets[b]` for a possibly invalid `b`. -/
def bucketC (buckets : List (Option Nat)) (b : Option Nat) : Res (Option Nat) :=
  match b with
  | some b => readC buckets b
  | none => .ub .assertion

/-- Writing `m_buckets[b]` for a possibly invalid `b`. -/
def setBucketC (buckets : List (Option Nat)) (b : Option Nat) (x : Option Nat) : Res (List (Option Nat)) :=
  match b with
  | some b => writeC buckets b x
  | none => .ub .assertion

/-- Unlinking in `erase` with its assertions (UnorderedMap.h 168-192). -/
def unlinkC (m : UMap K V) (i : Nat) : Res (UMap K V) := do
  assertThat (i < m.nodes.length)
  let e ← readC m.nodes i
  assertThat (IdxLt e.bucket m.buckets.length)
  let m1 ← match e.prev with
    | some p => do
      let h ← bucketC m.buckets e.bucket
      assertThat (h ≠ some i)
      assertThat (p < m.nodes.length)
      let nodes ← modifyC m.nodes p (fun n => { n with next := e.next })
      Res.ok (⟨m.buckets, nodes⟩ : UMap K V)
    | none => do
      let h ← bucketC m.buckets e.bucket
      assertThat (h = some i)
      let bs ← setBucketC m.buckets e.bucket e.next
      Res.ok (⟨bs, m.nodes⟩ : UMap K V)
  let e1 ← readC m1.nodes i
  let nodes2 ← match e1.next with
    | some q => do
      assertThat (q < m1.nodes.length)
      modifyC m1.nodes q (fun n => { n with prev := e1.prev })
    | none => Res.ok m1.nodes
  let nodes3 ← modifyC nodes2 i (fun n => { n with prev := none, next := none })
  .ok ⟨m1.buckets, nodes3⟩

/-- The added line of the repair; it would carry the same assertion as the other accesses. -/
def relinkNextC (fixed : Bool) (nodes : List (UNode K V)) (next : Option Nat) (i : Nat) : Res (List (UNode K V)) :=
  match fixed, next with
  | true, some q => modifyC nodes q (fun n => { n with prev := some i })
  | _, _ => .ok nodes

/-- The assertions on the node that is about to be dropped, and `popBack` (UnorderedMap.h 214-217, Vector.h 146-152, 220-230). -/
def dropC (m : UMap K V) : Res (UMap K V) := do
  let back ← readC m.nodes (m.nodes.length - 1)
  assertThat (back.prev = none)
  assertThat (back.next = none)
  assertThat (m.nodes.length ≠ 0)
  .ok ⟨m.buckets, m.nodes.dropLast⟩

/-- Moving the last node into the hole and `popBack` with their assertions (UnorderedMap.h 194-217). -/
def fillHoleC (fixed : Bool) (m : UMap K V) (i : Nat) : Res (UMap K V) := do
  assertThat (m.nodes.length ≠ 0)
  if i ≠ m.nodes.length - 1 then
    let last := m.nodes.length - 1
    let l ← readC m.nodes last
    let m1 ← match l.prev with
      | some p => do
        assertThat (p < m.nodes.length)
        let nodes ← modifyC m.nodes p (fun n => { n with next := some i })
        Res.ok (⟨m.buckets, nodes⟩ : UMap K V)
      | none => do
        assertThat (IdxLt l.bucket m.buckets.length)
        let bs ← setBucketC m.buckets l.bucket (some i)
        Res.ok (⟨bs, m.nodes⟩ : UMap K V)
    let l1 ← readC m1.nodes last
    let nodes2 ← relinkNextC fixed m1.nodes l1.next i
    let e ← readC nodes2 i
    let l2 ← readC nodes2 last
    let nodes3 ← writeC nodes2 i l2
    let nodes4 ← writeC nodes3 last e
    dropC ⟨m1.buckets, nodes4⟩
  else
    dropC m

/-- `erase` with its assertions (UnorderedMap.h 161-218). -/
def eraseC (fixed : Bool) (m : UMap K V) (k : K) : Res (UMap K V) := do
  match ← findIndexC hash m k with
  | none => .ok m
  | some i => do
    let m1 ← unlinkC m i
    fillHoleC fixed m1 i

end UMap
end Coil
