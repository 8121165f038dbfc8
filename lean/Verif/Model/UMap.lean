import Verif.Model.Basic

/-!
# `UnorderedMap` (include/coil/detail/UnorderedMap.h)

The nodes live in one vector and are chained by index; `invalidIndex` is `none`. `Vector` is a list here (its own
model is in `Model/Vector.lean`). Accesses outside the vectors are undefined behaviour, `% 0` is
undefined behaviour, and following links for more steps than there are nodes is `diverge` (justified in
`Proofs/UMapLoop.lean`: then the C++ loop never ends).
-/

namespace Coil

/-- Writing a field of an existing array element: out of bounds is undefined behaviour. -/
def modifyAt {α : Type} (l : List α) (i : Nat) (f : α → α) : Res (List α) :=
  match l[i]? with
  | some a => .ok (l.set i (f a))
  | none => .ub .oobWrite

/-- `UnorderedMap::Node` (UnorderedMap.h 41-48). -/
structure UNode (K V : Type) where
  key : K
  value : V
  bucket : Option Nat
  prev : Option Nat
  next : Option Nat
  deriving DecidableEq, Repr

/-- The data members of `UnorderedMap` (UnorderedMap.h 333-335) without the load factor, which is a parameter of
`insertOrAssign`. -/
structure UMap (K V : Type) where
  buckets : List (Option Nat)
  nodes : List (UNode K V)
  deriving DecidableEq, Repr

namespace UMap

variable {K V : Type} [DecidableEq K] (hash : K → Nat)

/-- `computeBucketIndex` (UnorderedMap.h 250-255). -/
def bucketOf (m : UMap K V) (k : K) : Res Nat :=
  if m.buckets.length = 0 then .ub .divByZero else .ok (hash k % m.buckets.length)

/-- The loop of `findNodeIndex` (UnorderedMap.h 314-326). -/
def findLoop (nodes : List (UNode K V)) (k : K) : Nat → Option Nat → Res (Option Nat)
  | _, none => .ok none
  | 0, some _ => .diverge
  | fuel + 1, some i => do
    let nd ← readAt nodes i
    if nd.key = k then .ok (some i) else findLoop nodes k fuel nd.next

/-- `findNodeIndex` (UnorderedMap.h 308-327). The heterogeneous look-up (`StringView` in a map of `String`) uses the
same hash and equality (String.cpp 193-196), so that one key type suffices. -/
def findIndex (m : UMap K V) (k : K) : Res (Option Nat) := do
  let b ← bucketOf hash m k
  let first ← readAt m.buckets b
  findLoop m.nodes k (m.nodes.length + 1) first

/-- `find` (UnorderedMap.h 226-242), dereferenced: the value of the key, if any. -/
def find (m : UMap K V) (k : K) : Res (Option V) := do
  match ← findIndex hash m k with
  | none => .ok none
  | some i => do
    let nd ← readAt m.nodes i
    .ok (some nd.value)

/-- The loop of `insertNode` (UnorderedMap.h 276-290). -/
def insertLoop (nodes : List (UNode K V)) (new : Nat) : Nat → Nat → Res (List (UNode K V))
  | 0, _ => .diverge
  | fuel + 1, i => do
    let nd ← readAt nodes i
    match nd.next with
    | none => do
      let nodes1 ← modifyAt nodes i (fun n => { n with next := some new })
      modifyAt nodes1 new (fun n => { n with prev := some i })
    | some j => insertLoop nodes new fuel j

/-- `insertNode` (UnorderedMap.h 257-291). -/
def insertNode (m : UMap K V) (new : Nat) : Res (UMap K V) := do
  let nd ← readAt m.nodes new
  let b ← bucketOf hash m nd.key
  let nodes1 ← modifyAt m.nodes new (fun n => { n with bucket := some b, next := none, prev := none })
  let first ← readAt m.buckets b
  match first with
  | none => do
    let bs ← writeAt m.buckets b (some new)
    .ok ⟨bs, nodes1⟩
  | some f => do
    let nodes2 ← insertLoop nodes1 new (nodes1.length + 1) f
    .ok ⟨m.buckets, nodes2⟩

/-- The loop of `rehash` (UnorderedMap.h 304-305): `count` more nodes from index `i`. -/
def rehashLoop : Nat → Nat → UMap K V → Res (UMap K V)
  | 0, _, m => .ok m
  | count + 1, i, m => do
    let m' ← insertNode hash m i
    rehashLoop count (i + 1) m'

/-- `rehash` (UnorderedMap.h 299-306); `resize` followed by `resetBuckets` (293-297) leaves `n` empty buckets. -/
def rehash (m : UMap K V) (n : Nat) : Res (UMap K V) :=
  rehashLoop hash m.nodes.length 0 ⟨List.replicate n none, m.nodes⟩

/-- The constructor (UnorderedMap.h 118-121). -/
def create (bucketsCount : Nat) : Res (UMap K V) := rehash hash ⟨[], []⟩ bucketsCount

/-- The growth step of `insertOrAssign` (UnorderedMap.h 149-151). -/
def growIfNeeded (exceeds : Nat → Nat → Bool) (m : UMap K V) : Res (UMap K V) :=
  if exceeds (m.nodes.length + 1) m.buckets.length = true then rehash hash m (m.nodes.length * 2) else .ok m

/-- `insertOrAssign` (UnorderedMap.h 140-159). `exceeds n b` is the comparison
`1.0f * n / b > m_maxLoadFactor`, kept as a parameter. -/
def insertOrAssign (exceeds : Nat → Nat → Bool) (m : UMap K V) (k : K) (v : V) : Res (UMap K V) := do
  match ← findIndex hash m k with
  | some i => do
    let nodes ← modifyAt m.nodes i (fun n => { n with value := v })
    .ok ⟨m.buckets, nodes⟩
  | none => do
    let m1 ← growIfNeeded hash exceeds m
    insertNode hash ⟨m1.buckets, m1.nodes ++ [⟨k, v, none, none, none⟩]⟩ m1.nodes.length

/-- Read or write `m_buckets[b]` for a possibly invalid bucket index. -/
def setBucket (buckets : List (Option Nat)) (b : Option Nat) (x : Option Nat) : Res (List (Option Nat)) :=
  match b with
  | some b => writeAt buckets b x
  | none => .ub .oobWrite

/-- Unlinking in `erase` (UnorderedMap.h 169-192). -/
def unlink (m : UMap K V) (i : Nat) : Res (UMap K V) := do
  let e ← readAt m.nodes i
  let m1 ← match e.prev with
    | some p => do
      let nodes ← modifyAt m.nodes p (fun n => { n with next := e.next })
      Res.ok (⟨m.buckets, nodes⟩ : UMap K V)
    | none => do
      let bs ← setBucket m.buckets e.bucket e.next
      Res.ok (⟨bs, m.nodes⟩ : UMap K V)
  let e1 ← readAt m1.nodes i
  let nodes2 ← match e1.next with
    | some q => modifyAt m1.nodes q (fun n => { n with prev := e1.prev })
    | none => Res.ok m1.nodes
  let nodes3 ← modifyAt nodes2 i (fun n => { n with prev := none, next := none })
  .ok ⟨m1.buckets, nodes3⟩

/-- The step that `erase` leaves out: the successor of the moved node must point back to its new place. It is
skipped for `fixed = false`. -/
def relinkNext (fixed : Bool) (nodes : List (UNode K V)) (next : Option Nat) (i : Nat) : Res (List (UNode K V)) :=
  match fixed, next with
  | true, some q => modifyAt nodes q (fun n => { n with prev := some i })
  | _, _ => .ok nodes

/-- Moving the last node into the hole and `popBack` (UnorderedMap.h 196-217). With `fixed` the missing update
of the moved node's successor is added; the code is `fixed = false`. -/
def fillHole (fixed : Bool) (m : UMap K V) (i : Nat) : Res (UMap K V) := do
  if i ≠ m.nodes.length - 1 then
    let last := m.nodes.length - 1
    let l ← readAt m.nodes last
    let m1 ← match l.prev with
      | some p => do
        let nodes ← modifyAt m.nodes p (fun n => { n with next := some i })
        Res.ok (⟨m.buckets, nodes⟩ : UMap K V)
      | none => do
        let bs ← setBucket m.buckets l.bucket (some i)
        Res.ok (⟨bs, m.nodes⟩ : UMap K V)
    let l1 ← readAt m1.nodes last
    let nodes2 ← relinkNext fixed m1.nodes l1.next i
    let e ← readAt nodes2 i
    let l2 ← readAt nodes2 last
    let nodes3 ← writeAt nodes2 i l2
    let nodes4 ← writeAt nodes3 last e
    .ok ⟨m1.buckets, nodes4.dropLast⟩
  else
    .ok ⟨m.buckets, m.nodes.dropLast⟩

/-- `erase` (UnorderedMap.h 161-218): as it is in the code (`fixed = false`) or with the repair. -/
def eraseWith (fixed : Bool) (m : UMap K V) (k : K) : Res (UMap K V) := do
  match ← findIndex hash m k with
  | none => .ok m
  | some i => do
    let m1 ← unlink m i
    fillHole fixed m1 i

/-- `clear` (UnorderedMap.h 220-224). -/
def clear (m : UMap K V) : UMap K V := ⟨m.buckets.map (fun _ => none), []⟩

/-- The entries in iteration order (`begin`, `end`, UnorderedMap.h 123-138). -/
def entries (m : UMap K V) : List (K × V) := m.nodes.map (fun nd => (nd.key, nd.value))

/-- `size` (UnorderedMap.h 244-247). -/
def size (m : UMap K V) : Nat := m.nodes.length

/-- A moved-from map: the vectors are left empty (Vector.h 88-104 swaps with an empty vector). -/
def movedFrom : UMap K V := ⟨[], []⟩

end UMap

/-- `Hash<StringView>` (StringView.cpp 76-86): djb2 in `size_t`; a `char` is converted with its sign. -/
def djb2 (charSigned : Bool) (s : Bytes) : Nat :=
  s.foldl (fun h c =>
    let c64 := if charSigned = true ∧ 128 ≤ c.toNat then 2 ^ 64 - 256 + c.toNat else c.toNat
    (h * 33 + c64) % 2 ^ 64) 5381

end Coil
