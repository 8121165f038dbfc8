import Verif.Model.Basic

/-!
# `Buffer` and `Vector` over a heap (include/coil/detail/Buffer.h, src/Buffer.cpp, include/coil/detail/Vector.h)

The heap is a list of blocks; a block is a row of slots, each empty (raw memory) or holding an object. Freed blocks
are never reused, so that every access to freed memory is visible as `useAfterFree`. Object constructions and
destructions inside blocks are counted. Allocation and elements do not throw here; see `VectorThrow.lean` for that.

`m_chunkSize` is not a field: all accesses use `sizeof(T)` (the parameter `sz`), and the chunk size is only read
by the copy constructor of `Buffer`, which `Vector` never uses.
-/

namespace Coil

/-- Heap blocks (`none`: freed) and the numbers of element constructions and destructions. -/
structure Mem (α : Type) where
  heap : List (Option (List (Option α)))
  ctors : Nat
  dtors : Nat
  deriving DecidableEq, Repr

/-- An empty memory. -/
def Mem.empty {α : Type} : Mem α := ⟨[], 0, 0⟩

/-- The data members of `Buffer` (Buffer.h 83-87): `m_ptr` (block index), `m_capacity`, `m_size`. -/
structure Buf where
  ptr : Option Nat
  cap : Nat
  size : Nat
  deriving DecidableEq, Repr

/-- A default-initialised (or moved-from) buffer (Buffer.h 83-87). -/
def Buf.null : Buf := ⟨none, 0, 0⟩

namespace Mem

variable {α : Type}

/-- The slots of a block; a freed (or never allocated) block must not be touched. -/
def cells (m : Mem α) (b : Nat) : Res (List (Option α)) :=
  match m.heap[b]? with
  | some (some c) => .ok c
  | _ => .ub .useAfterFree

/-- Replace the slots of a block. -/
def setCells (m : Mem α) (b : Nat) (c : List (Option α)) : Mem α := { m with heap := m.heap.set b (some c) }

/-- The block behind a pointer that is dereferenced. -/
def deref (p : Option Nat) : Res Nat :=
  match p with
  | some b => .ok b
  | none => .ub .nullDeref

/-- `Buffer::Buffer(size_t, size_t)` (Buffer.cpp 5-8): the byte count is a product in `size_t`. -/
def newBuf (sz : Nat) (m : Mem α) (n : Nat) : Mem α × Buf :=
  if n * sz % 2 ^ 64 > 0 then
    ({ m with heap := m.heap ++ [some (List.replicate (n * sz % 2 ^ 64 / sz) none)] }, ⟨some m.heap.length, n, 0⟩)
  else (m, ⟨none, n, 0⟩)

/-- `Buffer::~Buffer` (Buffer.cpp 22-29). -/
def freeBuf (m : Mem α) (buf : Buf) : Res (Mem α) :=
  match buf.ptr with
  | none => .ok m
  | some b => do
    let _ ← m.cells b
    .ok { m with heap := m.heap.set b none }

/-- `Buffer::constructNext` (Buffer.h 35-50). -/
def constructNext (m : Mem α) (buf : Buf) (x : α) : Res (Mem α × Buf) := do
  let b ← deref buf.ptr
  let c ← m.cells b
  if buf.size < c.length then
    .ok ({ m.setCells b (c.set buf.size (some x)) with ctors := m.ctors + 1 }, { buf with size := buf.size + 1 })
  else .ub .oobWrite

/-- `Buffer::destructLast` (Buffer.h 52-65). -/
def destructLast (m : Mem α) (buf : Buf) : Res (Mem α × Buf) := do
  let b ← deref buf.ptr
  let c ← m.cells b
  if buf.size = 0 then .ub .oobRead
  else match c[buf.size - 1]? with
    | some (some _) =>
      .ok ({ m.setCells b (c.set (buf.size - 1) none) with dtors := m.dtors + 1 }, { buf with size := buf.size - 1 })
    | some none => .ub .deadObject
    | none => .ub .oobRead

/-- Reading the object at an index (Buffer.h 67-77, Vector.h 233-238). -/
def readElem (m : Mem α) (buf : Buf) (i : Nat) : Res α := do
  let b ← deref buf.ptr
  let c ← m.cells b
  match c[i]? with
  | some (some x) => .ok x
  | some none => .ub .deadObject
  | none => .ub .oobRead

/-- Assigning to the object at an index (Vector.h 240-245). -/
def writeElem (m : Mem α) (buf : Buf) (i : Nat) (x : α) : Res (Mem α) := do
  let b ← deref buf.ptr
  let c ← m.cells b
  match c[i]? with
  | some (some _) => .ok (m.setCells b (c.set i (some x)))
  | some none => .ub .deadObject
  | none => .ub .oobWrite

end Mem

namespace Vec

variable {α : Type} (sz : Nat) (moved : α → α) (dflt : α)

open Mem

/-- `while (size() > n) destructLast()` (Vector.h 121-122, 157-158), `k` times. -/
def destructMany : Nat → Mem α → Buf → Res (Mem α × Buf)
  | 0, m, buf => .ok (m, buf)
  | k + 1, m, buf => do
    let (m', buf') ← destructLast m buf
    destructMany k m' buf'

/-- `clear` (Vector.h 154-159). -/
def clear (m : Mem α) (buf : Buf) : Res (Mem α × Buf) := destructMany buf.size m buf

/-- The first loop of `grow` (Vector.h 267-268), `k` more elements from index `i`: move-construct into the new
buffer; the source is left in the moved-from state. -/
def moveLoop : Nat → Nat → Mem α → Buf → Buf → Res (Mem α × Buf)
  | 0, _, m, _, new => .ok (m, new)
  | k + 1, i, m, buf, new => do
    let x ← readElem m buf i
    let (m1, new1) ← constructNext m new x
    let m2 ← writeElem m1 buf i (moved x)
    moveLoop k (i + 1) m2 buf new1

/-- `grow` (Vector.h 262-278). The assignment swaps the buffers (Buffer.cpp 40-44) and the local `buffer` is destroyed
with the old block. -/
def grow (m : Mem α) (buf : Buf) (n : Nat) : Res (Mem α × Buf) := do
  let (m1, new) := newBuf sz m n
  let (m2, new2) ← moveLoop moved buf.size 0 m1 buf new
  let (m3, old) ← destructMany buf.size m2 buf
  let m4 ← freeBuf m3 old
  .ok (m4, new2)

/-- `reserve` (Vector.h 106-111). -/
def reserve (m : Mem α) (buf : Buf) (n : Nat) : Res (Mem α × Buf) :=
  if n > buf.cap then grow sz moved m buf n else .ok (m, buf)

/-- `while (size() < n) constructNext()` (Vector.h 123-124), `k` times. -/
def constructMany : Nat → Mem α → Buf → Res (Mem α × Buf)
  | 0, m, buf => .ok (m, buf)
  | k + 1, m, buf => do
    let (m', buf') ← constructNext m buf dflt
    constructMany k m' buf'

/-- `resize` (Vector.h 113-127). -/
def resize (m : Mem α) (buf : Buf) (n : Nat) : Res (Mem α × Buf) := do
  let (m1, buf1) ← reserve sz moved m buf n
  let (m2, buf2) ← destructMany (buf1.size - n) m1 buf1
  constructMany dflt (n - buf2.size) m2 buf2

/-- The new capacity computed by `pushBack` (Vector.h 135-137), in `size_t`. -/
def nextCapacity (size : Nat) : Nat :=
  if size + 1 > size * 3 % 2 ^ 64 / 2 then size + 1 else size * 3 % 2 ^ 64 / 2

/-- The growth step of `pushBack` (Vector.h 131-139). -/
def growForOne (m : Mem α) (buf : Buf) : Res (Mem α × Buf) :=
  if buf.size + 1 > buf.cap then grow sz moved m buf (nextCapacity buf.size) else .ok (m, buf)

/-- `pushBack` (Vector.h 129-144). The parameter is a copy made by the caller and is not counted. -/
def pushBack (m : Mem α) (buf : Buf) (x : α) : Res (Mem α × Buf) := do
  let (m1, buf1) ← growForOne sz moved m buf
  constructNext m1 buf1 x

/-- `popBack` (Vector.h 146-152). -/
def popBack (m : Mem α) (buf : Buf) : Res (Mem α × Buf) := destructLast m buf

/-- The loop of the range constructor over an array of the caller (Vector.h 73-74). -/
def fillFrom : List α → Mem α → Buf → Res (Mem α × Buf)
  | [], m, buf => .ok (m, buf)
  | x :: xs, m, buf => do
    let (m', buf') ← constructNext m buf x
    fillFrom xs m' buf'

/-- The range constructor (Vector.h 67-75). -/
def ofRange (m : Mem α) (xs : List α) : Res (Mem α × Buf) := do
  let (m1, buf) := newBuf sz m xs.length
  fillFrom xs m1 buf

/-- The loop of the range constructor over the elements of another vector (Vector.h 73-74, 82-85). -/
def copyLoop : Nat → Nat → Mem α → Buf → Buf → Res (Mem α × Buf)
  | 0, _, m, _, new => .ok (m, new)
  | k + 1, i, m, src, new => do
    let x ← readElem m src i
    let (m1, new1) ← constructNext m new x
    copyLoop k (i + 1) m1 src new1

/-- The copy constructor (Vector.h 82-85). -/
def copyNew (m : Mem α) (src : Buf) : Res (Mem α × Buf) := do
  let (m1, buf) := newBuf sz m src.size
  copyLoop src.size 0 m1 src buf

/-- The destructor: `clear` and then `~Buffer` (Vector.h 90-94). -/
def destroy (m : Mem α) (buf : Buf) : Res (Mem α) := do
  let (m1, buf1) ← clear m buf
  freeBuf m1 buf1

/-- The loop of `operator==` (Vector.h 255-259), `k` more elements from index `i`. -/
def equalLoop (eq : α → α → Bool) (m : Mem α) (a b : Buf) : Nat → Nat → Res Bool
  | 0, _ => .ok true
  | k + 1, i => do
    let x ← readElem m a i
    let y ← readElem m b i
    if eq x y then equalLoop eq m a b k (i + 1) else .ok false

/-- `operator==` (Vector.h 247-260), for elements compared with `eq`. -/
def equal (eq : α → α → Bool) (m : Mem α) (a b : Buf) : Res Bool :=
  if a.size ≠ b.size then .ok false else equalLoop eq m a b a.size 0

/-! ## Programs with several vectors -/

/-- A program state: memory and the vector variables in scope (`none`: destroyed). -/
structure State (α : Type) where
  mem : Mem α
  vars : List (Option Buf)
  deriving DecidableEq, Repr

/-- One statement of a program that uses vectors. New vectors get the next number. -/
inductive Op (α : Type) where
  | create (cap : Nat)
  | ofRange (xs : List α)
  | copyNew (src : Nat)
  | moveNew (src : Nat)
  | copyAssign (dst src : Nat)
  | moveAssign (dst src : Nat)
  | reserve (v n : Nat)
  | resize (v n : Nat)
  | pushBack (v : Nat) (x : α)
  | popBack (v : Nat)
  | clear (v : Nat)
  | write (v i : Nat) (x : α)
  | destroy (v : Nat)
  deriving DecidableEq, Repr

/-- The buffer of a live variable. -/
def getVar (vars : List (Option Buf)) (v : Nat) : Res Buf :=
  match vars[v]? with
  | some (some b) => .ok b
  | _ => .ub .deadObject

/-- Run an operation of one vector. -/
def onVar (s : State α) (v : Nat) (f : Mem α → Buf → Res (Mem α × Buf)) : Res (State α) := do
  let buf ← getVar s.vars v
  let (m, buf') ← f s.mem buf
  .ok ⟨m, s.vars.set v (some buf')⟩

/-- The effect of a statement. `Vector(Vector&&)` and `operator=(Vector&&)` are defaulted and swap the buffers (Vector.h 87-88,
103-104; Buffer.cpp 17-20, 40-44); `operator=(Vector const&)` makes a temporary copy, swaps with it and destroys it
(Vector.h 96-101). -/
def step (s : State α) : Op α → Res (State α)
  | .create cap =>
    let (m, buf) := newBuf sz s.mem cap
    .ok ⟨m, s.vars ++ [some buf]⟩
  | .ofRange xs => do
    let (m, buf) ← ofRange sz s.mem xs
    .ok ⟨m, s.vars ++ [some buf]⟩
  | .copyNew src => do
    let sb ← getVar s.vars src
    let (m, buf) ← copyNew sz s.mem sb
    .ok ⟨m, s.vars ++ [some buf]⟩
  | .moveNew src => do
    let sb ← getVar s.vars src
    .ok ⟨s.mem, (s.vars.set src (some Buf.null)) ++ [some sb]⟩
  | .copyAssign dst src => do
    let sb ← getVar s.vars src
    let (m, tmp) ← copyNew sz s.mem sb
    let db ← getVar s.vars dst
    let m' ← destroy m db
    .ok ⟨m', s.vars.set dst (some tmp)⟩
  | .moveAssign dst src => do
    let sb ← getVar s.vars src
    let db ← getVar s.vars dst
    .ok ⟨s.mem, (s.vars.set src (some db)).set dst (some sb)⟩
  | .reserve v n => onVar s v (fun m b => reserve sz moved m b n)
  | .resize v n => onVar s v (fun m b => resize sz moved dflt m b n)
  | .pushBack v x => onVar s v (fun m b => pushBack sz moved m b x)
  | .popBack v => onVar s v popBack
  | .clear v => onVar s v clear
  | .write v i x => onVar s v (fun m b => do
      let m' ← writeElem m b i x
      .ok (m', b))
  | .destroy v => do
    let buf ← getVar s.vars v
    let m ← destroy s.mem buf
    .ok ⟨m, s.vars.set v none⟩

/-- The effect of a program. -/
def run : State α → List (Op α) → Res (State α)
  | s, [] => .ok s
  | s, op :: ops => do
    let s' ← step sz moved dflt s op
    run s' ops

end Vec
end Coil
