import Verif.Model.Assert
import Verif.Model.Vector

/-!
# `Buffer` and `Vector` in builds with assertions (Buffer.h, Buffer.cpp, Vector.h)

The functions of `Verif.Model.Vector` once more, with every `COIL_ASSERT` on the way and with the two members that
only assertions read: `m_chunkSize` and `m_constructedObjectsCount`.
-/

namespace Coil

/-- The data members of `Buffer` with `m_chunkSize` and `m_constructedObjectsCount` (Buffer.h 83-91). -/
structure BufC where
  buf : Buf
  chunk : Nat
  count : Nat
  deriving DecidableEq, Repr

/-- A moved-from buffer: all members as default-initialised (Buffer.h 83-91, Buffer.cpp 17-20). -/
def BufC.null : BufC := ⟨Buf.null, 0, 0⟩

namespace Mem

variable {α : Type}

/-- `Buffer::Buffer(size_t, size_t)` (Buffer.cpp 5-8). -/
def newBufC (sz : Nat) (m : Mem α) (n : Nat) : Res (Mem α × BufC) := do
  assertThat (0 < sz)
  .ok ((newBuf sz m n).1, ⟨(newBuf sz m n).2, sz, 0⟩)

/-- `Buffer::~Buffer` (Buffer.cpp 22-29). -/
def freeBufC (m : Mem α) (b : BufC) : Res (Mem α) := do
  assertThat (b.count = 0)
  freeBuf m b.buf

/-- `Buffer::constructNext` (Buffer.h 35-50). -/
def constructNextC (sz : Nat) (m : Mem α) (b : BufC) (x : α) : Res (Mem α × BufC) := do
  assertThat (b.buf.ptr ≠ none)
  assertThat (b.buf.size < b.buf.cap)
  assertThat (b.chunk = sz)
  let (m', buf') ← constructNext m b.buf x
  .ok (m', ⟨buf', b.chunk, b.count + 1⟩)

/-- `Buffer::destructLast` (Buffer.h 52-65). -/
def destructLastC (sz : Nat) (m : Mem α) (b : BufC) : Res (Mem α × BufC) := do
  assertThat (b.buf.size > 0)
  assertThat (b.chunk = sz)
  let (m', buf') ← destructLast m b.buf
  assertThat (b.count > 0)
  .ok (m', ⟨buf', b.chunk, b.count - 1⟩)

end Mem

namespace VecC

variable {α : Type} (sz : Nat) (moved : α → α) (dflt : α)

open Mem

/-- Reading through `operator[]` (Vector.h 233-238). -/
def at_ (m : Mem α) (b : BufC) (i : Nat) : Res α := do
  assertThat (i < b.buf.size)
  readElem m b.buf i

/-- Assigning through `operator[]` (Vector.h 240-245). -/
def write (m : Mem α) (b : BufC) (i : Nat) (x : α) : Res (Mem α × BufC) := do
  assertThat (i < b.buf.size)
  let m' ← writeElem m b.buf i x
  .ok (m', b)

/-- `front` (Vector.h 208-219). -/
def front (m : Mem α) (b : BufC) : Res α := do
  assertThat (b.buf.size ≠ 0)
  at_ m b 0

/-- `back` (Vector.h 220-231). -/
def back (m : Mem α) (b : BufC) : Res α := do
  assertThat (b.buf.size ≠ 0)
  at_ m b (b.buf.size - 1)

/-- `while (size() > n) destructLast()` (Vector.h 121-122, 157-158, 272-273), `k` times. -/
def destructMany : Nat → Mem α → BufC → Res (Mem α × BufC)
  | 0, m, b => .ok (m, b)
  | k + 1, m, b => do
    let (m', b') ← destructLastC sz m b
    destructMany k m' b'

/-- `clear` (Vector.h 154-159). -/
def clear (m : Mem α) (b : BufC) : Res (Mem α × BufC) := destructMany sz b.buf.size m b

/-- The first loop of `grow` (Vector.h 267-268); `Buffer::get` has no assertion. -/
def moveLoop : Nat → Nat → Mem α → BufC → BufC → Res (Mem α × BufC)
  | 0, _, m, _, new => .ok (m, new)
  | k + 1, i, m, b, new => do
    let x ← readElem m b.buf i
    let (m1, new1) ← constructNextC sz m new x
    let m2 ← writeElem m1 b.buf i (moved x)
    moveLoop k (i + 1) m2 b new1

/-- `grow` (Vector.h 262-278); the old block is freed at the end, after the last assertion. -/
def grow (m : Mem α) (b : BufC) (n : Nat) : Res (Mem α × BufC) := do
  let (m1, new) ← newBufC sz m n
  let (m2, new2) ← moveLoop sz moved b.buf.size 0 m1 b new
  assertThat (b.buf.size = new2.buf.size)
  let (m3, old) ← destructMany sz b.buf.size m2 b
  assertThat (new2.buf.cap = n)
  let m4 ← freeBufC m3 old
  .ok (m4, new2)

/-- `reserve` (Vector.h 106-111). -/
def reserve (m : Mem α) (b : BufC) (n : Nat) : Res (Mem α × BufC) :=
  if n > b.buf.cap then grow sz moved m b n else .ok (m, b)

/-- `while (size() < n) constructNext()` (Vector.h 123-124), `k` times. -/
def constructMany : Nat → Mem α → BufC → Res (Mem α × BufC)
  | 0, m, b => .ok (m, b)
  | k + 1, m, b => do
    let (m', b') ← constructNextC sz m b dflt
    constructMany k m' b'

/-- `resize` (Vector.h 113-127). -/
def resize (m : Mem α) (b : BufC) (n : Nat) : Res (Mem α × BufC) := do
  let (m1, b1) ← reserve sz moved m b n
  assertThat (b1.buf.cap ≥ n)
  let (m2, b2) ← destructMany sz (b1.buf.size - n) m1 b1
  let (m3, b3) ← constructMany sz dflt (n - b2.buf.size) m2 b2
  assertThat (b3.buf.size = n)
  .ok (m3, b3)

/-- The growth step of `pushBack` (Vector.h 131-139). -/
def growForOne (m : Mem α) (b : BufC) : Res (Mem α × BufC) :=
  if b.buf.size + 1 > b.buf.cap then grow sz moved m b (Vec.nextCapacity b.buf.size) else .ok (m, b)

/-- `pushBack` (Vector.h 129-144). -/
def pushBack (m : Mem α) (b : BufC) (x : α) : Res (Mem α × BufC) := do
  let (m1, b1) ← growForOne sz moved m b
  assertThat (b1.buf.cap ≥ b.buf.size + 1)
  constructNextC sz m1 b1 x

/-- `popBack` (Vector.h 146-152). -/
def popBack (m : Mem α) (b : BufC) : Res (Mem α × BufC) := do
  assertThat (b.buf.size ≠ 0)
  destructLastC sz m b

/-- The loop of the range constructor over an array of the caller (Vector.h 73-74). -/
def fillFrom : List α → Mem α → BufC → Res (Mem α × BufC)
  | [], m, b => .ok (m, b)
  | x :: xs, m, b => do
    let (m', b') ← constructNextC sz m b x
    fillFrom xs m' b'

/-- The range constructor (Vector.h 67-75). -/
def ofRange (m : Mem α) (xs : List α) : Res (Mem α × BufC) := do
  let (m1, b) ← newBufC sz m xs.length
  assertThat (b.buf.cap ≥ xs.length)
  assertThat (b.buf.size = 0)
  fillFrom sz xs m1 b

/-- The loop of the range constructor over the elements of another vector (Vector.h 73-74, 82-85). -/
def copyLoop : Nat → Nat → Mem α → BufC → BufC → Res (Mem α × BufC)
  | 0, _, m, _, new => .ok (m, new)
  | k + 1, i, m, src, new => do
    let x ← readElem m src.buf i
    let (m1, new1) ← constructNextC sz m new x
    copyLoop k (i + 1) m1 src new1

/-- The copy constructor (Vector.h 67-75, 82-85). -/
def copyNew (m : Mem α) (src : BufC) : Res (Mem α × BufC) := do
  let (m1, b) ← newBufC sz m src.buf.size
  assertThat (b.buf.cap ≥ src.buf.size)
  assertThat (b.buf.size = 0)
  copyLoop sz src.buf.size 0 m1 src b

/-- The destructor (Vector.h 90-94, Buffer.cpp 22-29). -/
def destroy (m : Mem α) (b : BufC) : Res (Mem α) := do
  let (m1, b1) ← clear sz m b
  freeBufC m1 b1

/-- A program state. -/
structure State (α : Type) where
  mem : Mem α
  vars : List (Option BufC)
  deriving DecidableEq, Repr

/-- The buffer of a live variable. Assertions do not notice the use of a destroyed one. -/
def getVar (vars : List (Option BufC)) (v : Nat) : Res BufC :=
  match vars[v]? with
  | some (some b) => .ok b
  | _ => .ub .deadObject

/-- Run an operation of one vector. -/
def onVar (s : State α) (v : Nat) (f : Mem α → BufC → Res (Mem α × BufC)) : Res (State α) := do
  let b ← getVar s.vars v
  let (m, b') ← f s.mem b
  .ok ⟨m, s.vars.set v (some b')⟩

/-- The effect of a statement, as `Vec.step` (Vector.h 67-159; Buffer.cpp 17-20, 40-44). -/
def step (s : State α) : Vec.Op α → Res (State α)
  | .create cap => do
    let (m, b) ← newBufC sz s.mem cap
    .ok ⟨m, s.vars ++ [some b]⟩
  | .ofRange xs => do
    let (m, b) ← ofRange sz s.mem xs
    .ok ⟨m, s.vars ++ [some b]⟩
  | .copyNew src => do
    let sb ← getVar s.vars src
    let (m, b) ← copyNew sz s.mem sb
    .ok ⟨m, s.vars ++ [some b]⟩
  | .moveNew src => do
    let sb ← getVar s.vars src
    .ok ⟨s.mem, (s.vars.set src (some BufC.null)) ++ [some sb]⟩
  | .copyAssign dst src => do
    let sb ← getVar s.vars src
    let (m, tmp) ← copyNew sz s.mem sb
    let db ← getVar s.vars dst
    let m' ← destroy sz m db
    .ok ⟨m', s.vars.set dst (some tmp)⟩
  | .moveAssign dst src => do
    let sb ← getVar s.vars src
    let db ← getVar s.vars dst
    .ok ⟨s.mem, (s.vars.set src (some db)).set dst (some sb)⟩
  | .reserve v n => onVar s v (fun m b => reserve sz moved m b n)
  | .resize v n => onVar s v (fun m b => resize sz moved dflt m b n)
  | .pushBack v x => onVar s v (fun m b => pushBack sz moved m b x)
  | .popBack v => onVar s v (popBack sz)
  | .clear v => onVar s v (clear sz)
  | .write v i x => onVar s v (fun m b => write m b i x)
  | .destroy v => do
    let b ← getVar s.vars v
    let m ← destroy sz s.mem b
    .ok ⟨m, s.vars.set v none⟩

/-- The effect of a program. -/
def run : State α → List (Vec.Op α) → Res (State α)
  | s, [] => .ok s
  | s, op :: ops => do
    let s' ← step sz moved dflt s op
    run s' ops

/-- The state without the members that only assertions read. -/
def State.forget (s : State α) : Vec.State α := ⟨s.mem, s.vars.map (Option.map BufC.buf)⟩

end VecC
end Coil
