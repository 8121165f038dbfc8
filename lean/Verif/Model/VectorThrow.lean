import Verif.Model.Vector

/-!
# Vectors when allocation or elements throw (include/coil/detail/Vector.h, include/coil/detail/Buffer.h, src/Buffer.cpp)

Every allocation and every construction or assignment of an element may throw. Each statement carries a fuse, the
number of such actions that still succeed; the next one throws. Unwinding is explicit: an exception destroys the
local `Buffer` of `grow` (which releases the memory and destroys no elements), and it destroys the vector under
construction of a delegating constructor. Destructors do not throw. An element whose move constructor throws is
left as `spoilt x`; an assignment that throws leaves `torn old new`.

`mayMove` says whether the move constructor of the elements may throw at all.
-/

namespace Coil
namespace Vec

/-- How many more allocations, constructions and assignments succeed before one throws (`none`: all of them). -/
abbrev Fuse := Option Nat

/-- One such action: `none` if it throws, otherwise what is left of the fuse. -/
def tick : Fuse → Option Fuse
  | none => some none
  | some 0 => none
  | some (k + 1) => some (some k)

/-- A move construction: elements whose move constructor cannot throw do not use the fuse. -/
def tickMove (mayMove : Bool) (f : Fuse) : Option Fuse := if mayMove then tick f else some f

/-- The outcome of a piece of code on a buffer: memory, buffer, and the fuse or `none` if an exception leaves it. -/
abbrev Thrown (α : Type) := Mem α × Buf × Option Fuse

variable {α : Type} (sz : Nat) (mayMove : Bool) (moved spoilt : α → α) (torn : α → α → α) (dflt : α)

open Mem

/-- `Buffer::Buffer(size_t, size_t)` (Buffer.cpp 5-8): `new char[]` may throw; nothing is allocated for zero bytes. -/
def newBufT (m : Mem α) (n : Nat) (f : Fuse) : Option (Mem α × Buf × Fuse) :=
  if n * sz % 2 ^ 64 > 0 then (tick f).map (fun f' => ((newBuf sz m n).1, (newBuf sz m n).2, f'))
  else some ((newBuf sz m n).1, (newBuf sz m n).2, f)

/-- The first loop of `grow` (Vector.h 267-268), `k` more elements from index `i`. `constructNext` (Buffer.h 42-43) counts
the element only after its constructor has returned. -/
def moveLoopT : Nat → Nat → Mem α → Buf → Buf → Fuse → Res (Thrown α)
  | 0, _, m, _, new, f => .ok (m, new, some f)
  | k + 1, i, m, buf, new, f => do
    let x ← readElem m buf i
    match tickMove mayMove f with
    | none => do
      let m' ← writeElem m buf i (spoilt x)
      .ok (m', new, none)
    | some f' => do
      let (m1, new1) ← constructNext m new x
      let m2 ← writeElem m1 buf i (moved x)
      moveLoopT k (i + 1) m2 buf new1 f'

/-- `grow` (Vector.h 262-278). When an exception leaves it, `~Buffer` (Buffer.cpp 22-29) releases the memory of the local `buffer`
without destroying the elements that are already in it. -/
def growT (m : Mem α) (buf : Buf) (n : Nat) (f : Fuse) : Res (Thrown α) :=
  match newBufT sz m n f with
  | none => .ok (m, buf, none)
  | some (m1, new, f1) => do
    let (m2, new2, r) ← moveLoopT mayMove moved spoilt buf.size 0 m1 buf new f1
    match r with
    | none => do
      let m3 ← freeBuf m2 new2
      .ok (m3, buf, none)
    | some f2 => do
      let (m3, old) ← destructMany buf.size m2 buf
      let m4 ← freeBuf m3 old
      .ok (m4, new2, some f2)

/-- `reserve` (Vector.h 106-111). -/
def reserveT (m : Mem α) (buf : Buf) (n : Nat) (f : Fuse) : Res (Thrown α) :=
  if n > buf.cap then growT sz mayMove moved spoilt m buf n f else .ok (m, buf, some f)

/-- `while (size() < n) constructNext()` (Vector.h 123-124), `k` times. -/
def constructManyT : Nat → Mem α → Buf → Fuse → Res (Thrown α)
  | 0, m, buf, f => .ok (m, buf, some f)
  | k + 1, m, buf, f =>
    match tick f with
    | none => .ok (m, buf, none)
    | some f' => do
      let (m', buf') ← constructNext m buf dflt
      constructManyT k m' buf' f'

/-- `resize` (Vector.h 113-127). -/
def resizeT (m : Mem α) (buf : Buf) (n : Nat) (f : Fuse) : Res (Thrown α) := do
  let (m1, buf1, r) ← reserveT sz mayMove moved spoilt m buf n f
  match r with
  | none => .ok (m1, buf1, none)
  | some f1 => do
    let (m2, buf2) ← destructMany (buf1.size - n) m1 buf1
    constructManyT dflt (n - buf2.size) m2 buf2 f1

/-- The growth step of `pushBack` (Vector.h 131-139). -/
def growForOneT (m : Mem α) (buf : Buf) (f : Fuse) : Res (Thrown α) :=
  if buf.size + 1 > buf.cap then growT sz mayMove moved spoilt m buf (nextCapacity buf.size) f else .ok (m, buf, some f)

/-- `pushBack` (Vector.h 129-144); the element is move-constructed from the parameter. -/
def pushBackT (m : Mem α) (buf : Buf) (x : α) (f : Fuse) : Res (Thrown α) := do
  let (m1, buf1, r) ← growForOneT sz mayMove moved spoilt m buf f
  match r with
  | none => .ok (m1, buf1, none)
  | some f1 =>
    match tickMove mayMove f1 with
    | none => .ok (m1, buf1, none)
    | some f2 => do
      let (m2, buf2) ← constructNext m1 buf1 x
      .ok (m2, buf2, some f2)

/-- The loop of the range constructor over an array of the caller (Vector.h 73-74). -/
def fillFromT : List α → Mem α → Buf → Fuse → Res (Thrown α)
  | [], m, buf, f => .ok (m, buf, some f)
  | x :: xs, m, buf, f =>
    match tick f with
    | none => .ok (m, buf, none)
    | some f' => do
      let (m', buf') ← constructNext m buf x
      fillFromT xs m' buf' f'

/-- The loop of the range constructor over the elements of another vector (Vector.h 73-74, 82-85). -/
def copyLoopT : Nat → Nat → Mem α → Buf → Buf → Fuse → Res (Thrown α)
  | 0, _, m, _, new, f => .ok (m, new, some f)
  | k + 1, i, m, src, new, f => do
    let x ← readElem m src i
    match tick f with
    | none => .ok (m, new, none)
    | some f' => do
      let (m1, new1) ← constructNext m new x
      copyLoopT k (i + 1) m1 src new1 f'

/-- The body of a constructor that delegates to `Vector(size_t)` (Vector.h 67-75, 82-85): the object is complete after the
delegation, so that an exception in the body runs `~Vector` (Vector.h 90-94). -/
def finishNew (r : Thrown α) : Res (Thrown α) :=
  match r with
  | (m, buf, some f) => .ok (m, buf, some f)
  | (m, buf, none) => do
    let m' ← destroy m buf
    .ok (m', Buf.null, none)

/-- The range constructor (Vector.h 67-75). -/
def ofRangeT (m : Mem α) (xs : List α) (f : Fuse) : Res (Thrown α) :=
  match newBufT sz m xs.length f with
  | none => .ok (m, Buf.null, none)
  | some (m1, buf, f1) => do
    let r ← fillFromT xs m1 buf f1
    finishNew r

/-- The copy constructor (Vector.h 82-85). -/
def copyNewT (m : Mem α) (src : Buf) (f : Fuse) : Res (Thrown α) :=
  match newBufT sz m src.size f with
  | none => .ok (m, Buf.null, none)
  | some (m1, buf, f1) => do
    let r ← copyLoopT src.size 0 m1 src buf f1
    finishNew r

/-- The assignment `v[i] = x` (Vector.h 240-245) of an element. -/
def writeT (m : Mem α) (buf : Buf) (i : Nat) (x : α) (f : Fuse) : Res (Thrown α) :=
  match tick f with
  | none => do
    let old ← readElem m buf i
    let m' ← writeElem m buf i (torn old x)
    .ok (m', buf, none)
  | some f' => do
    let m' ← writeElem m buf i x
    .ok (m', buf, some f')

/-- Run an operation of one vector; says whether it threw. -/
def onVarT (s : State α) (v : Nat) (g : Mem α → Buf → Res (Thrown α)) : Res (State α × Bool) := do
  let buf ← getVar s.vars v
  let (m, buf', r) ← g s.mem buf
  .ok (⟨m, s.vars.set v (some buf')⟩, r.isNone)

/-- Bring a new vector into scope, unless its constructor threw. -/
def enter (s : State α) : Thrown α → State α × Bool
  | (m, buf, some _) => (⟨m, s.vars ++ [some buf]⟩, false)
  | (m, _, none) => (⟨m, s.vars⟩, true)

/-- The effect of a statement, and whether it threw. Moves of vectors, `popBack`, `clear` and the destructor neither allocate nor
construct elements. `operator=(Vector const&)` makes the temporary copy first (Vector.h 96-101). -/
def stepT (s : State α) (op : Op α) (f : Fuse) : Res (State α × Bool) :=
  match op with
  | .create cap =>
    match newBufT sz s.mem cap f with
    | none => .ok (s, true)
    | some (m, buf, _) => .ok (⟨m, s.vars ++ [some buf]⟩, false)
  | .ofRange xs => do
    let r ← ofRangeT sz s.mem xs f
    .ok (enter s r)
  | .copyNew src => do
    let sb ← getVar s.vars src
    let r ← copyNewT sz s.mem sb f
    .ok (enter s r)
  | .copyAssign dst src => do
    let sb ← getVar s.vars src
    let (m, tmp, r) ← copyNewT sz s.mem sb f
    match r with
    | none => .ok (⟨m, s.vars⟩, true)
    | some _ => do
      let db ← getVar s.vars dst
      let m' ← destroy m db
      .ok (⟨m', s.vars.set dst (some tmp)⟩, false)
  | .reserve v n => onVarT s v (fun m b => reserveT sz mayMove moved spoilt m b n f)
  | .resize v n => onVarT s v (fun m b => resizeT sz mayMove moved spoilt dflt m b n f)
  | .pushBack v x => onVarT s v (fun m b => pushBackT sz mayMove moved spoilt m b x f)
  | .write v i x => onVarT s v (fun m b => writeT torn m b i x f)
  | op => do
    let s' ← step sz moved dflt s op
    .ok (s', false)

/-- A program that catches exceptions: a statement with its fuse, and how to go on depending on whether it threw. -/
inductive TryProg (α : Type) where
  | stop
  | stmt (op : Op α) (fuse : Fuse) (next : Bool → TryProg α)

/-- The effect of such a program. -/
def runT : State α → TryProg α → Res (State α)
  | s, .stop => .ok s
  | s, .stmt op f next => do
    let (s', threw) ← stepT sz mayMove moved spoilt torn dflt s op f
    runT s' (next threw)

end Vec
end Coil
