import Verif.Model.CheckedVector
import Verif.Model.String

/-!
# `String` in builds with assertions (String.cpp, Buffer.cpp, StringView.cpp)

The functions of `Verif.Model.String` once more, with every `COIL_ASSERT` on the way. Parts of strings (`ofPart`,
`appendPart`) are taken with `StringView(s).substr(…)`. In `Buffer::copy` the assertion on the source pointer is left
out: a null pointer comes with length 0, for which the function returns before it.
-/

namespace Coil
namespace StrC

open Mem Str

/-- Reading the byte at an index (Buffer.cpp 77-85); a byte that was never written is indeterminate. -/
def peek (m : Mem UInt8) (buf : Buf) (i : Nat) : Res UInt8 := readElem m buf i

/-- `validateIsNullTerminated` (String.cpp 165-171) with `end` and `begin` (110-119). -/
def validate (m : Mem UInt8) (buf : Buf) : Res Unit :=
  if buf.size > 0 then do
    assertThat (buf.size ≠ 0)
    let x ← peek m buf (length buf)
    assertThat (x = 0)
  else .ok ()

/-- `Buffer::copy` (Buffer.cpp 87-96). -/
def copy (m : Mem UInt8) (b : BufC) (src : Src) : Res (Mem UInt8) :=
  if src.len = 0 then .ok m
  else do
    assertThat (src.len ≤ b.buf.cap * b.chunk % 2 ^ 64)
    let xs ← readSrc m src
    blit m b.buf 0 xs

/-- `reserve` (String.cpp 39-55) with `Buffer::resize` (Buffer.cpp 71-75). -/
def reserve (m : Mem UInt8) (b : BufC) (n : Nat) : Res (Mem UInt8 × BufC) := do
  validate m b.buf
  if (n + 1) % 2 ^ 64 > b.buf.cap then do
    let (m1, new) ← newBufC 1 m ((n + 1) % 2 ^ 64)
    let m2 ← copy m1 new (view b.buf 0 (length b.buf))
    let m3 ← poke m2 new.buf (length b.buf) 0
    assertThat (b.buf.size ≤ new.buf.cap)
    let new2 : BufC := { new with buf := { new.buf with size := b.buf.size } }
    let m4 ← freeBufC m3 b
    validate m4 new2.buf
    .ok (m4, new2)
  else do
    validate m b.buf
    .ok (m, b)

/-- `resize` (String.cpp 84-97) with `Buffer::resize` (Buffer.cpp 71-75). -/
def resize (m : Mem UInt8) (b : BufC) (n : Nat) : Res (Mem UInt8 × BufC) := do
  validate m b.buf
  let (m1, b1) ← reserve m b n
  assertThat (b1.buf.cap ≥ (n + 1) % 2 ^ 64)
  assertThat ((n + 1) % 2 ^ 64 ≤ b1.buf.cap)
  let b2 : BufC := { b1 with buf := { b1.buf with size := (n + 1) % 2 ^ 64 } }
  let m2 ← poke m1 b2.buf n 0
  assertThat (b2.buf.size = (n + 1) % 2 ^ 64)
  validate m2 b2.buf
  .ok (m2, b2)

/-- `append` (String.cpp 99-108). -/
def append (m : Mem UInt8) (b : BufC) (src : Src) : Res (Mem UInt8 × BufC) := do
  validate m b.buf
  let old := length b.buf
  let (m1, b1) ← resize m b ((old + src.len) % 2 ^ 64)
  let xs ← readSrc m1 src
  let m2 ← blit m1 b1.buf old xs
  validate m2 b1.buf
  .ok (m2, b1)

/-- `String::String(char const*, size_t)` (String.cpp 12-20) for a pointer that is not null; the member starts as
`Buffer(0, 1)` (Buffer.h 14). -/
def ofSrc (m : Mem UInt8) (src : Src) : Res (Mem UInt8 × BufC) := do
  let (m1, b) ← resize m ⟨Buf.null, 1, 0⟩ src.len
  let m2 ← copy m1 b src
  validate m2 b.buf
  .ok (m2, b)

/-- The copy constructor of `Buffer` (Buffer.cpp 10-15): the chunk size is taken over. -/
def copyNew (m : Mem UInt8) (src : BufC) : Res (Mem UInt8 × BufC) := do
  let (m1, new) ← newBufC src.chunk m src.buf.cap
  assertThat (src.count = 0)
  let m2 ← copy m1 new (view src.buf 0 (src.buf.size * src.chunk % 2 ^ 64))
  .ok (m2, { new with buf := { new.buf with size := src.buf.size } })

/-- `StringView(s).substr(off, len)` and the `data()` of it (String.cpp 160-163; StringView.cpp 9-12, 29-41). -/
def partOf (b : BufC) (off len : Nat) : Res Src := do
  assertThat (b.buf.ptr ≠ none)
  assertThat (off ≤ length b.buf)
  assertThat (len ≤ length b.buf)
  assertThat ((off + len) % 2 ^ 64 ≤ length b.buf)
  .ok (view b.buf off len)

/-- A program state. -/
structure State where
  mem : Mem UInt8
  vars : List (Option BufC)
  deriving DecidableEq, Repr

/-- Run an operation of one string. -/
def onVar (s : State) (v : Nat) (f : Mem UInt8 → BufC → Res (Mem UInt8 × BufC)) : Res State := do
  let b ← VecC.getVar s.vars v
  let (m, b') ← f s.mem b
  .ok ⟨m, s.vars.set v (some b')⟩

/-- The effect of a statement, as `Str.step` (String.cpp 8-143; Buffer.cpp 10-44). -/
def step (s : State) : Op → Res State
  | .ofBytes xs => do
    let (m, b) ← ofSrc s.mem (.ext xs)
    .ok ⟨m, s.vars ++ [some b]⟩
  | .ofPart src off len => do
    let sb ← VecC.getVar s.vars src
    let p ← partOf sb off len
    let (m, b) ← ofSrc s.mem p
    .ok ⟨m, s.vars ++ [some b]⟩
  | .copyNew src => do
    let sb ← VecC.getVar s.vars src
    let (m, b) ← copyNew s.mem sb
    .ok ⟨m, s.vars ++ [some b]⟩
  | .moveNew src => do
    let sb ← VecC.getVar s.vars src
    .ok ⟨s.mem, (s.vars.set src (some BufC.null)) ++ [some sb]⟩
  | .copyAssign dst src => do
    let sb ← VecC.getVar s.vars src
    assertThat (sb.count = 0)
    let (m, tmp) ← copyNew s.mem sb
    let db ← VecC.getVar s.vars dst
    let m' ← freeBufC m db
    .ok ⟨m', s.vars.set dst (some tmp)⟩
  | .moveAssign dst src => do
    let sb ← VecC.getVar s.vars src
    let db ← VecC.getVar s.vars dst
    .ok ⟨s.mem, (s.vars.set src (some db)).set dst (some sb)⟩
  | .reserve v n => onVar s v (fun m b => reserve m b n)
  | .resize v n => onVar s v (fun m b => resize m b n)
  | .append v xs => onVar s v (fun m b => append m b (.ext xs))
  | .appendPart v src off len => do
    let sb ← VecC.getVar s.vars src
    let p ← partOf sb off len
    onVar s v (fun m b => append m b p)
  | .write v i x => onVar s v (fun m b => do
      let m' ← poke m b.buf i x
      .ok (m', b))
  | .destroy v => do
    let b ← VecC.getVar s.vars v
    let m ← freeBufC s.mem b
    .ok ⟨m, s.vars.set v none⟩

/-- The effect of a program. -/
def run : State → List Op → Res State
  | s, [] => .ok s
  | s, op :: ops => do
    let s' ← step s op
    run s' ops

/-- The state without the members that only assertions read. -/
def State.forget (s : State) : Str.State := ⟨s.mem, s.vars.map (Option.map BufC.buf)⟩

/-- `operator==(String)` (String.cpp 145-148): both views are made (StringView.cpp 9-12) before anything is compared. -/
def equal (m : Mem UInt8) (a b : BufC) : Res Bool := do
  assertThat (a.buf.ptr ≠ none)
  assertThat (b.buf.ptr ≠ none)
  Str.equal m a.buf b.buf

/-- `back` (String.cpp 72-82). -/
def back (m : Mem UInt8) (b : BufC) : Res UInt8 := do
  assertThat (length b.buf ≠ 0)
  peek m b.buf (length b.buf - 1)

end StrC
end Coil
