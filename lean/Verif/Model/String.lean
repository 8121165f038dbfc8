import Verif.Model.Vector

/-!
# `String` over a heap (include/coil/detail/String.h, src/String.cpp, src/Buffer.cpp)

Strings use the same heap of blocks as vectors; a slot is a byte, and an empty slot is a byte that was never written.
`sizeof(char)` is 1, so a buffer of capacity `n` is a block of `n` bytes. Assertions are off (Config.h 10-13). A
`memcpy` of zero bytes is a no-op for every pointer. Copying a byte that was never written copies its being unwritten.
-/

namespace Coil
namespace Str

open Mem

/-- Where the source operand of a copy comes from: bytes outside of all strings, or a place in a heap block. -/
inductive Src where
  | ext (xs : Bytes)
  | at (block off len : Nat)
  deriving DecidableEq, Repr

/-- The length that is passed along with the pointer. -/
def Src.len : Src → Nat
  | .ext xs => xs.length
  | .at _ _ n => n

/-- The bytes behind a source operand at the time of the copy. -/
def readSrc (m : Mem UInt8) : Src → Res (List (Option UInt8))
  | .ext xs => .ok (xs.map some)
  | .at b off n =>
    if n = 0 then .ok []
    else do
      let c ← m.cells b
      if off + n ≤ c.length then .ok ((c.drop off).take n) else .ub .oobRead

/-- `memcpy(m_ptr + off, …, xs.size())` into a buffer (Buffer.cpp 87-96 with `off = 0`, String.cpp 105). -/
def blit (m : Mem UInt8) (buf : Buf) (off : Nat) (xs : List (Option UInt8)) : Res (Mem UInt8) :=
  if xs.length = 0 then .ok m
  else do
    let b ← deref buf.ptr
    let c ← m.cells b
    if off + xs.length ≤ c.length then .ok (m.setCells b (c.take off ++ xs ++ c.drop (off + xs.length)))
    else .ub .oobWrite

/-- `*m_buffer.get(i) = x` (Buffer.cpp 77-85). -/
def poke (m : Mem UInt8) (buf : Buf) (i : Nat) (x : UInt8) : Res (Mem UInt8) := do
  let b ← deref buf.ptr
  let c ← m.cells b
  if i < c.length then .ok (m.setCells b (c.set i (some x))) else .ub .oobWrite

/-- `length` (String.cpp 22-27). -/
def length (buf : Buf) : Nat := if buf.size > 0 then buf.size - 1 else 0

/-- The pointer and length of the text of a string (`cStr`, `length`, `operator StringView`; String.cpp 57-60,
160-163), cut down to a part of it (`StringView::substr`). A null pointer only comes with length 0. -/
def view (buf : Buf) (off len : Nat) : Src :=
  match buf.ptr with
  | some b => .at b off len
  | none => .ext []

/-- `reserve` (String.cpp 39-55). The assignment swaps the buffers (Buffer.cpp 40-44) and the local `buffer` is
destroyed with the old block. -/
def reserve (m : Mem UInt8) (buf : Buf) (n : Nat) : Res (Mem UInt8 × Buf) :=
  if (n + 1) % 2 ^ 64 > buf.cap then do
    let (m1, new) := newBuf 1 m ((n + 1) % 2 ^ 64)
    let xs ← readSrc m1 (view buf 0 (length buf))
    let m2 ← blit m1 new 0 xs
    let m3 ← poke m2 new (length buf) 0
    let m4 ← freeBuf m3 buf
    .ok (m4, { new with size := buf.size })
  else .ok (m, buf)

/-- `resize` (String.cpp 84-97). -/
def resize (m : Mem UInt8) (buf : Buf) (n : Nat) : Res (Mem UInt8 × Buf) := do
  let (m1, buf1) ← reserve m buf n
  let buf2 : Buf := { buf1 with size := (n + 1) % 2 ^ 64 }
  let m2 ← poke m1 buf2 n 0
  .ok (m2, buf2)

/-- `append` (String.cpp 99-108); the `operator+=` overloads (121-143) only compute pointer and length. -/
def append (m : Mem UInt8) (buf : Buf) (src : Src) : Res (Mem UInt8 × Buf) := do
  let old := length buf
  let (m1, buf1) ← resize m buf ((old + src.len) % 2 ^ 64)
  let xs ← readSrc m1 src
  let m2 ← blit m1 buf1 old xs
  .ok (m2, buf1)

/-- `String::String(char const*, size_t)` (String.cpp 12-20), also `String(StringView)` and, with the length found by `strlen`,
`String(char const*)`. -/
def ofSrc (m : Mem UInt8) (src : Src) : Res (Mem UInt8 × Buf) := do
  let (m1, buf) ← resize m Buf.null src.len
  let xs ← readSrc m1 src
  let m2 ← blit m1 buf 0 xs
  .ok (m2, buf)

/-- The copy constructor: the implicit one of `String` copies the buffer (Buffer.cpp 10-15), with its capacity and its
`m_size` bytes, the terminator among them. -/
def copyNew (m : Mem UInt8) (src : Buf) : Res (Mem UInt8 × Buf) := do
  let (m1, new) := newBuf 1 m src.cap
  let xs ← readSrc m1 (view src 0 src.size)
  let m2 ← blit m1 new 0 xs
  .ok (m2, { new with size := src.size })

/-! ## Programs with several strings -/

/-- A program state: memory and the string variables in scope (`none`: destroyed). -/
structure State where
  mem : Mem UInt8
  vars : List (Option Buf)
  deriving DecidableEq, Repr

/-- One statement of a program that uses strings. New strings get the next number. `ofPart` and `appendPart` take
part of the text of another string (the whole of it for `s += t`). -/
inductive Op where
  | ofBytes (xs : Bytes)
  | ofPart (src off len : Nat)
  | copyNew (src : Nat)
  | moveNew (src : Nat)
  | copyAssign (dst src : Nat)
  | moveAssign (dst src : Nat)
  | reserve (v n : Nat)
  | resize (v n : Nat)
  | append (v : Nat) (xs : Bytes)
  | appendPart (v src off len : Nat)
  | write (v i : Nat) (x : UInt8)
  | destroy (v : Nat)
  deriving DecidableEq, Repr

/-- Run an operation of one string. -/
def onVar (s : State) (v : Nat) (f : Mem UInt8 → Buf → Res (Mem UInt8 × Buf)) : Res State := do
  let buf ← Vec.getVar s.vars v
  let (m, buf') ← f s.mem buf
  .ok ⟨m, s.vars.set v (some buf')⟩

/-- The effect of a statement. The implicit copy and move members of `String` (String.h) use those of `Buffer`: a move
swaps the buffers (Buffer.cpp 17-20, 40-44), a copy assignment makes a temporary copy, swaps with it and destroys it
(Buffer.cpp 31-38). -/
def step (s : State) : Op → Res State
  | .ofBytes xs => do
    let (m, buf) ← ofSrc s.mem (.ext xs)
    .ok ⟨m, s.vars ++ [some buf]⟩
  | .ofPart src off len => do
    let sb ← Vec.getVar s.vars src
    let (m, buf) ← ofSrc s.mem (view sb off len)
    .ok ⟨m, s.vars ++ [some buf]⟩
  | .copyNew src => do
    let sb ← Vec.getVar s.vars src
    let (m, buf) ← copyNew s.mem sb
    .ok ⟨m, s.vars ++ [some buf]⟩
  | .moveNew src => do
    let sb ← Vec.getVar s.vars src
    .ok ⟨s.mem, (s.vars.set src (some Buf.null)) ++ [some sb]⟩
  | .copyAssign dst src => do
    let sb ← Vec.getVar s.vars src
    let (m, tmp) ← copyNew s.mem sb
    let db ← Vec.getVar s.vars dst
    let m' ← freeBuf m db
    .ok ⟨m', s.vars.set dst (some tmp)⟩
  | .moveAssign dst src => do
    let sb ← Vec.getVar s.vars src
    let db ← Vec.getVar s.vars dst
    .ok ⟨s.mem, (s.vars.set src (some db)).set dst (some sb)⟩
  | .reserve v n => onVar s v (fun m b => reserve m b n)
  | .resize v n => onVar s v (fun m b => resize m b n)
  | .append v xs => onVar s v (fun m b => append m b (.ext xs))
  | .appendPart v src off len => do
    let sb ← Vec.getVar s.vars src
    onVar s v (fun m b => append m b (view sb off len))
  | .write v i x => onVar s v (fun m b => do
      let m' ← poke m b i x
      .ok (m', b))
  | .destroy v => do
    let buf ← Vec.getVar s.vars v
    let m ← freeBuf s.mem buf
    .ok ⟨m, s.vars.set v none⟩

/-- The effect of a program. -/
def run : State → List Op → Res State
  | s, [] => .ok s
  | s, op :: ops => do
    let s' ← step s op
    run s' ops

/-- The text of a string: the bytes behind `StringView(s)` (String.cpp 160-163). -/
def text (m : Mem UInt8) (buf : Buf) : Res (List (Option UInt8)) := readSrc m (view buf 0 (length buf))

/-- The bytes of a row in which every byte was written; comparing others is reading indeterminate values. -/
def written : List (Option UInt8) → Res Bytes
  | [] => .ok []
  | some x :: xs => do
    let r ← written xs
    .ok (x :: r)
  | none :: _ => .ub .deadObject

/-- `operator==(String)` (String.cpp 145-148): the views are compared, first the lengths and then the bytes with
`memcmp` (StringView.cpp 61-69). -/
def equal (m : Mem UInt8) (a b : Buf) : Res Bool :=
  if length a ≠ length b then .ok false
  else do
    let xs ← text m a
    let ys ← text m b
    let xs' ← written xs
    let ys' ← written ys
    .ok (xs' == ys')

end Str
end Coil
