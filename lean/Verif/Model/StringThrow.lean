import Verif.Model.String
import Verif.Model.VectorThrow

/-!
# Strings when memory runs out (include/coil/detail/String.h, src/String.cpp, src/Buffer.cpp)

The functions of `Model/String.lean` with `new char[]` that may throw. Each statement carries a fuse, the number of
allocations that still succeed; the next one throws (`Model/VectorThrow.lean`). Unwinding is explicit: an exception destroys
the locals and the parameters that exist. Nothing else in a string throws: `memcpy` and `delete[]` do not.

`operator+` (String.cpp 173-191) is here as well. Its left operand is a parameter by value, made from the operand by a copy or
by a move, and `return lhs += rhs` returns a reference to it, so that the result is a copy of the parameter.
-/

namespace Coil
namespace Str

open Mem
open Vec (Fuse newBufT Thrown)

/-- `reserve` (String.cpp 39-55): the buffer is allocated before anything is changed. -/
def reserveT (m : Mem UInt8) (buf : Buf) (n : Nat) (f : Fuse) : Res (Thrown UInt8) :=
  if (n + 1) % 2 ^ 64 > buf.cap then
    match newBufT 1 m ((n + 1) % 2 ^ 64) f with
    | none => .ok (m, buf, none)
    | some (m1, new, f1) => do
      let xs ← readSrc m1 (view buf 0 (length buf))
      let m2 ← blit m1 new 0 xs
      let m3 ← poke m2 new (length buf) 0
      let m4 ← freeBuf m3 buf
      .ok (m4, { new with size := buf.size }, some f1)
  else .ok (m, buf, some f)

/-- `resize` (String.cpp 84-97). -/
def resizeT (m : Mem UInt8) (buf : Buf) (n : Nat) (f : Fuse) : Res (Thrown UInt8) := do
  let (m1, buf1, r) ← reserveT m buf n f
  match r with
  | none => .ok (m1, buf1, none)
  | some f1 => do
    let buf2 : Buf := { buf1 with size := (n + 1) % 2 ^ 64 }
    let m2 ← poke m1 buf2 n 0
    .ok (m2, buf2, some f1)

/-- `append` (String.cpp 99-108). -/
def appendT (m : Mem UInt8) (buf : Buf) (src : Src) (f : Fuse) : Res (Thrown UInt8) := do
  let old := length buf
  let (m1, buf1, r) ← resizeT m buf ((old + src.len) % 2 ^ 64) f
  match r with
  | none => .ok (m1, buf1, none)
  | some f1 => do
    let xs ← readSrc m1 src
    let m2 ← blit m1 buf1 old xs
    .ok (m2, buf1, some f1)

/-- `String::String(char const*, size_t)` (String.cpp 12-20). An exception in the body destroys the member `m_buffer`
(Buffer.cpp 22-29). -/
def ofSrcT (m : Mem UInt8) (src : Src) (f : Fuse) : Res (Thrown UInt8) := do
  let (m1, buf, r) ← resizeT m Buf.null src.len f
  match r with
  | none => do
    let m2 ← freeBuf m1 buf
    .ok (m2, Buf.null, none)
  | some f1 => do
    let xs ← readSrc m1 src
    let m2 ← blit m1 buf 0 xs
    .ok (m2, buf, some f1)

/-- The copy constructor (Buffer.cpp 10-15). -/
def copyNewT (m : Mem UInt8) (src : Buf) (f : Fuse) : Res (Thrown UInt8) :=
  match newBufT 1 m src.cap f with
  | none => .ok (m, Buf.null, none)
  | some (m1, new, f1) => do
    let xs ← readSrc m1 (view src 0 src.size)
    let m2 ← blit m1 new 0 xs
    .ok (m2, { new with size := src.size }, some f1)

/-! ## Statements -/

/-- The right operand of `+`: a text outside of all strings, or the text of a string variable. -/
inductive Rhs where
  | bytes (xs : Bytes)
  | var (v : Nat)
  deriving DecidableEq, Repr

/-- A statement: one of `Str.Op`, or `String r = a + rhs`, or with `moved` `String r = std::move(a) + rhs`. -/
inductive TOp where
  | base (op : Op)
  | plus (a : Nat) (moved : Bool) (rhs : Rhs)
  deriving DecidableEq, Repr

/-- Pointer and length of the right operand, found when `+=` runs (String.cpp 121-143). -/
def rhsSrc (vars : List (Option Buf)) : Rhs → Res Src
  | .bytes xs => .ok (.ext xs)
  | .var v => do
    let b ← Vec.getVar vars v
    .ok (view b 0 (length b))

/-- A statement that makes a new string: it is in scope only if no exception was thrown. -/
def bindNew (vars : List (Option Buf)) (r : Thrown UInt8) : Res (State × Bool) :=
  match r with
  | (m, _, none) => .ok (⟨m, vars⟩, true)
  | (m, buf, some _) => .ok (⟨m, vars ++ [some buf]⟩, false)

/-- Run an operation of one string. -/
def onVarT (s : State) (v : Nat) (f : Mem UInt8 → Buf → Res (Thrown UInt8)) : Res (State × Bool) := do
  let buf ← Vec.getVar s.vars v
  let (m, buf', r) ← f s.mem buf
  .ok (⟨m, s.vars.set v (some buf')⟩, r.isNone)

/-- The body of `operator+` (String.cpp 173-191) after its parameter `lhs` was made; `vars` are the variables of the caller. The
parameter is destroyed on every way out. -/
def plusBody (m : Mem UInt8) (vars : List (Option Buf)) (lhs : Buf) (rhs : Rhs) (f : Fuse) : Res (State × Bool) := do
  let src ← rhsSrc vars rhs
  let (m1, lhs1, r1) ← appendT m lhs src f
  match r1 with
  | none => do
    let m2 ← freeBuf m1 lhs1
    .ok (⟨m2, vars⟩, true)
  | some f1 => do
    let (m2, res, r2) ← copyNewT m1 lhs1 f1
    match r2 with
    | none => do
      let m3 ← freeBuf m2 lhs1
      .ok (⟨m3, vars⟩, true)
    | some _ => do
      let m3 ← freeBuf m2 lhs1
      .ok (⟨m3, vars ++ [some res]⟩, false)

/-- The effect of a statement of `Str.Op` (`Str.step`); the last component says whether it threw. Moves and `destroy` and
writes allocate nothing. -/
def stepBase (s : State) (f : Fuse) : Op → Res (State × Bool)
  | .ofBytes xs => do
    let r ← ofSrcT s.mem (.ext xs) f
    bindNew s.vars r
  | .ofPart src off len => do
    let sb ← Vec.getVar s.vars src
    let r ← ofSrcT s.mem (view sb off len) f
    bindNew s.vars r
  | .copyNew src => do
    let sb ← Vec.getVar s.vars src
    let r ← copyNewT s.mem sb f
    bindNew s.vars r
  | .copyAssign dst src => do
    let sb ← Vec.getVar s.vars src
    let (m, tmp, r) ← copyNewT s.mem sb f
    match r with
    | none => .ok (⟨m, s.vars⟩, true)
    | some _ => do
      let db ← Vec.getVar s.vars dst
      let m' ← freeBuf m db
      .ok (⟨m', s.vars.set dst (some tmp)⟩, false)
  | .reserve v n => onVarT s v (fun m b => reserveT m b n f)
  | .resize v n => onVarT s v (fun m b => resizeT m b n f)
  | .append v xs => onVarT s v (fun m b => appendT m b (.ext xs) f)
  | .appendPart v src off len => do
    let sb ← Vec.getVar s.vars src
    onVarT s v (fun m b => appendT m b (view sb off len) f)
  | op => do
    let s' ← step s op
    .ok (s', false)

/-- The effect of a statement. -/
def stepT (s : State) (f : Fuse) : TOp → Res (State × Bool)
  | .base op => stepBase s f op
  | .plus a moved rhs => do
    let ab ← Vec.getVar s.vars a
    if moved then plusBody s.mem (s.vars.set a (some Buf.null)) ab rhs f
    else do
      let (m, lhs, r) ← copyNewT s.mem ab f
      match r with
      | none => .ok (⟨m, s.vars⟩, true)
      | some f1 => plusBody m s.vars lhs rhs f1

/-- A program: each statement comes with its fuse, and the program goes on depending on whether it threw. -/
inductive TryStrs where
  | stop
  | stmt (op : TOp) (fuse : Fuse) (next : Bool → TryStrs)

/-- The effect of a program. -/
def runT : State → TryStrs → Res State
  | s, .stop => .ok s
  | s, .stmt op f next => do
    let (s', threw) ← stepT s f op
    runT s' (next threw)

end Str
end Coil
