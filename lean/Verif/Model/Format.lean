import Verif.Model.String
import Verif.Model.Exec

/-!
# `sprintf` (src/Coil.cpp 596-621) and the format strings of the library

`format` is the part of the C function `vsnprintf` that the library uses, from the C standard (7.21.6.1): the directives `%s`,
`%.*s`, `%c`, `%d`, `%ld`, `%lld`, `%u`, `%lu`, `%llu`, `%zu` and `%%`. A directive that is none of these, a missing argument
or an argument of another type is undefined behaviour here (`badFormat`); the library's floating point formats (`%g`,
`%Lg`) are not covered. Surplus arguments are ignored, as in C.
-/

namespace Coil
namespace Fmt

/-- One variadic argument, with the type that it is passed as. For a pointer: the bytes from the address it points to up
to the end of the object. -/
inductive FArg where
  | ptr (mem : Bytes)
  | int (v : Int)
  | long (v : Int)
  | llong (v : Int)
  | uint (v : Nat)
  | ulong (v : Nat)
  | ullong (v : Nat)
  | size (v : Nat)
  deriving DecidableEq, Repr

/-- The conversion specifications. -/
inductive Dir where
  | s | precS | c | d | ld | lld | u | lu | llu | zu | percent
  deriving DecidableEq, Repr

/-- A format string, cut into ordinary text and conversion specifications. -/
inductive Piece where
  | text (t : Bytes)
  | dir (spec : Dir)
  deriving DecidableEq, Repr

/-- The conversion specifications by their spelling after `%`. -/
def spellings : List (Bytes × Dir) :=
  [(lit "s", .s), (lit ".*s", .precS), (lit "c", .c), (lit "d", .d), (lit "ld", .ld), (lit "lld", .lld), (lit "u", .u),
   (lit "lu", .lu), (lit "llu", .llu), (lit "zu", .zu), (lit "%", .percent)]

/-- The conversion specification that a text begins with, and what follows it. -/
def directive (f : Bytes) : Option (Dir × Bytes) :=
  (spellings.find? (fun p => p.1.isPrefixOf f)).map (fun p => (p.2, f.drop p.1.length))

/-- Cutting a format string. `fuel` is larger than the number of bytes. -/
def compile : Nat → Bytes → Bytes → Option (List Piece)
  | 0, _, _ => none
  | _ + 1, [], acc => some [.text acc]
  | fuel + 1, b :: rest, acc =>
    if b = 37 then
      match directive rest with
      | none => none
      | some (spec, rest') => (compile fuel rest' []).map (fun ps => .text acc :: .dir spec :: ps)
    else compile fuel rest (acc ++ [b])

/-- `%s`: everything before the NUL; it is undefined behaviour if there is none. -/
def strText (mem : Bytes) : Res Bytes := if (0 : UInt8) ∈ mem then .ok (cstr mem) else .ub .oobRead

/-- `%.*s`: at most `n` bytes and no byte from the NUL on. A negative precision counts as no precision (7.21.6.1, 5). -/
def precText (n : Int) (mem : Bytes) : Res Bytes :=
  if n < 0 then strText mem
  else if (0 : UInt8) ∈ mem.take n.toNat ∨ n.toNat ≤ mem.length then .ok (cstr (mem.take n.toNat))
  else .ub .oobRead

/-- One directive: the text and the arguments that remain. `%c` converts its `int` to `unsigned char`. -/
def convert : Dir → List FArg → Res (Bytes × List FArg)
  | .s, .ptr mem :: as => do
    let t ← strText mem
    .ok (t, as)
  | .precS, .int n :: .ptr mem :: as => do
    let t ← precText n mem
    .ok (t, as)
  | .c, .int v :: as => .ok ([UInt8.ofNat (v % 256).toNat], as)
  | .d, .int v :: as => .ok (intDec v, as)
  | .ld, .long v :: as => .ok (intDec v, as)
  | .lld, .llong v :: as => .ok (intDec v, as)
  | .u, .uint v :: as => .ok (natDec v, as)
  | .lu, .ulong v :: as => .ok (natDec v, as)
  | .llu, .ullong v :: as => .ok (natDec v, as)
  | .zu, .size v :: as => .ok (natDec v, as)
  | .percent, as => .ok ([37], as)
  | _, _ => .ub .badFormat

/-- The text that the pieces of a format make with the given arguments. -/
def output : List Piece → List FArg → Res Bytes
  | [], _ => .ok []
  | .text t :: ps, as => do
    let r ← output ps as
    .ok (t ++ r)
  | .dir spec :: ps, as => do
    let (t, as') ← convert spec as
    let r ← output ps as'
    .ok (t ++ r)

/-- The text that `vsnprintf` makes from a format and arguments, before it is cut to the size of the buffer. -/
def format (f : Bytes) (as : List FArg) : Res Bytes :=
  match compile (f.length + 1) f [] with
  | none => .ub .badFormat
  | some ps => output ps as

/-- What `vsnprintf` returns, converted to `size_t` (Coil.cpp 610): the number of bytes, or -1 if it is not an `int`. -/
def countOf (t : Bytes) : Nat := if t.length < 2 ^ 31 then t.length else 2 ^ 64 - 1

/-- What `vsnprintf` writes to a buffer of `n` bytes, `n > 0`: as much of the text as there is room for, and a NUL. -/
def fill (m : Mem UInt8) (buf : Buf) (n : Nat) (t : Bytes) : Res (Mem UInt8) :=
  Str.blit m buf 0 ((t.take (n - 1) ++ [0]).map some)

/-- `coil::vsprintf` (Coil.cpp 606-621), and `coil::sprintf` (596-604). `String str;` is `String("")` (String.h 16). -/
def vsprintf (m : Mem UInt8) (f : Bytes) (as : List FArg) : Res (Mem UInt8 × Buf) := do
  let t ← format f as
  let (m1, b1) ← Str.ofSrc m (.ext [])
  let (m2, b2) ← Str.resize m1 b1 (countOf t)
  let m3 ← fill m2 b2 (Str.length b2 + 1) t
  .ok (m3, b2)

/-- `slength` (StringView.cpp 19-22, String.cpp 29-32): the cast of the length to a 32 bit `int`. -/
def slength (n : Nat) : Int := if n % 2 ^ 32 < 2 ^ 31 then (n % 2 ^ 32 : Nat) else (n % 2 ^ 32 : Nat) - 2 ^ 32

/-- The two arguments `v.slength(), v.data()` of a `%.*s`, for a view of the first `n` bytes at an address. -/
def viewArgs (n : Nat) (mem : Bytes) : List FArg := [.int (slength n), .ptr mem]

/-- A `char` passed to a variadic function is promoted to `int`. -/
def promote (charSigned : Bool) (c : Byte) : Int :=
  if charSigned = true ∧ 128 ≤ c.toNat then (c.toNat : Int) - 256 else c.toNat

/-! ## The format strings of the library -/

/-- Coil.cpp 272 -/
def fNoFunction : Bytes := lit "No function '%.*s' is registered"
/-- Coil.cpp 290 -/
def fException : Bytes := lit "Exception caught during execution: %s"
/-- Coil.cpp 314 -/
def fCount : Bytes := lit "Wrong number of arguments to '%.*s': expected %s, got %zu"
/-- Coil.cpp 389 -/
def fMissing : Bytes := lit "Missing named argument '%.*s'"
/-- Coil.cpp 488 -/
def fConvert : Bytes := lit "Unable to convert '%s' to type '%.*s'"
/-- Coil.cpp 490 -/
def fConvertDetails : Bytes := lit "Unable to convert '%s' to type '%.*s': %.*s"
/-- Coil.cpp 495 -/
def fSubvalues : Bytes := lit "Expected %zu subvalues, got %zu"
/-- DefaultLexer.cpp 173 -/
def fQuote : Bytes := lit "Token '%c' doesn't have a corresponding opening/closing quote"
/-- DefaultLexer.cpp 183 -/
def fGroup : Bytes := lit "Token '%c' doesn't have a corresponding opening/closing token"
/-- DefaultLexer.cpp 204 -/
def fUnexpected : Bytes := lit "Unexpected token '%.*s' at the beginning of the expression"
/-- StringConv.cpp 106-109 -/
def fInt : Bytes := lit "%d"
/-- StringConv.cpp 111-114 -/
def fLong : Bytes := lit "%ld"
/-- StringConv.cpp 116-119 -/
def fLLong : Bytes := lit "%lld"
/-- StringConv.cpp 121-124 -/
def fUInt : Bytes := lit "%u"
/-- StringConv.cpp 126-129 -/
def fULong : Bytes := lit "%lu"
/-- StringConv.cpp 131-134 -/
def fULLong : Bytes := lit "%llu"

/-- The overload of `toString` that a value of an integer type selects (StringConv.cpp 106-134): the types smaller than `int` are
promoted to `int`. -/
def intFormat : IntType → Bytes × (Int → FArg)
  | .char | .schar | .uchar | .short | .ushort | .int => (fInt, .int)
  | .uint => (fUInt, fun v => .uint v.toNat)
  | .long => (fLong, .long)
  | .ulong => (fULong, fun v => .ulong v.toNat)
  | .llong => (fLLong, .llong)
  | .ullong => (fULLong, fun v => .ullong v.toNat)

end Fmt
end Coil
