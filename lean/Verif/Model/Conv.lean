import Verif.Model.Basic
import Verif.Model.Lexer

/-!
# Conversions between texts and C++ values

`src/StringConv.cpp`, the serializers of `src/Coil.cpp` 425-645 and of
`include/coil/StdLibCompat.h`.
-/

namespace Coil

/-- What the C++ implementation and the build configuration choose. -/
structure Platform where
  /-- `long` has 64 bits (otherwise 32) -/
  long64 : Bool
  /-- `char` is signed -/
  charSigned : Bool
  /-- `COIL_CONFIG_TYPE_NAME_USE_INTEGER_ALIAS` (Config.h) -/
  intAlias : Bool
  /-- `int64_t` is `long` (otherwise `long long`) -/
  int64IsLong : Bool

/-- The number of bits of `long`. -/
def Platform.longBits (pl : Platform) : Nat := if pl.long64 then 64 else 32

/-! ## The C library functions -/

/-- `isspace` in the "C" locale: space, `\t`, `\n`, `\v`, `\f`, `\r`. -/
def isSpaceC (c : Byte) : Bool := c == 32 || (decide (9 ≤ c) && decide (c ≤ 13))

/-- `isdigit`. -/
def isDigit (c : Byte) : Bool := decide (48 ≤ c) && decide (c ≤ 57)

/-- The number of leading characters that satisfy `p`. -/
def countWhile (p : Byte → Bool) : Bytes → Nat
  | [] => 0
  | c :: t => if p c then countWhile p t + 1 else 0

/-- The number denoted by decimal digits, most significant first, after `acc`. -/
def digitsVal (acc : Nat) (ds : Bytes) : Nat := ds.foldl (fun a c => a * 10 + (c.toNat - 48)) acc

/-- The common part of `strtol`, `strtoul`, `strtoll`, `strtoull` with base 10 (C11 7.22.1.4):
skip white space, an optional sign, as many digits as possible. Gives the sign, the magnitude and the
index of the first character not used, or nothing if there is no digit.
The argument is the text before the terminating NUL; a NUL inside is an ordinary character that is
neither white space, sign nor digit, so that the scan stops there, as in C. -/
def strtoScan (s : Bytes) : Option (Bool × Nat × Nat) :=
  let ws := countWhile isSpaceC s
  let s1 := s.drop ws
  let neg := s1.head? == some 45
  let sign := if s1.head? = some 45 ∨ s1.head? = some 43 then 1 else 0
  let s2 := s1.drop sign
  let n := countWhile isDigit s2
  if n = 0 then none else some (neg, digitsVal 0 (s2.take n), ws + sign + n)

/-- The result of a `strtoX` call: the value, the index `end` points to, whether `errno` is set. -/
structure StrtoResult (α : Type) where
  value : α
  stop : Nat
  errno : Bool

/-- `strtol` / `strtoll` for a signed type of `bits` bits: out of range saturates and
sets `ERANGE`; without digits the result is 0 and `end` is the beginning. -/
def strtol (bits : Nat) (s : Bytes) : StrtoResult Int :=
  match strtoScan s with
  | none => ⟨0, 0, false⟩
  | some (neg, mag, stop) =>
    if neg then
      if mag ≤ 2 ^ (bits - 1) then ⟨-(mag : Int), stop, false⟩ else ⟨-(2 ^ (bits - 1) : Int), stop, true⟩
    else
      if mag < 2 ^ (bits - 1) then ⟨mag, stop, false⟩ else ⟨2 ^ (bits - 1) - 1, stop, true⟩

/-- `strtoul` / `strtoull` for an unsigned type of `bits` bits: a minus sign negates in the unsigned type. -/
def strtoul (bits : Nat) (s : Bytes) : StrtoResult Nat :=
  match strtoScan s with
  | none => ⟨0, 0, false⟩
  | some (neg, mag, stop) =>
    if mag < 2 ^ bits then ⟨if neg then (2 ^ bits - mag) % 2 ^ bits else mag, stop, false⟩
    else ⟨2 ^ bits - 1, stop, true⟩

/-! ## `src/StringConv.cpp` -/

/-- `signedIntegerFromString` (StringConv.cpp 30-44); `none` is the result `false`.
Simplification: the assignment to `value` when the function returns `false` is not modelled, no caller
inside the library reads it. -/
def signedFromString (bits : Nat) (s : Bytes) : Option Int :=
  if s = [] then none
  else
    let r := strtol bits s
    if r.errno then none
    else if r.stop = s.length then some r.value else none

/-- `unsignedIntegerFromString` (StringConv.cpp 46-63). -/
def unsignedFromString (bits : Nat) (s : Bytes) : Option Int :=
  if s = [] then none
  else if s.head? = some 45 then none
  else
    let r := strtoul bits s
    if r.errno then none
    else if r.stop = s.length then some r.value else none

/-- `signedAliasFromString` (StringConv.cpp 81-91). -/
def signedAlias (pl : Platform) (min max : Int) (s : Bytes) : Option Int :=
  match signedFromString pl.longBits s with
  | none => none
  | some r => if r < min ∨ r > max then none else some r

/-- `unsignedAliasFromString` (StringConv.cpp 93-103). -/
def unsignedAlias (pl : Platform) (max : Int) (s : Bytes) : Option Int :=
  match unsignedFromString pl.longBits s with
  | none => none
  | some r => if r > max then none else some r

/-- The integer types with serializers (TypeSerializer.h 45-55). -/
inductive IntType where
  | char | schar | uchar | short | ushort | int | uint | long | ulong | llong | ullong
  deriving DecidableEq, Repr

/-- `fromString` for the integer types (StringConv.cpp 160-178, 195-228). The limits are those of
8-bit bytes, 16-bit `short`, 32-bit `int`, 64-bit `long long`. -/
def IntType.fromString (pl : Platform) : IntType → Bytes → Option Int
  | .char => if pl.charSigned then signedAlias pl (-128) 127 else signedAlias pl 0 255
  | .schar => signedAlias pl (-128) 127
  | .uchar => unsignedAlias pl 255
  | .short => signedAlias pl (-32768) 32767
  | .ushort => unsignedAlias pl 65535
  | .int => signedAlias pl (-2147483648) 2147483647
  | .uint => unsignedAlias pl 4294967295
  | .long => signedFromString pl.longBits
  | .ulong => unsignedFromString pl.longBits
  | .llong => signedFromString 64
  | .ullong => unsignedFromString 64

/-- `toString` for the integer types (StringConv.cpp 106-134); the types smaller than `int` are promoted
to `int` and printed with `%d` (call at Coil.cpp 505-508). -/
def IntType.toString : IntType → Int → Bytes
  | .uint, v => natDec v.toNat
  | .ulong, v => natDec v.toNat
  | .ullong, v => natDec v.toNat
  | _, v => intDec v

/-- `arithmeticName` (Coil.cpp 65-115). -/
def IntType.name (pl : Platform) (t : IntType) : Bytes :=
  let alias : Option String :=
    if pl.intAlias then
      match t with
      | .schar => some "int8"
      | .uchar => some "uint8"
      | .short => some "int16"
      | .ushort => some "uint16"
      | .int => some "int32"
      | .uint => some "uint32"
      | .long => if pl.int64IsLong then some "int64" else none
      | .ulong => if pl.int64IsLong then some "uint64" else none
      | .llong => if pl.int64IsLong then none else some "int64"
      | .ullong => if pl.int64IsLong then none else some "uint64"
      | .char => none
    else none
  lit (alias.getD (match t with
    | .char => "char"
    | .schar => "signed char"
    | .uchar => "unsigned char"
    | .short => "short"
    | .ushort => "unsigned short"
    | .int => "int"
    | .uint => "unsigned int"
    | .long => "long"
    | .ulong => "unsigned long"
    | .llong => "long long"
    | .ullong => "unsigned long long"))

/-- `floatFromString` (StringConv.cpp 65-79) with `strtox` one of `strtof`, `strtod`, `strtold`: a
function of the C string, that is of the text before the first NUL. -/
def floatFromString {α : Type} (strtox : Bytes → StrtoResult α) (s : Bytes) : Option α :=
  if s = [] then none
  else
    let r := strtox (cstr s)
    if r.errno then none
    else if r.stop = s.length then some r.value else none

/-! ## Values and errors -/

/-- A value whose texts have been read. -/
abbrev Value := GValue Bytes

/-- The loop of `Value::str` (Coil.cpp 449-455). -/
def valueStrLoop : List Bytes → Bytes → Bytes → Bytes
  | [], _, result => result
  | s :: rest, pfx, result => valueStrLoop rest (lit " ") (result ++ pfx ++ s)

/-- `Value::str` (Coil.cpp 446-458). -/
def GValue.str (v : Value) : Bytes := valueStrLoop v.subvalues [] []

/-- `errors::createGenericError` (Coil.cpp 483-491). -/
def genericError (typeName : Bytes) (input : Value) (details : Bytes) : Bytes :=
  let representation := input.str
  if details = [] then
    lit "Unable to convert '" ++ cstr representation ++ lit "' to type '" ++ cstr typeName ++ lit "'"
  else
    lit "Unable to convert '" ++ cstr representation ++ lit "' to type '" ++ cstr typeName ++ lit "': " ++ cstr details

/-- `errors::createMismatchedSubvaluesError` (Coil.cpp 493-496). -/
def mismatchError (typeName : Bytes) (input : Value) (expected : Nat) : Bytes :=
  genericError typeName input
    (lit "Expected " ++ natDec expected ++ lit " subvalues, got " ++ natDec input.subvalues.length)

/-- A parameter or result type: `TypeName<T>::name()`, `TypeSerializer<T>::fromString` and
`TypeSerializer<T>::toString`. `fromString` may have undefined behaviour (`bool`). `byRef`: what `fromString` returns is not a
`T` but a reference to the `Value` that it was given (only for `T = Value`: `ReferenceWrapper`, Value.h 47-49). -/
structure Conv (α : Type) where
  name : Bytes
  fromString : Value → Res (Except Bytes α)
  toString : α → Bytes
  byRef : Bool := false

/-- `auto x = TypeSerializer<T>::fromString(subvalue);` followed by a use of `*x` (StdLibCompat.h 55-58, 101-103): the `Value`
made from `subvalue` is a temporary that is destroyed at the end of the first statement. -/
def Conv.onTemporary {α : Type} (c : Conv α) (s : Bytes) : Res (Except Bytes α) := do
  match ← c.fromString ⟨[s]⟩ with
  | .error e => .ok (.error e)
  | .ok x => if c.byRef then .ub .deadObject else .ok (.ok x)

/-- `arithmeticFromString` (Coil.cpp 53-63), `TypeSerializer<Type>` (Coil.cpp 499-524). -/
def arithConv {α : Type} (name : Bytes) (parse : Bytes → Option α) (print : α → Bytes) : Conv α where
  name := name
  fromString v :=
    match v.subvalues with
    | [s] =>
      match parse s with
      | some x => .ok (.ok x)
      | none => .ok (.error (genericError name v []))
    | _ => .ok (.error (mismatchError name v 1))
  toString := print

/-- The serializer of an integer type. -/
def intConv (pl : Platform) (t : IntType) : Conv Int := arithConv (t.name pl) (t.fromString pl) t.toString

/-- The C library's view of a floating-point type: `strtof`/`strtod`/`strtold`, the test
`value > -1e-6 && value < 1e-6` and `%g` (`%Lg`). -/
structure FloatLib (α : Type) where
  strtox : Bytes → StrtoResult α
  almostZero : α → Bool
  printG : α → Bytes

/-- `toString` for floating-point types (StringConv.cpp 136-158). -/
def floatToString {α : Type} (lib : FloatLib α) (v : α) : Bytes :=
  if lib.almostZero v then lit "0" else lib.printG v

/-- The serializer of a floating-point type (`name` is "float", "double" or "long double"). -/
def floatConv {α : Type} (name : Bytes) (lib : FloatLib α) : Conv α :=
  arithConv name (floatFromString lib.strtox) (floatToString lib)

/-- `tolower` in the "C" locale, of a `char`: a negative value other than `EOF` (-1) is
outside the domain of the function (C11 7.4 p1). -/
def toLowerC (charSigned : Bool) (c : Byte) : Res Byte :=
  if charSigned = true ∧ 128 ≤ c ∧ c ≠ 255 then .ub .toLowerRange
  else .ok (if 65 ≤ c ∧ c ≤ 90 then c + 32 else c)

/-- The loop of `equalCaseInsensitive` (Coil.cpp 532-534) on texts of equal length. -/
def equalLoop (charSigned : Bool) : Bytes → Bytes → Res Bool
  | a :: as, b :: bs => do
    let x ← toLowerC charSigned a
    let y ← toLowerC charSigned b
    if x ≠ y then .ok false else equalLoop charSigned as bs
  | _, _ => .ok true

/-- `equalCaseInsensitive` (Coil.cpp 527-537). -/
def equalCaseInsensitive (charSigned : Bool) (a b : Bytes) : Res Bool :=
  if b.length ≠ a.length then .ok false else equalLoop charSigned a b

/-- `TypeSerializer<bool>` (Coil.cpp 525-562). -/
def boolConv (pl : Platform) : Conv Bool where
  name := lit "bool"
  fromString v :=
    match v.subvalues with
    | [s] =>
      if s = lit "1" then .ok (.ok true)
      else if s = lit "0" then .ok (.ok false)
      else do
        if ← equalCaseInsensitive pl.charSigned s (lit "true") then .ok (.ok true)
        else if ← equalCaseInsensitive pl.charSigned s (lit "false") then .ok (.ok false)
        else .ok (.error (genericError (lit "bool") v []))
    | _ => .ok (.error (mismatchError (lit "bool") v 1))
  toString b := if b then lit "true" else lit "false"

/-- `TypeSerializer<String>`, `<StringView>` (Coil.cpp 564-588), `<std::string>`, `<std::string_view>`
(StdLibCompat.h 147-175): they all keep the bytes. Simplification: texts, not views, so
that lifetimes of `StringView` parameters are not visible here (they are in `Model/Views.lean`). -/
def stringConv : Conv Bytes where
  name := lit "string"
  fromString v :=
    match v.subvalues with
    | [s] => .ok (.ok s)
    | _ => .ok (.error (mismatchError (lit "string") v 1))
  toString s := s

/-- `TypeSerializer<Value>` (Coil.cpp 460-468, Value.h 44-60). -/
def valueConv : Conv Value where
  name := lit "coil::Value"
  fromString v := .ok (.ok v)
  toString v := v.str
  byRef := true

/-- The loop of `TypeSerializer<std::vector<T>>::fromString` (StdLibCompat.h 53-59). -/
def vecLoop {α : Type} (c : Conv α) (name : Bytes) (input : Value) : List Bytes → List α → Res (Except Bytes (List α))
  | [], result => .ok (.ok result)
  | s :: rest, result => do
    match ← c.onTemporary s with
    | .error e => .ok (.error (genericError name input e))
    | .ok x => vecLoop c name input rest (result ++ [x])

/-- The loop of `TypeSerializer<std::vector<T>>::toString` (StdLibCompat.h 69-74). -/
def vecPrintLoop {α : Type} (c : Conv α) : List α → Bytes → Bytes → Bytes
  | [], _, result => result
  | x :: rest, sep, result => vecPrintLoop c rest (lit ", ") (result ++ sep ++ c.toString x)

/-- `TypeSerializer<std::vector<T>>`, `TypeName<std::vector<T>>` (StdLibCompat.h 43-90). -/
def vecConv {α : Type} (c : Conv α) : Conv (List α) where
  name := lit "vector<" ++ c.name ++ lit ">"
  fromString v := vecLoop c (lit "vector<" ++ c.name ++ lit ">") v v.subvalues []
  toString l := vecPrintLoop c l [] (lit "[") ++ lit "]"

/-- `TypeSerializer<std::optional<T>>`, `TypeName<std::optional<T>>` (StdLibCompat.h 93-128). -/
def optConv {α : Type} (c : Conv α) : Conv (Option α) where
  name := lit "optional<" ++ c.name ++ lit ">"
  fromString v :=
    match v.subvalues with
    | [] => .ok (.ok none)
    | s :: _ =>
      if s = [] then .ok (.ok none)
      else do
        match ← c.onTemporary s with
        | .ok x => .ok (.ok (some x))
        | .error e => .ok (.error (genericError (lit "optional<" ++ c.name ++ lit ">") v e))
  toString
    | none => []
    | some x => c.toString x

/-- `TypeSerializer<T*>::toString` (TypeSerializer.h 99-112) for a pointer that is null or points to
a value. -/
def ptrToString {α : Type} (c : Conv α) : Option α → Bytes
  | none => lit "null"
  | some x => c.toString x

end Coil
