import Verif.Model.Conv
import Verif.Model.Exec

/-!
# Enumerations and flags

The serializer for enumerations and the flags variable of the examples (`examples/common/EnumSupport.h`,
`examples/common/Utils.h`, `examples/flags/FlagsExample.cpp`), on top of the copy of `magic_enum` in
`examples/include/magic_enum.hpp`.

Simplifications: the underlying type is one of the integer types, not `bool`; the compiler
names a value after the first constant declared with it (this is what `__PRETTY_FUNCTION__`, magic_enum.hpp 328-350,
shows with GCC and Clang), and does so for every value of the type; the names are not customised (139-145).
-/

namespace Coil

/-! ## The underlying types -/

/-- The number of bits of an integer type. -/
def IntType.bits (pl : Platform) : IntType → Nat
  | .char | .schar | .uchar => 8
  | .short | .ushort => 16
  | .int | .uint => 32
  | .long | .ulong => pl.longBits
  | .llong | .ullong => 64

/-- `std::numeric_limits<U>::is_signed`. -/
def IntType.signed (pl : Platform) : IntType → Bool
  | .char => pl.charSigned
  | .schar | .short | .int | .long | .llong => true
  | .uchar | .ushort | .uint | .ulong | .ullong => false

/-- `std::numeric_limits<U>::digits`. -/
def IntType.digits (pl : Platform) (t : IntType) : Nat := if t.signed pl then t.bits pl - 1 else t.bits pl

/-- `std::numeric_limits<U>::min()`. -/
def IntType.least (pl : Platform) (t : IntType) : Int := if t.signed pl then -(2 ^ t.digits pl : Nat) else 0

/-- `std::numeric_limits<U>::max()`. -/
def IntType.greatest (pl : Platform) (t : IntType) : Int := (2 ^ t.digits pl : Nat) - 1

/-- The bits of a value, as in its object representation (two's complement). -/
def IntType.toBits (pl : Platform) (t : IntType) (z : Int) : BitVec (t.bits pl) := BitVec.ofInt _ z

/-- The value with the given bits. -/
def IntType.ofBits (pl : Platform) (t : IntType) (b : BitVec (t.bits pl)) : Int :=
  if t.signed pl then b.toInt else b.toNat

/-- `static_cast<U>(a | b)`. -/
def IntType.or (pl : Platform) (t : IntType) (a b : Int) : Int := t.ofBits pl (t.toBits pl a ||| t.toBits pl b)

/-- `static_cast<U>(a & b)`. -/
def IntType.and (pl : Platform) (t : IntType) (a b : Int) : Int := t.ofBits pl (t.toBits pl a &&& t.toBits pl b)

/-! ## `magic_enum` -/

/-- The declaration of an enumeration. -/
structure EnumDecl where
  /-- what `enum_type_name<E>()` gives (magic_enum.hpp 642-650) -/
  typeName : Bytes
  /-- `std::underlying_type_t<E>` -/
  underlying : IntType
  /-- the underlying type is fixed: `enum class`, or written after the name -/
  fixed : Bool
  /-- names and values, in the order of the source -/
  constants : List (Bytes × Int)

/-- The number of values needed on either side of zero (C++17 [dcl.enum] p8): `2 ^ M - 1` is the least such number that is not
below any constant `c` nor below `-c - 1`. -/
def EnumDecl.mag (d : EnumDecl) : Nat :=
  (d.constants.map fun c => if 0 ≤ c.2 then c.2.toNat else (-c.2 - 1).toNat).foldl max 0

/-- `bmax` of [dcl.enum] p8. -/
def EnumDecl.bmax (d : EnumDecl) : Int := if d.mag = 0 then 0 else ((2 ^ (Nat.log2 d.mag + 1) : Nat) : Int) - 1

/-- `bmin` of [dcl.enum] p8. -/
def EnumDecl.bmin (d : EnumDecl) : Int := if d.constants.any (fun c => decide (c.2 < 0)) then -(d.bmax + 1) else 0

/-- `static_cast<E>(z)` for a `z` of the underlying type (C++17 [expr.static.cast] p10). -/
def EnumDecl.cast (d : EnumDecl) (z : Int) : Res Int :=
  if d.fixed = true ∨ (d.bmin ≤ z ∧ z ≤ d.bmax) then .ok z else .ub .badEnum

/-- `detail::n<E, V>()` (magic_enum.hpp 328-350): the name of a value, if it has one (`is_valid`, 354-359). -/
def EnumDecl.nameOf (d : EnumDecl) (v : Int) : Option Bytes := (d.constants.find? (fun c => c.2 == v)).map (·.1)

/-- `reflected_min` (magic_enum.hpp 361-378) with the default range (84-91). -/
def EnumDecl.rangeMin (pl : Platform) (d : EnumDecl) : Int :=
  if -128 < d.underlying.least pl then d.underlying.least pl else -128

/-- `reflected_max` (magic_enum.hpp 380-397) with the default range (84-91). -/
def EnumDecl.rangeMax (pl : Platform) (d : EnumDecl) : Int :=
  if 128 < d.underlying.greatest pl then 128 else d.underlying.greatest pl

/-- `values_v<E>` and `names_v<E>` (magic_enum.hpp 427-466, 511-520): the values of the range that have names. -/
def EnumDecl.entries (pl : Platform) (d : EnumDecl) : List (Bytes × Int) :=
  (List.range (d.rangeMax pl - d.rangeMin pl + 1).toNat).filterMap fun (i : Nat) =>
    (d.nameOf (d.rangeMin pl + i)).map fun n => (n, d.rangeMin pl + i)

/-- `values_v<E, true>` and `names_v<E, true>` (the same lines, with 362-364, 381-383, 409-410): the powers of two that have names. -/
def EnumDecl.flagEntries (pl : Platform) (d : EnumDecl) : List (Bytes × Int) :=
  (List.range (d.underlying.digits pl)).filterMap fun i =>
    (d.nameOf (2 ^ i : Nat)).map fun n => (n, ((2 ^ i : Nat) : Int))

/-- The static assertions (magic_enum.hpp 448-457, 717): there are names, and no name just outside the range. -/
def EnumDecl.compiles (pl : Platform) (d : EnumDecl) : Bool :=
  !(d.entries pl).isEmpty &&
  (!decide (d.underlying.least pl < d.rangeMin pl) || (d.nameOf (d.rangeMin pl - 1)).isNone) &&
  (!decide (d.rangeMax pl - d.rangeMin pl + 1 < d.underlying.greatest pl) ||
    (d.nameOf (d.rangeMin pl + (d.rangeMax pl - d.rangeMin pl + 1) + 1)).isNone)

/-- `std::tolower` of an `unsigned char` in the "C" locale. -/
def toLowerU (c : Byte) : Byte := if 65 ≤ c ∧ c ≤ 90 then c + 32 else c

/-- The loop of `cmp_equal` (magic_enum.hpp 262-267) with the predicate of EnumSupport.h 31, on texts of equal length. -/
def cmpEqualLoop : Bytes → Bytes → Bool
  | a :: as, b :: bs => if toLowerU a ≠ toLowerU b then false else cmpEqualLoop as bs
  | _, _ => true

/-- `cmp_equal` (magic_enum.hpp 243-271). -/
def cmpEqual (a b : Bytes) : Bool := if a.length ≠ b.length then false else cmpEqualLoop a b

/-- The loop of `enum_cast` of a text (magic_enum.hpp 751-755). -/
def enumCast (s : Bytes) : List (Bytes × Int) → Option Int
  | [] => none
  | (n, x) :: rest => if cmpEqual s n then some x else enumCast s rest

/-- `enum_name` of a value (magic_enum.hpp 702-711); no name is an empty text. -/
def enumName (es : List (Bytes × Int)) (v : Int) : Bytes :=
  ((es.find? (fun c => c.2 == v)).map (·.1)).getD []

/-! ## `examples/common` -/

/-- The loop of `utils::flatten` (Utils.h 14-18). -/
def flattenLoop (decorator separator : Bytes) : List Bytes → Bytes → Bytes → Bytes
  | [], _, ss => ss
  | v :: rest, current, ss => flattenLoop decorator separator rest separator (ss ++ current ++ decorator ++ v ++ decorator)

/-- `utils::flatten` (Utils.h 8-21). -/
def flatten (strings : List Bytes) (decorator separator : Bytes) : Bytes :=
  flattenLoop decorator separator strings [] []

/-- The end of `fromString` for a text that is not a number (EnumSupport.h 30-38). -/
def enumByName (pl : Platform) (d : EnumDecl) (v : Value) (s : Bytes) : Except Bytes Int :=
  match enumCast s (d.entries pl) with
  | some x => .ok x
  | none => .error (genericError d.typeName v
      (lit "Possible values are [" ++ cstr (flatten ((d.entries pl).map (·.1)) (lit "'") (lit ", ")) ++ lit "]"))

/-- `return static_cast<E>(*integerValue);` (EnumSupport.h 28). -/
def enumByNumber (d : EnumDecl) (z : Int) : Res (Except Bytes Int) := do
  let x ← d.cast z
  .ok (.ok x)

/-- `TypeSerializer<E>`, `TypeName<E>` for an enumeration (EnumSupport.h 18-54). -/
def enumConv (pl : Platform) (d : EnumDecl) : Conv Int where
  name := d.typeName
  fromString v :=
    match v.subvalues with
    | [s] => do
      match ← (intConv pl d.underlying).fromString v with
      | .ok z => enumByNumber d z
      | .error _ => .ok (enumByName pl d v s)
    | _ => .ok (.error (mismatchError d.typeName v 1))
  toString x := enumName (d.entries pl) x

/-! ## Flags -/

/-- The loop of `flags::enum_name` (magic_enum.hpp 929-940): the name so far and the flags found so far. -/
def flagsNameLoop (pl : Platform) (t : IntType) (v : Int) : List (Bytes × Int) → Bytes → Int → Bytes × Int
  | [], name, check => (name, check)
  | (n, x) :: rest, name, check =>
    if t.and pl v x ≠ 0 then
      flagsNameLoop pl t v rest ((if name = [] then name else name ++ lit "|") ++ n) (t.or pl check x)
    else flagsNameLoop pl t v rest name check

/-- `flags::enum_name` (magic_enum.hpp 923-947). -/
def flagsName (pl : Platform) (d : EnumDecl) (v : Int) : Bytes :=
  let r := flagsNameLoop pl d.underlying v (d.flagEntries pl) [] 0
  if r.2 ≠ 0 ∧ r.2 = v then r.1 else []

/-- The loop of the setter of `flagsVariable` (FlagsExample.cpp 57-59). -/
def flagsLoop (pl : Platform) (t : IntType) : List Int → Int → Int
  | [], new => new
  | x :: rest, new => flagsLoop pl t rest (t.or pl new x)

/-- The functors of `flagsVariable` (FlagsExample.cpp 47-66). -/
def flagsVariableDefs {W C D : Type} (pl : Platform) (d : EnumDecl) (v : VarRef W Int) : List (FunctorDef W C D) :=
  [{ params := [], R := Bytes, retName := stringConv.name, print := some stringConv.toString,
     body := fun _ => .get fun w => .ret (flagsName pl d (v.read w)) },
   { params := [⟨List Int, vecConv (enumConv pl d)⟩], R := Bytes, retName := stringConv.name, print := some stringConv.toString,
     body := fun a => (Prog.ofRes (d.cast (flagsLoop pl d.underlying a.1 0))).bind fun x =>
       .get fun w => .set (v.write x w) (.get fun w' => .ret (flagsName pl d (v.read w'))) }]

end Coil
