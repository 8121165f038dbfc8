/-!
# Basic definitions shared by the model

Bytes, literals and the outcome type that makes undefined behaviour and
non-termination explicit.
-/

namespace Coil

/-- A C++ `char` seen as the byte it occupies in memory. -/
abbrev Byte := UInt8

/-- A sequence of `char`s: the contents of a `coil::String` or of a
`coil::StringView` (include/coil/detail/String.h, StringView.h). -/
abbrev Bytes := List UInt8

/-- A C string literal (ASCII only). -/
def lit (s : String) : Bytes := s.toList.map (fun c => c.toNat.toUInt8)

/-- Kinds of undefined behaviour the model distinguishes, and the stop by a failed assertion. -/
inductive UB where
  /-- reading outside an object -/
  | oobRead
  /-- writing outside an object -/
  | oobWrite
  /-- `x % 0` -/
  | divByZero
  /-- dereferencing a null pointer -/
  | nullDeref
  /-- access to freed memory -/
  | useAfterFree
  /-- `tolower` of a value that is neither an `unsigned char` nor `EOF` -/
  | toLowerRange
  /-- access to memory that holds no constructed object -/
  | deadObject
  /-- a `printf` format that is not understood or does not match the arguments -/
  | badFormat
  /-- `static_cast` to an enumeration without fixed underlying type, of a value outside its range -/
  | badEnum
  /-- arithmetic of a signed type whose result does not fit -/
  | intOverflow
  /-- conversion of a floating-point number to an integer type that cannot hold it -/
  | castRange
  /-- not undefined behaviour: `COIL_ASSERT` (include/coil/detail/Assert.h 5-14) found its condition false and stops
  the program; only in the models of builds with assertions -/
  | assertion
  deriving DecidableEq, Repr

/-- Outcome of running a piece of C++: a value, undefined behaviour, or a loop
that never ends. (C++ exceptions are modelled separately where they occur.) -/
inductive Res (α : Type u) where
  | ok (a : α)
  | ub (why : UB)
  | diverge
  deriving DecidableEq, Repr

namespace Res

/-- Sequencing: undefined behaviour and divergence absorb what follows. -/
def bind {α : Type u} {β : Type v} (x : Res α) (f : α → Res β) : Res β :=
  match x with
  | .ok a => f a
  | .ub w => .ub w
  | .diverge => .diverge

instance : Monad Res where
  pure := .ok
  bind := Res.bind

/-- The outcome is a proper value. -/
def IsOk {α : Type u} : Res α → Prop
  | .ok _ => True
  | _ => False

instance {α : Type u} (x : Res α) : Decidable x.IsOk := by
  cases x <;> simp only [IsOk] <;> infer_instance

@[simp] theorem bind_ok {α β : Type u} (a : α) (f : α → Res β) : (Res.ok a >>= f) = f a := rfl
@[simp] theorem bind_ub {α β : Type u} (w : UB) (f : α → Res β) : (Res.ub w >>= f) = Res.ub w := rfl
@[simp] theorem bind_diverge {α β : Type u} (f : α → Res β) : (Res.diverge >>= f) = Res.diverge := rfl
@[simp] theorem pure_eq {α : Type u} (a : α) : (pure a : Res α) = Res.ok a := rfl
@[simp] theorem isOk_ok {α : Type u} (a : α) : (Res.ok a).IsOk := trivial
@[simp] theorem not_isOk_ub {α : Type u} (w : UB) : ¬ (Res.ub w : Res α).IsOk := id
@[simp] theorem not_isOk_diverge {α : Type u} : ¬ (Res.diverge : Res α).IsOk := id

theorem isOk_iff {α : Type u} (x : Res α) : x.IsOk ↔ ∃ a, x = .ok a := by
  cases x <;> simp

theorem bind_eq_ok {α β : Type u} {x : Res α} {f : α → Res β} {b : β} :
    (x >>= f) = .ok b ↔ ∃ a, x = .ok a ∧ f a = .ok b := by
  cases x <;> simp

end Res

/-- Reading one element of an array: out of bounds is undefined behaviour. -/
def readAt {α : Type u} (l : List α) (i : Nat) : Res α :=
  match l[i]? with
  | some a => .ok a
  | none => .ub .oobRead

@[simp] theorem readAt_of_lt {α : Type u} {l : List α} {i : Nat} (h : i < l.length) :
    readAt l i = .ok l[i] := by
  simp [readAt, h]

/-- Writing one element of an array: out of bounds is undefined behaviour. -/
def writeAt {α : Type u} (l : List α) (i : Nat) (a : α) : Res (List α) :=
  if i < l.length then .ok (l.set i a) else .ub .oobWrite

/-- `a - b` in `size_t` (64 bit). -/
def sub64 (a b : Nat) : Nat := if b ≤ a then a - b else 2 ^ 64 + a - b

/-- `%s` / `%.*s` in `sprintf` (src/Coil.cpp 596-621): the text up to the first NUL.
Simplification: lengths are below 2^31, so that the casts to `int`
(`slength()`, StringView.cpp 19-22, String.cpp 29-32) are exact. -/
def cstr (s : Bytes) : Bytes := s.takeWhile (· ≠ 0)

/-- Decimal digits of a natural number, most significant first, with fuel. -/
def natDecAux : Nat → Nat → Bytes
  | 0, _ => []
  | fuel + 1, n =>
    if n < 10 then [(48 + n).toUInt8]
    else natDecAux fuel (n / 10) ++ [(48 + n % 10).toUInt8]

/-- `%u`, `%lu`, `%llu`, `%zu`: decimal digits of a natural number. -/
def natDec (n : Nat) : Bytes := natDecAux (n + 1) n

/-- `%d`, `%ld`, `%lld`: decimal digits of an integer. -/
def intDec (i : Int) : Bytes :=
  match i with
  | .ofNat n => natDec n
  | .negSucc n => 45 :: natDec (n + 1)

end Coil
