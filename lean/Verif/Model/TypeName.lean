import Verif.Model.Exec

/-!
# Type names and pointer results

`TypeName<T>::name()` (TypeName.h, Coil.cpp 65-115, 624-646, StdLibCompat.h 24-26, 36-38, 82-90, 119-128, Value.h 44-60) and functions that
return pointers (FunctionWrapper.h 40, 66-87; TypeSerializer.h 73-76, 94-112).
-/

namespace Coil

/-- The types for which the library has a `TypeName`. Simplification: `String`, `StringView`, `std::string` and
`std::string_view` are one type `text` (they all have the name "string"); types of the user are left out. -/
inductive CTy where
  | void
  | bool
  | int (t : IntType)
  | float
  | double
  | longDouble
  | text
  /-- `coil::Value` -/
  | raw
  | vec (t : CTy)
  | opt (t : CTy)
  deriving DecidableEq, Repr

/-- `TypeName<T>::name()` (Coil.cpp 624-646, StdLibCompat.h 24-26, 82-90, 119-128, Value.h 44-60). -/
def CTy.name (pl : Platform) : CTy → Bytes
  | .void => lit "void"
  | .bool => lit "bool"
  | .int t => t.name pl
  | .float => lit "float"
  | .double => lit "double"
  | .longDouble => lit "long double"
  | .text => lit "string"
  | .raw => lit "coil::Value"
  | .vec t => lit "vector<" ++ t.name pl ++ lit ">"
  | .opt t => lit "optional<" ++ t.name pl ++ lit ">"

/-- A return type: a type or a pointer to one. -/
inductive RTy where
  | val (t : CTy)
  | ptr (t : CTy)
  deriving DecidableEq, Repr

/-- `TypeName<DecayT<RemovePointerT<R>>>::name()` (FunctionWrapper.h 40). -/
def RTy.name (pl : Platform) : RTy → Bytes
  | .val t => t.name pl
  | .ptr t => t.name pl

/-- `TypeSerializer<char const*>::toString` (Coil.cpp 590-593): `String{value}` calls `strlen`. `none` is a null pointer. -/
def charPtrToString : Option Bytes → Res Bytes
  | none => .ub .nullDeref
  | some s => .ok (cstr s)

section
variable {W C D : Type}

/-- A function that returns a pointer `T*` (FunctionWrapper.h 66-87, TypeSerializer.h 99-112). -/
def returnsPtr {T : Type} (conv : Conv T) (ps : List Param) (body : Args ps → Prog W C D (Option T)) : FunctorDef W C D where
  params := ps
  R := Option T
  retName := conv.name
  print := some (ptrToString conv)
  body := body

/-- A function that returns `char const*` (FunctionWrapper.h 66-87). The serializer can have undefined behaviour, so that it is part of the
body here. -/
def returnsCStr (pl : Platform) (ps : List Param) (body : Args ps → Prog W C D (Option Bytes)) : FunctorDef W C D where
  params := ps
  R := Bytes
  retName := RTy.name pl (.ptr (.int .char))
  print := some id
  body := fun a => (body a).bind fun p => .ofRes (charPtrToString p)

end
end Coil
