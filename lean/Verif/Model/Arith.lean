import Verif.Model.Exec

/-!
# Commands that compute with integers

`Object::scale` of examples/basic/BasicExample.cpp, `DynamicArray` and the command `sum` of
examples/usertypes/UsertypesExample.cpp.
-/

namespace Coil

/-- `a * b` of type `int` (C++17 [expr] p4: a result that is not representable is undefined behaviour). -/
def intMul (a b : Int) : Res Int :=
  if -2147483648 ≤ a * b ∧ a * b ≤ 2147483647 then .ok (a * b) else .ub .intOverflow

/-- `a + b` of type `int`. -/
def intAdd (a b : Int) : Res Int :=
  if -2147483648 ≤ a + b ∧ a + b ≤ 2147483647 then .ok (a + b) else .ub .intOverflow

/-- `std::accumulate(values.begin(), values.end(), init)` (C++17 [accumulate]) with the type `int`. -/
def accumulate : List Int → Int → Res Int
  | [], acc => .ok acc
  | x :: rest, acc => do
    let acc' ← intAdd acc x
    accumulate rest acc'

/-- The loop of `TypeSerializer<DynamicArray<T>>::fromString` (UsertypesExample.cpp 150-164). -/
def dynLoop {α : Type} (c : Conv α) (name : Bytes) (input : Value) : List Bytes → List α → Res (Except Bytes (List α))
  | [], result => .ok (.ok result)
  | s :: rest, result => do
    match ← c.onTemporary s with
    | .error e => .ok (.error (genericError name input e))
    | .ok x => dynLoop c name input rest (result ++ [x])

/-- `TypeSerializer<DynamicArray<T>>`, `TypeName<DynamicArray<T>>` (UsertypesExample.cpp 147-166, 170-178). There is no `toString`, so that no function
can return a `DynamicArray`. -/
def dynConv {α : Type} (c : Conv α) : Conv (List α) where
  name := lit "DynamicArray<" ++ c.name ++ lit ">"
  fromString v := dynLoop c (lit "DynamicArray<" ++ c.name ++ lit ">") v v.subvalues []
  toString _ := []

/-- The function object of `coil::bind(&Object::scale, &object)` (BasicExample.cpp 61-78, 109-110); `multiplier` reads the member of the
object. -/
def scaleDef {W C D : Type} (pl : Platform) (multiplier : W → Int) : FunctorDef W C D where
  params := [⟨Int, intConv pl .int⟩]
  R := Int
  retName := (intConv pl .int).name
  print := some (intConv pl .int).toString
  body a := .get fun w => .ofRes (intMul a.1 (multiplier w))

/-- The function object of `sum` (UsertypesExample.cpp 219). -/
def sumDef {W C D : Type} (pl : Platform) : FunctorDef W C D where
  params := [⟨List Int, dynConv (intConv pl .int)⟩]
  R := Int
  retName := (intConv pl .int).name
  print := some (intConv pl .int).toString
  body a := .ofRes (accumulate a.1 0)

end Coil
