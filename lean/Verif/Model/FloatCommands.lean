import Verif.Model.Exec
import Verif.Model.FloatArith

/-!
# Commands that compute with floating-point numbers

The command `sum_all` of examples/compound/CompoundExample.cpp and `add` of examples/basic/BasicExample.cpp.
-/

namespace Coil

/-- `std::accumulate(numbers.begin(), numbers.end(), init)` (C++17 [accumulate]) with a floating-point type. -/
def accumulateF (F : Fmt) (nan : Fl → Fl → Bool) : List Fl → Fl → Fl
  | [], acc => acc
  | x :: rest, acc => accumulateF F nan rest (Fl.add F nan acc x)

/-- The serializer of `float` (Coil.cpp 520, 640; StringConv.cpp 136-139, 180-183). -/
def singleConv (tiny : Nat → Nat → Bool) : Conv Fl := floatConv (lit "float") (Fl.lib .single tiny)

/-- The function object of `sum_all` (CompoundExample.cpp 146). -/
def sumAllDef {W C D : Type} (tiny : Nat → Nat → Bool) (nan : Fl → Fl → Bool) : FunctorDef W C D where
  params := [⟨List Fl, vecConv (singleConv tiny)⟩]
  R := Fl
  retName := (singleConv tiny).name
  print := some (singleConv tiny).toString
  body a := .ret (accumulateF .single nan a.1 (.fin false 0 Fmt.single.emin))

/-- The function object of `add` (BasicExample.cpp 46-49, 98). -/
def addDef {W C D : Type} (tiny : Nat → Nat → Bool) (nan : Fl → Fl → Bool) : FunctorDef W C D where
  params := [⟨Fl, singleConv tiny⟩, ⟨Fl, singleConv tiny⟩]
  R := Fl
  retName := (singleConv tiny).name
  print := some (singleConv tiny).toString
  body a := .ret (Fl.add .single nan a.1 a.2.1)

end Coil
