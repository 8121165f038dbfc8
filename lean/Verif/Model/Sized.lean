import Verif.Model.Exec

/-!
# The commands `data` and `data.size`

The commands of examples/properties/PropertiesExample.cpp that print and resize a vector.

Simplification: `std::size_t` is `unsigned long`. Which sizes a vector can be given is a parameter.
-/

namespace Coil

variable {W C D : Type}

/-- Where the program keeps the vector. -/
structure VectorAt (W : Type) where
  read : W → List Int
  write : W → List Int → W

/-- `data.resize(size)` (C++17 [vector.capacity]): elements are dropped or zeros are appended. `refuse` is the exception
(`std::length_error`, `std::bad_alloc`) for a size that cannot be had; the vector is unchanged then. -/
def resizeProg (refuse : Nat → Option Exn) (at_ : VectorAt W) (n : Nat) : Prog W C D Unit :=
  .get fun w =>
    match if n ≤ (at_.read w).length then none else refuse n with
    | some e => .throw e
    | none => .set (at_.write w ((at_.read w).take n ++ List.replicate (n - (at_.read w).length) 0)) (.ret ())

/-- The functors of `data.size` (PropertiesExample.cpp 59). -/
def sizeDefs (pl : Platform) (refuse : Nat → Option Exn) (at_ : VectorAt W) : List (FunctorDef W C D) :=
  propertyDefs (intConv pl .ulong) (.get fun w => .ret ((at_.read w).length : Int)) fun n => resizeProg refuse at_ n.toNat

/-- The loop of `data` (PropertiesExample.cpp 55-56): `context.logf("%d ", value)` for each element. -/
def printLoop : List Int → Prog W C D Unit → Prog W C D Unit
  | [], k => k
  | x :: xs, k => .log (intDec x ++ lit " ") (printLoop xs k)

/-- The function object of `data` (PropertiesExample.cpp 53-58). -/
def dataDef (at_ : VectorAt W) : FunctorDef W C D where
  params := []
  R := Unit
  retName := lit "void"
  print := none
  body _ := .log (lit "{ ") (.get fun w => printLoop (at_.read w) (.log (lit "}") (.ret ())))

end Coil
