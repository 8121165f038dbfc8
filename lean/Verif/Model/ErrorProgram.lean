import Verif.Model.ErrorCommands

/-!
# The program of examples/errors/ErrorsExample.cpp
-/

namespace Coil

/-- The functions of the program (ErrorsExample.cpp 88-92). -/
inductive ErrorCode where
  | context | except | float | type | named
  deriving DecidableEq

/-- The functions (ErrorsExample.cpp 12-81). There is no state. -/
def errorFunctions (pl : Platform) (tiny : Nat → Nat → Bool) (nan : Fl → Bool) : ErrorCode → FunctorDef Unit ErrorCode Unit
  | .context => sqrtContextDef tiny nan
  | .except => sqrtExceptDef tiny nan
  | .float => getFloatDef tiny
  | .type => getTypeNameDef pl tiny
  | .named => testNamedArgsDef pl tiny

/-- The commands in the order of their registration (ErrorsExample.cpp 88-92). -/
def errorTable : List (Bytes × List (ErrorCode × Unit)) :=
  [(lit "sqrt_context", [(.context, ())]), (lit "sqrt_except", [(.except, ())]), (lit "get_float", [(.float, ())]),
   (lit "get_type_name", [(.type, ())]), (lit "test_named_args", [(.named, ())])]

end Coil
