import Verif.Model.FloatCommands

/-!
# A variable with units

The function `angleVariable` of examples/advanced/AdvancedExample.cpp, which makes the command `direction`.

Simplification: the constant `3.14159265358979f` is the number of type `float` nearest to its text (C++17 [lex.fcon] p1 leaves the choice between
the neighbours to the implementation); `std::stringstream` prints a `float` as `%g` does (C++17 [facet.num.put.virtuals] p5).
-/

namespace Coil

/-- Where the program keeps the angle. -/
structure AngleAt (W : Type) where
  read : W → Fl
  write : W → Fl → W

/-- The constant `3.14159265358979f` (AdvancedExample.cpp 99). -/
def piF : Fl := Fl.roundTo .single false (314159265358979, 100000000000000)

/-- The constant `180.0f / 3.14159265358979f` (AdvancedExample.cpp 99). -/
def degreesPerRadian (nan : Fl → Fl → Bool) : Fl := Fl.div .single nan (Fl.ofNat .single 180) piF

/-- `angleToString` (AdvancedExample.cpp 58-63). -/
def angleToString (x : Fl) : Bytes := Fl.printG x ++ lit " degrees"

/-- The text of the number and whether it is in radians (AdvancedExample.cpp 75-88), for a text that is not empty. -/
def angleSplit (val : Bytes) : Bytes × Bool :=
  let lastChar := val.getLast?
  if lastChar = some 114 then (val.take (val.length - 1), true)
  else if lastChar = some 100 then (val.take (val.length - 1), false)
  else (val, false)

/-- The end of the second function object (AdvancedExample.cpp 90-101), after the text is split. -/
def angleSet {W C D : Type} (tiny : Nat → Nat → Bool) (nan : Fl → Fl → Bool) (at_ : AngleAt W) (number : Bytes) (radians : Bool) :
    Prog W C D Bytes :=
  (Prog.ofRes ((singleConv tiny).fromString ⟨[number]⟩)).bind fun
    | .error e => .reportError e (.get fun w => .ret (angleToString (at_.read w)))
    | .ok x => .get fun w =>
      .set (at_.write w (if radians then Fl.mul .single nan x (degreesPerRadian nan) else x))
        (.get fun w => .ret (angleToString (at_.read w)))

/-- The function objects of `direction` (AdvancedExample.cpp 65-105, 155-156). -/
def angleDefs {W C D : Type} (tiny : Nat → Nat → Bool) (nan : Fl → Fl → Bool) (at_ : AngleAt W) : List (FunctorDef W C D) :=
  [{ params := []
     R := Bytes
     retName := stringConv.name
     print := some stringConv.toString
     body := fun _ => .get fun w => .ret (angleToString (at_.read w)) },
   { params := [⟨Bytes, stringConv⟩]
     R := Bytes
     retName := stringConv.name
     print := some stringConv.toString
     body := fun a =>
       if a.1 = [] then .reportError (lit "Conversion error") (.get fun w => .ret (angleToString (at_.read w)))
       else angleSet tiny nan at_ (angleSplit a.1).1 (angleSplit a.1).2 }]

end Coil
