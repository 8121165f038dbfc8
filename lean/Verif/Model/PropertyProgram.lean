import Verif.Model.Sized
import Verif.Model.Window

/-!
# The program of examples/properties/PropertiesExample.cpp

Simplifications: those of `Model/Window.lean` and `Model/Sized.lean`.
-/

namespace Coil

/-- The functions of the program (PropertiesExample.cpp 45-59); a property with a setter has two. -/
inductive PropCode where
  | printSize | aspect | setAspect | diagonal | setDiagonal | fixedAspect | fixAspect | fixedDiagonal | fixDiagonal | data | size | setSize
  deriving DecidableEq

/-- The variables of the program (PropertiesExample.cpp 43, 52). -/
structure PropWorld where
  window : Window
  data : List Int
  deriving DecidableEq, Repr

/-- The variables at the beginning (PropertiesExample.cpp 13-14, 43, 52). -/
def propStart : PropWorld := ⟨⟨1920, 1080⟩, [3, 1, 4]⟩

/-- The variable `window` (PropertiesExample.cpp 43). -/
def propWindow : WindowAt PropWorld := ⟨PropWorld.window, fun w x => { w with window := x }⟩

/-- The variable `data` (PropertiesExample.cpp 52). -/
def propData : VectorAt PropWorld := ⟨PropWorld.data, fun w x => { w with data := x }⟩

/-- The function object of `window.print_size` (PropertiesExample.cpp 45). -/
def printSizeDef : FunctorDef PropWorld PropCode Unit :=
  ⟨[], Unit, lit "void", none, fun _ => .get fun w => .logline (natDec w.window.width ++ lit "x" ++ natDec w.window.height) (.ret ())⟩

/-- The functors of a property without a setter (PropertiesExample.cpp 49-50). -/
def fixedDefs (tiny : Nat → Nat → Bool) (getter : Window → Fl) : List (FunctorDef PropWorld PropCode Unit) :=
  constBoundPropertyDefs (singleConv tiny) (.get fun w => .ret (getter w.window))

/-- The functions (PropertiesExample.cpp 45-59). -/
def propFunctions (pl : Platform) (refuse : Nat → Option Exn) (tiny : Nat → Nat → Bool) (nan : Fl → Fl → Bool) (hypot : Fl → Fl → Fl) :
    PropCode → FunctorDef PropWorld PropCode Unit
  | .printSize => printSizeDef
  | .aspect => (aspectDefs tiny nan propWindow).getD 0 printSizeDef
  | .setAspect => (aspectDefs tiny nan propWindow).getD 1 printSizeDef
  | .diagonal => (diagonalDefs tiny nan hypot propWindow).getD 0 printSizeDef
  | .setDiagonal => (diagonalDefs tiny nan hypot propWindow).getD 1 printSizeDef
  | .fixedAspect => (fixedDefs tiny (Window.aspect nan)).getD 0 printSizeDef
  | .fixAspect => (fixedDefs tiny (Window.aspect nan)).getD 1 printSizeDef
  | .fixedDiagonal => (fixedDefs tiny (Window.diagonal nan hypot)).getD 0 printSizeDef
  | .fixDiagonal => (fixedDefs tiny (Window.diagonal nan hypot)).getD 1 printSizeDef
  | .data => dataDef propData
  | .size => (sizeDefs pl refuse propData).getD 0 printSizeDef
  | .setSize => (sizeDefs pl refuse propData).getD 1 printSizeDef

/-- The commands in the order of their registration (PropertiesExample.cpp 45-59). -/
def propTable : List (Bytes × List (PropCode × Unit)) :=
  [(lit "window.print_size", [(.printSize, ())]), (lit "window.aspect", [(.aspect, ()), (.setAspect, ())]),
   (lit "window.diagonal", [(.diagonal, ()), (.setDiagonal, ())]), (lit "window.readonly_aspect", [(.fixedAspect, ()), (.fixAspect, ())]),
   (lit "window.readonly_diagonal", [(.fixedDiagonal, ()), (.fixDiagonal, ())]), (lit "data", [(.data, ())]),
   (lit "data.size", [(.size, ()), (.setSize, ())])]

end Coil
