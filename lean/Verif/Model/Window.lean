import Verif.Model.FloatCommands

/-!
# The properties of a window

The class `Window` and the commands `window.aspect` and `window.diagonal` of examples/properties/PropertiesExample.cpp.

Simplifications: `std::size_t` has 64 bits; division by zero is that of IEEE 754 (C11 F.8.4.2) and no undefined behaviour. `std::hypotf` is a parameter.
-/

namespace Coil

/-- `Window` (PropertiesExample.cpp 10-25). -/
structure Window where
  width : Nat
  height : Nat
  deriving DecidableEq, Repr

/-- `1.0f`. -/
def oneF : Fl := .fin false (2 ^ 23) (-23)

/-- `Window::getAspect` (PropertiesExample.cpp 16-19). -/
def Window.aspect (nan : Fl → Fl → Bool) (w : Window) : Fl :=
  Fl.div .single nan (Fl.mul .single nan oneF (Fl.ofNat .single w.width)) (Fl.ofNat .single w.height)

/-- `Window::setAspect` (PropertiesExample.cpp 20-23). -/
def Window.setAspect (nan : Fl → Fl → Bool) (w : Window) (aspect : Fl) : Res Window := do
  let width ← Fl.toUnsigned 64 (Fl.mul .single nan aspect (Fl.ofNat .single w.height))
  .ok { w with width := width }

/-- `getWindowDiagonal` (PropertiesExample.cpp 27-30). -/
def Window.diagonal (nan : Fl → Fl → Bool) (hypot : Fl → Fl → Fl) (w : Window) : Fl :=
  hypot (Fl.mul .single nan oneF (Fl.ofNat .single w.width)) (Fl.mul .single nan oneF (Fl.ofNat .single w.height))

/-- `setWindowDiagonal` (PropertiesExample.cpp 32-37). -/
def Window.setDiagonal (nan : Fl → Fl → Bool) (hypot : Fl → Fl → Fl) (w : Window) (value : Fl) : Res Window := do
  let scale := Fl.div .single nan value (w.diagonal nan hypot)
  let width ← Fl.toUnsigned 64 (Fl.mul .single nan (Fl.ofNat .single w.width) scale)
  let height ← Fl.toUnsigned 64 (Fl.mul .single nan (Fl.ofNat .single w.height) scale)
  .ok ⟨width, height⟩

/-- Where the program keeps the window. -/
structure WindowAt (W : Type) where
  read : W → Window
  write : W → Window → W

/-- The functors of a property of the window. -/
def windowDefs {W C D : Type} (tiny : Nat → Nat → Bool) (at_ : WindowAt W) (getter : Window → Fl) (setter : Window → Fl → Res Window) :
    List (FunctorDef W C D) :=
  propertyDefs (singleConv tiny) (.get fun w => .ret (getter (at_.read w)))
    fun a => .get fun w => (Prog.ofRes (setter (at_.read w) a)).bind fun x => .set (at_.write w x) (.ret ())

/-- The functors of `window.aspect` (PropertiesExample.cpp 46). -/
def aspectDefs {W C D : Type} (tiny : Nat → Nat → Bool) (nan : Fl → Fl → Bool) (at_ : WindowAt W) : List (FunctorDef W C D) :=
  windowDefs tiny at_ (Window.aspect nan) (Window.setAspect nan)

/-- The functors of `window.diagonal` (PropertiesExample.cpp 47). -/
def diagonalDefs {W C D : Type} (tiny : Nat → Nat → Bool) (nan : Fl → Fl → Bool) (hypot : Fl → Fl → Fl) (at_ : WindowAt W) :
    List (FunctorDef W C D) :=
  windowDefs tiny at_ (Window.diagonal nan hypot) (Window.setDiagonal nan hypot)

end Coil
