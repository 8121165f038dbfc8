import Verif.Model.NamedCommands
import Verif.Model.TypeName

/-!
# The program of examples/overloading/OverloadingExample.cpp

Simplification: strings may have any length; `%f` as in `Model/NamedCommands.lean`.
-/

namespace Coil

/-- The functions of the program (OverloadingExample.cpp 11-52, 76). -/
inductive OverCode where
  | func1 | func2 | func3 | lambda | object1 | object2 | create | createRadius
  deriving DecidableEq

/-- The members `m_name` of the two objects (OverloadingExample.cpp 41, 72-73). -/
structure OverWorld where
  object1 : Bytes
  object2 : Bytes
  deriving DecidableEq

/-- The first part of the lines about explosions (OverloadingExample.cpp 46, 51); `%.*s` ends at the length or at a NUL. -/
def explosionText (id : Bytes) : Bytes := lit "Creating an explosion '" ++ cstr id ++ lit "' with the "

/-- The functions (OverloadingExample.cpp 11-52, 76). -/
def overFunctions (pl : Platform) (tiny : Nat → Nat → Bool) : OverCode → FunctorDef OverWorld OverCode Unit
  | .func1 => ⟨[], Bytes, stringConv.name, some stringConv.toString, fun _ => .ret (lit "func1")⟩
  | .func2 => ⟨[⟨Int, intConv pl .int⟩], Bytes, stringConv.name, some stringConv.toString, fun _ => .ret (lit "func2")⟩
  | .func3 => ⟨[⟨Int, intConv pl .int⟩, ⟨Fl, singleConv tiny⟩], Bytes, stringConv.name, some stringConv.toString, fun _ => .ret (lit "func3")⟩
  | .lambda => returnsCStr pl [] fun _ => .ret (some (lit "lambda1"))
  | .object1 => ⟨[⟨Bytes, stringConv⟩, ⟨Fl, singleConv tiny⟩], Bytes, stringConv.name, some stringConv.toString, fun _ =>
      .get fun w => .ret (lit "Object::func1 from " ++ w.object1)⟩
  | .object2 => ⟨[⟨Bytes, stringConv⟩, ⟨Fl, singleConv tiny⟩, ⟨Bool, boolConv pl⟩], Bytes, stringConv.name, some stringConv.toString, fun _ =>
      .get fun w => .ret (lit "Object::func2 from " ++ w.object2)⟩
  | .create => ⟨[⟨Bytes, stringConv⟩], Unit, lit "void", none, fun a => .logline (explosionText a.1 ++ lit "default radius") (.ret ())⟩
  | .createRadius => ⟨[⟨Bytes, stringConv⟩, ⟨Fl, singleConv tiny⟩], Unit, lit "void", none, fun a =>
      .logline (explosionText a.1 ++ lit "radius " ++ Fl.printF a.2.1) (.ret ())⟩

/-- The commands in the order of their registration (OverloadingExample.cpp 75-80). -/
def overTable : List (Bytes × List (OverCode × Unit)) :=
  [(lit "func", [(.func1, ()), (.func2, ()), (.func3, ())]),
   (lit "mixed_func", [(.lambda, ()), (.func2, ()), (.object1, ()), (.object2, ())]),
   (lit "explosions.create", [(.create, ()), (.createRadius, ())])]

/-- The beginning (OverloadingExample.cpp 72-73). -/
def OverWorld.start : OverWorld := ⟨lit "object_one", lit "object_two"⟩

end Coil
