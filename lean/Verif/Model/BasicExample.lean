import Verif.Model.Arith
import Verif.Model.FloatCommands

/-!
# The program of examples/basic/BasicExample.cpp

Simplification: `std::to_string` of an `int` gives its decimal digits (C++17 [string.conversions]); strings may have any length.
-/

namespace Coil

/-- The functions that say what they are (BasicExample.cpp 56-59, 80-86, 102, 104). -/
inductive Speaker where
  | plain | lambda | functor | stdFunction
  deriving DecidableEq

/-- The first part of what they say (BasicExample.cpp 58, 84, 102, 104). -/
def Speaker.intro : Speaker → Bytes
  | .plain => lit "I am a function: "
  | .lambda => lit "I am a lambda: "
  | .functor => lit "I am a custom functor: "
  | .stdFunction => lit "I am a std::function: "

/-- The functions of the program. -/
inductive BasicCode where
  | hello | helloContext | repeated | quoted | invert | add | concat | speak (who : Speaker) | scale1 | scale2
  deriving DecidableEq

/-- What the program has: what it wrote to `std::cout`, and the members `m_multiplier` of the two objects (BasicExample.cpp 14, 77, 107-108). -/
structure BasicWorld where
  console : Bytes
  scaler1 : Int
  scaler2 : Int

/-- The loop of `printRepeated` (BasicExample.cpp 32-33). -/
def repeatLog (val : Bytes) : Nat → Prog BasicWorld BasicCode Unit Unit
  | 0 => .ret ()
  | n + 1 => .log val (repeatLog val n)

/-- The functions (BasicExample.cpp 12-86, 102-104); `sz` is the type `std::size_t`. -/
def basicFunctions (pl : Platform) (sz : IntType) (tiny : Nat → Nat → Bool) (nan : Fl → Fl → Bool) : BasicCode → FunctorDef BasicWorld BasicCode Unit
  | .hello => ⟨[], Unit, lit "void", none, fun _ => .get fun w => .set { w with console := w.console ++ lit "Hello, world!\n" } (.ret ())⟩
  | .helloContext => ⟨[], Unit, lit "void", none, fun _ =>
      .log (lit "log: no automatic") (.log (lit " line break\n") (.logline (lit "logline: line break is added automatically")
        (.log (lit "logf: no automatic") (.log (lit " line break, but formatted\n") (.logline (lit "loglinef: automatic line break and formatted")
          (.ret ()))))))⟩
  | .repeated => ⟨[⟨Bytes, stringConv⟩, ⟨Int, intConv pl sz⟩], Unit, lit "void", none, fun a => repeatLog a.1 a.2.1.toNat⟩
  | .quoted => ⟨[⟨Bytes, stringConv⟩], Unit, lit "void", none, fun a => .logline (lit "'" ++ cstr a.1 ++ lit "'") (.ret ())⟩
  | .invert => ⟨[⟨Bool, boolConv pl⟩], Bool, (boolConv pl).name, some (boolConv pl).toString, fun a => .ret (!a.1)⟩
  | .add => addDef tiny nan
  | .concat => ⟨[⟨Bytes, stringConv⟩, ⟨Bytes, stringConv⟩], Bytes, stringConv.name, some stringConv.toString, fun a => .ret (a.1 ++ a.2.1)⟩
  | .speak who => ⟨[⟨Int, intConv pl .int⟩], Bytes, stringConv.name, some stringConv.toString, fun a => .ret (who.intro ++ intDec a.1)⟩
  | .scale1 => scaleDef pl fun w => w.scaler1
  | .scale2 => scaleDef pl fun w => w.scaler2

/-- The commands in the order of their registration (BasicExample.cpp 93-110). -/
def basicTable : List (Bytes × List (BasicCode × Unit)) :=
  [(lit "hello", [(.hello, ())]), (lit "hello_with_context", [(.helloContext, ())]), (lit "print_repeated", [(.repeated, ())]),
   (lit "print_quoted", [(.quoted, ())]), (lit "invert", [(.invert, ())]), (lit "add", [(.add, ())]), (lit "concat", [(.concat, ())]),
   (lit "plain_function", [(.speak .plain, ())]), (lit "lambda", [(.speak .lambda, ())]), (lit "custom_functor", [(.speak .functor, ())]),
   (lit "std_function", [(.speak .stdFunction, ())]), (lit "scaler1.scale", [(.scale1, ())]), (lit "scaler2.scale", [(.scale2, ())])]

/-- The beginning (BasicExample.cpp 107-108). -/
def BasicWorld.start : BasicWorld := ⟨[], 2, 10⟩

end Coil
