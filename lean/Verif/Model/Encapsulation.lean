import Verif.Model.FloatCommands
import Verif.Model.Registry

/-!
# A subsystem that registers its own commands

The program of examples/encapsulation/EncapsulationExample.cpp: the commands `create_subsystem` and `destroy_subsystem`, and the commands that an
object of `Subsystem` registers in its constructor and removes in its destructor. Objects have addresses and lifetimes; access to an object
that has been destroyed is undefined.

Simplifications: an address is never used again for a later object; `g_globalBindings` is the registry the commands are executed in and not null (the end
of `run`, where it is null, is `leaveRun`); memory does not run out.
-/

namespace Coil

/-- `Subsystem` (EncapsulationExample.cpp 101-132). `names` is `m_commands.m_names` (63). -/
structure Subsystem where
  time : Fl
  counter : Int
  data : Bytes
  names : List Bytes
  deriving DecidableEq

/-- The member initialisers (EncapsulationExample.cpp 125-127, 63). -/
def Subsystem.made : Subsystem := ⟨.fin false 13170115 (-22), 7, lit "Something", []⟩

/-- The objects of type `Subsystem`, in the order of their construction (`none`: destroyed), and the variable `subsystem`
(EncapsulationExample.cpp 141). -/
structure SubWorld where
  objects : List (Option Subsystem)
  current : Option Nat
  deriving DecidableEq

/-- The object at an address. -/
def SubWorld.at (w : SubWorld) (i : Nat) : Option Subsystem := w.objects[i]?.join

/-- The world with a new value of an object. -/
def SubWorld.put (w : SubWorld) (i : Nat) (o : Option Subsystem) : SubWorld := { w with objects := w.objects.set i o }

/-- The functions that are registered: the two of `run` (EncapsulationExample.cpp 142-143), two for each variable and the one of `coil::bind` (107-110). -/
inductive SubCode where
  | create | destroy | time | setTime | counter | setCounter | data | setData | work
  deriving DecidableEq

/-- The bodies: they use the world and capture an address. -/
abbrev SubProg (R : Type) : Type := Prog SubWorld SubCode Nat R

/-- Access to the object at an address. -/
def onSubsystem {R : Type} (i : Nat) (k : Subsystem → SubProg R) : SubProg R :=
  .get fun w =>
    match w.at i with
    | some o => k o
    | none => .ub .useAfterFree

/-- `ScopedDebugCommands::add` (EncapsulationExample.cpp 46-51) of the member `m_commands` of the object `i`. -/
def addCommand {R : Type} (i : Nat) (name : Bytes) (fs : List (SubCode × Nat)) (k : SubProg R) : SubProg R :=
  .add name fs (onSubsystem i fun o => .get fun w => .set (w.put i (some { o with names := o.names ++ [name] })) k)

/-- The constructor (EncapsulationExample.cpp 104-112) of a new object, and its address. -/
def newSubsystem {R : Type} (k : Nat → SubProg R) : SubProg R :=
  .get fun w => .set { w with objects := w.objects ++ [some Subsystem.made] } <|
    addCommand w.objects.length (lit "subsystem.time") [(.time, w.objects.length), (.setTime, w.objects.length)] <|
    addCommand w.objects.length (lit "subsystem.counter") [(.counter, w.objects.length), (.setCounter, w.objects.length)] <|
    addCommand w.objects.length (lit "subsystem.data") [(.data, w.objects.length), (.setData, w.objects.length)] <|
    addCommand w.objects.length (lit "subsystem.do_some_work") [(.work, w.objects.length)] <|
    k w.objects.length

/-- The loop of `ScopedDebugCommands::clear` (EncapsulationExample.cpp 58-59). -/
def removeCommands {R : Type} : List Bytes → SubProg R → SubProg R
  | [], k => k
  | n :: ns, k => .remove n (removeCommands ns k)

/-- `delete` of an object: the destructor of `m_commands` (EncapsulationExample.cpp 34-37, 56-61) removes its commands, then the object is gone. -/
def deleteSubsystem {R : Type} (i : Nat) (k : SubProg R) : SubProg R :=
  onSubsystem i fun o => removeCommands o.names (.get fun w => .set (w.put i none) k)

/-- `std::unique_ptr::reset` (C++17 [unique.ptr.single.modifiers]): the new pointer is stored first, then the old object is deleted. -/
def resetSubsystem (p : Option Nat) : SubProg Unit :=
  .get fun w => .set { w with current := p } <|
    match w.current with
    | none => .ret ()
    | some i => deleteSubsystem i (.ret ())

/-- The function object of `create_subsystem` (EncapsulationExample.cpp 142): the right operand is evaluated first, then the captured
reference is used. -/
def createDef : FunctorDef SubWorld SubCode Nat where
  params := []
  R := Unit
  retName := lit "void"
  print := none
  body _ := newSubsystem fun i => .captured fun _ => resetSubsystem (some i)

/-- The function object of `destroy_subsystem` (EncapsulationExample.cpp 143). -/
def destroyDef : FunctorDef SubWorld SubCode Nat where
  params := []
  R := Unit
  retName := lit "void"
  print := none
  body _ := .captured fun _ => resetSubsystem none

/-- The functor `get` of `variable(T*)` (Variable.h 12) for a member of the object whose address is captured. -/
def memberGetDef {T : Type} (conv : Conv T) (read : Subsystem → T) : FunctorDef SubWorld SubCode Nat where
  params := []
  R := T
  retName := conv.name
  print := some conv.toString
  body _ := .captured fun i => onSubsystem i fun o => .ret (read o)

/-- The functor `set` of `variable(T*)` (Variable.h 13-16) for a member of the object whose address is captured. -/
def memberSetDef {T : Type} (conv : Conv T) (read : Subsystem → T) (write : T → Subsystem → Subsystem) : FunctorDef SubWorld SubCode Nat where
  params := [⟨T, conv⟩]
  R := T
  retName := conv.name
  print := some conv.toString
  body a := .captured fun i => onSubsystem i fun o => .get fun w => .set (w.put i (some (write a.1 o))) <| onSubsystem i fun o' => .ret (read o')

/-- The function object of `subsystem.do_some_work` (EncapsulationExample.cpp 110, 120-123). -/
def workDef (pl : Platform) : FunctorDef SubWorld SubCode Nat where
  params := [⟨Bytes, stringConv⟩, ⟨Int, intConv pl .int⟩]
  R := Bytes
  retName := stringConv.name
  print := some stringConv.toString
  body a := .captured fun i => onSubsystem i fun o => .ret (o.data ++ lit ": " ++ a.1 ++ intDec a.2.1)

/-- The functions (EncapsulationExample.cpp 107-110, 142-143). -/
def subFunctions (pl : Platform) (tiny : Nat → Nat → Bool) : SubCode → FunctorDef SubWorld SubCode Nat
  | .create => createDef
  | .destroy => destroyDef
  | .time => memberGetDef (singleConv tiny) (·.time)
  | .setTime => memberSetDef (singleConv tiny) (·.time) fun x o => { o with time := x }
  | .counter => memberGetDef (intConv pl .int) (·.counter)
  | .setCounter => memberSetDef (intConv pl .int) (·.counter) fun x o => { o with counter := x }
  | .data => memberGetDef stringConv (·.data)
  | .setData => memberSetDef stringConv (·.data) fun x o => { o with data := x }
  | .work => workDef pl

/-- The beginning of `run` (EncapsulationExample.cpp 137-143). -/
def subSetup : List (Action SubWorld SubCode Nat) :=
  [.add (lit "create_subsystem") [(.create, 0)], .add (lit "destroy_subsystem") [(.destroy, 0)]]

/-- The world before (EncapsulationExample.cpp 141). -/
def SubWorld.start : SubWorld := ⟨[], none⟩

/-- The end of `run` (EncapsulationExample.cpp 160-161): the registry is destroyed and the pointer to it is null; then the variable `subsystem` is
destroyed, and the destructor of `m_commands` uses that pointer for each of its names (34-37, 56-61). -/
def leaveRun (w : SubWorld) : Res SubWorld :=
  match w.current with
  | none => .ok w
  | some i =>
    match w.at i with
    | none => .ub .useAfterFree
    | some o =>
      match o.names with
      | [] => .ok (w.put i none)
      | _ :: _ => .ub .nullDeref

end Coil
