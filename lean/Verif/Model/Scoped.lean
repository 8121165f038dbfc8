import Verif.Model.Observe

/-!
# Commands that are removed automatically

`utils::ScopedDebugCommands` of examples/encapsulation/EncapsulationExample.cpp: an object that registers commands in a global
`coil::Bindings` and removes them in its destructor.

Simplifications. A vector that is moved from is empty, also after moving it to itself (the standard leaves it unspecified). Names are
copied without failing.
-/

namespace Coil
namespace Scoped

variable {S W C D : Type}

/-- The state of a program: `g_globalBindings` (EncapsulationExample.cpp 19), null or an object, and the `ScopedDebugCommands` objects made
so far with their `m_names` (62); `none` is an object that has been destroyed. -/
structure Globe (S W C D : Type) where
  global : Option (Sys S W C D)
  scopes : List (Option (List Bytes))

variable (ops : RegOps S C D)

/-- A call through `g_globalBindings->` (48, 59). -/
def onGlobal (g : Globe S W C D) (f : Sys S W C D → Res (Sys S W C D)) : Res (Globe S W C D) :=
  match g.global with
  | none => .ub .nullDeref
  | some s => do
    let s' ← f s
    .ok { g with global := some s' }

/-- The loop of `clear` (58-59). -/
def removeAll : List Bytes → Globe S W C D → Res (Globe S W C D)
  | [], g => .ok g
  | n :: ns, g => do
    let g ← onGlobal g (fun s => bindingsRemove ops s n)
    removeAll ns g

/-- `m_names` of an object; it must be alive. -/
def namesOf (g : Globe S W C D) (i : Nat) : Res (List Bytes) :=
  match g.scopes[i]? with
  | some (some ns) => .ok ns
  | _ => .ub .deadObject

/-- `ScopedDebugCommands::clear` (56-61). -/
def scopeClear (g : Globe S W C D) (i : Nat) : Res (Globe S W C D) := do
  let ns ← namesOf g i
  let g ← removeAll ops ns g
  .ok { g with scopes := g.scopes.set i (some []) }

/-- `ScopedDebugCommands::add` (45-50). -/
def scopeAdd (g : Globe S W C D) (i : Nat) (name : Bytes) (fs : List (C × D)) : Res (Globe S W C D) := do
  let ns ← namesOf g i
  let g ← onGlobal g (fun s => bindingsAdd ops s name fs)
  .ok { g with scopes := g.scopes.set i (some (ns ++ [name])) }

/-- The move constructor (28-32): `clear` of the new object does nothing. -/
def scopeMove (g : Globe S W C D) (i : Nat) : Res (Globe S W C D) := do
  let ns ← namesOf g i
  .ok { g with scopes := g.scopes.set i (some []) ++ [some ns] }

/-- The move assignment `i = std::move(j)` (39-44). -/
def scopeAssign (g : Globe S W C D) (i j : Nat) : Res (Globe S W C D) := do
  let g ← scopeClear ops g i
  let ns ← namesOf g j
  .ok { g with scopes := (g.scopes.set i (some ns)).set j (if i = j then some ns else some []) }

/-- The destructor (34-37). -/
def scopeClose (g : Globe S W C D) (i : Nat) : Res (Globe S W C D) := do
  let g ← scopeClear ops g i
  .ok { g with scopes := g.scopes.set i none }

/-- What a program does with the global registry and such objects. -/
inductive Act (C D : Type) where
  /-- `g_globalBindings = std::make_unique<coil::Bindings>()` (130) -/
  | make
  /-- `g_globalBindings = nullptr` (155) -/
  | drop
  | add (name : Bytes) (fs : List (C × D))
  | remove (name : Bytes)
  | clear
  /-- the default constructor (27) -/
  | new
  | addIn (i : Nat) (name : Bytes) (fs : List (C × D))
  /-- the move constructor -/
  | move (i : Nat)
  /-- the move assignment -/
  | assign (i j : Nat)
  /-- the destructor -/
  | close (i : Nat)
  deriving DecidableEq

/-- One of these; `made` is the construction of an empty registry, for a program in the state `w`. -/
def step (made : Res S) (w : W) (g : Globe S W C D) : Act C D → Res (Globe S W C D)
  | .make => do
    let m ← made
    .ok { g with global := some (freshSys m none w) }
  | .drop => .ok { g with global := none }
  | .add n fs => onGlobal g (fun s => bindingsAdd ops s n fs)
  | .remove n => onGlobal g (fun s => bindingsRemove ops s n)
  | .clear => onGlobal g (fun s => .ok (bindingsClear ops s))
  | .new => .ok { g with scopes := g.scopes ++ [some []] }
  | .addIn i n fs => scopeAdd ops g i n fs
  | .move i => scopeMove g i
  | .assign i j => scopeAssign ops g i j
  | .close i => scopeClose ops g i

/-- Many of these. -/
def run (made : Res S) (w : W) : List (Act C D) → Globe S W C D → Res (Globe S W C D)
  | [], g => .ok g
  | a :: as, g => do
    let g ← step ops made w g a
    run made w as g

/-- `g_globalBindings` is null at first. -/
def start : Globe S W C D := ⟨none, []⟩

end Scoped
end Coil
