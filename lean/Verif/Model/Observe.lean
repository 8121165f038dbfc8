import Verif.Model.Registry
import Verif.Model.HeapMap

/-!
# What a program sees of its registry

`Model/Registry.lean` lets a program act on one registry. Here the results of `execute` are collected as well.
-/

namespace Coil

variable {S W C D : Type}

/-- One action and the results of `execute` it produced (none or one). -/
def actOut (P : C → FunctorDef W C D) (ops : RegOps S C D) (catching : Bool) (fuel : Nat) (s : Sys S W C D) :
    Action W C D → Res (Sys S W C D × List ExecOut)
  | .add name fs => do
    let s' ← bindingsAdd ops s name fs
    .ok (s', [])
  | .remove name => do
    let s' ← bindingsRemove ops s name
    .ok (s', [])
  | .clear => .ok (bindingsClear ops s, [])
  | .setLexer l => .ok (setLexer s l, [])
  | .exec req => do
    let (s', o) ← execute P ops catching fuel s req
    .ok (s', [o])
  | .setUser w => .ok ({ s with user := w }, [])

/-- Several actions and all results of `execute`, in order. -/
def actsOut (P : C → FunctorDef W C D) (ops : RegOps S C D) (catching : Bool) (fuel : Nat) :
    Sys S W C D → List (Action W C D) → Res (Sys S W C D × List ExecOut)
  | s, [] => .ok (s, [])
  | s, a :: rest => do
    let (s1, o1) ← actOut P ops catching fuel s a
    let (s2, o2) ← actsOut P ops catching fuel s1 rest
    .ok (s2, o1 ++ o2)

/-- A program that has just made a registry with the container `m`. -/
def freshSys (m : S) (lexer : Option Lexer) (w : W) : Sys S W C D := ⟨m, lexer, w, [], 0, [], []⟩

/-- Running a program from the construction of the registry (Coil.cpp 190) on; `made` is the construction of the container. -/
def observed (P : C → FunctorDef W C D) (ops : RegOps S C D) (made : Res S) (catching : Bool) (fuel : Nat)
    (lexer : Option Lexer) (w : W) (acts : List (Action W C D)) : Res (Sys S W C D × List ExecOut) := do
  let m ← made
  actsOut P ops catching fuel (freshSys m lexer w) acts

/-- `UnorderedMap<String, Command>` (Bindings.h 61) over vectors on the heap (`Model/HeapMap.lean`), as map number 0. Clearing a map
that is alive always succeeds; should it not, the map is left as it is here. -/
def heapOps (c : HMap.Cfg Bytes (Command C D)) : RegOps (HMap.HState Bytes (Command C D)) C D where
  find h k := HMap.find c h 0 k
  put h k v := HMap.insertOrAssign c h 0 k v
  erase h k := HMap.erase c h 0 k
  clear h :=
    match HMap.clear c h 0 with
    | .ok h' => h'
    | _ => h
  all h :=
    match HMap.iterate h 0 with
    | .ok l => l.map Prod.snd
    | _ => []

/-- The construction of that map (UnorderedMap.h 118-121). -/
def heapMade (c : HMap.Cfg Bytes (Command C D)) : Res (HMap.HState Bytes (Command C D)) := HMap.step c HMap.start (.create 1)

end Coil
