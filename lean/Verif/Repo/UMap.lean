import Verif.Props.UMap

/-!
# The tests of the map, replayed on the model

The expectations of tests/runtime/UnorderedMapTests.cpp, on the map as it is in the code. They are tests of the model, not proofs
about it.
-/

namespace Coil
namespace RepoTests
open UMap

/-- One step of `Hash<int>` (UnorderedMapTests.cpp 13-14), in 64-bit arithmetic. -/
def mix (x : Nat) : Nat := ((x >>> 16 ^^^ x) * 0x45d9f3b) % 2 ^ 64

/-- `Hash<int>` (UnorderedMapTests.cpp 7-19) for a value that is not negative. -/
def hashInt (n : Nat) : Nat :=
  let r := mix (mix n)
  r >>> 16 ^^^ r

/-- `insertOrAssign` (the keys and values are not negative). -/
abbrev insert (m : UMap Nat Nat) (k v : Nat) : Res (UMap Nat Nat) := insertOrAssign hashInt overOne m k v

/-- `erase`. -/
abbrev erase (m : UMap Nat Nat) (k : Nat) : Res (UMap Nat Nat) := eraseWith hashInt false m k

/-- The keys are found with the values the tests give them, and every pair of the iteration is such a pair. -/
def good (m : UMap Nat Nat) (keys : List Nat) : Bool :=
  keys.all (fun j => decide (find hashInt m j = .ok (some (2 * j + 1)))) && m.entries.all (fun p => p.2 == 2 * p.1 + 1)

/-- `insertOrAssign(i, 2 * i + 1)` for `i` from `n - fuel` on; after each one the check `check`. -/
def fill (check : UMap Nat Nat → Nat → Bool) : Nat → Nat → UMap Nat Nat → Res (UMap Nat Nat × Bool)
  | 0, _, m => .ok (m, true)
  | fuel + 1, i, m => do
    let m ← insert m i (2 * i + 1)
    let (m', ok) ← fill check fuel (i + 1) m
    .ok (m', check m i && ok)

/-- A map with the keys `0`, ..., `n - 1`. -/
def filled (n : Nat) : Res (UMap Nat Nat) := do
  let m ← create hashInt 1
  let (m, _) ← fill (fun _ _ => true) n 0 m
  .ok m

/-- The loop of `TestErase` (UnorderedMapTests.cpp 146-168) from `i` on. -/
def eraseAll (n : Nat) : Nat → Nat → UMap Nat Nat → Res Bool
  | 0, _, _ => .ok true
  | fuel + 1, i, m => do
    let m' ← erase m i
    let ok := decide (m.size = n - i) && decide (m'.size = n - i - 1) && decide (find hashInt m' i = .ok none) &&
      good m' ((List.range (n - i - 1)).map (· + i + 1))
    let rest ← eraseAll n fuel (i + 1) m'
    .ok (ok && rest)

/-- Runs a test on the result of a computation. -/
def check {α : Type} (x : Res α) (p : α → Bool) : Bool :=
  match x with
  | .ok a => p a
  | _ => false

/-! `TestEmpty` (21) -/

example : check (create (V := Nat) hashInt 1) (fun m => m.size == 0) = true := by decide +kernel

/-! `TestInsert` (28) -/

example : check (do
    let m ← create hashInt 1
    let (_, ok) ← fill (fun m i => m.size == i + 1 && good m (List.range m.size)) 100 0 m
    .ok ok) id = true := by decide +kernel

/-! `TestAssign` (51) -/

example : check (do
    let m ← create hashInt 1
    let m ← insert m 314 42
    insert m 314 0) (fun m => m.size == 1 && decide (find hashInt m 314 = .ok (some 0))) = true := by decide +kernel

/-! `TestAccessors` (68) -/

example : check (do
    let m ← create hashInt 1
    let m ← insert m 1 42
    insert m 2 314) (fun m => m.size == 2 && decide (find hashInt m 1 = .ok (some 42)) &&
      decide (find hashInt m 2 = .ok (some 314)) && decide (find hashInt m 3 = .ok none) &&
      m.entries == [(1, 42), (2, 314)]) = true := by decide +kernel

/-! `TestErase` (139) -/

example : check (do
    let m ← filled 100
    eraseAll 100 100 0 m) id = true := by decide +kernel

/-! `TestEraseFromSameBucket` (171) -/

example : check (do
    let m ← filled 3
    let m1 ← erase m 2
    let m2 ← erase m1 0
    .ok (m.size, m1.size, m2.size)) (fun s => s == (3, 2, 1)) = true := by decide +kernel

/-! `TestEraseNonExistent` (185) -/

example : check (do
    let m ← filled 100
    let m1 ← erase m 100
    .ok (m, m1)) (fun p => p.1.size == 100 && p.2.size == 100 && good p.1 [] && good p.2 []) = true := by decide +kernel

/-! `TestClear` (205) -/

example : check (do
    let m ← filled 100
    .ok (m.size, (clear m).size)) (fun s => s == (100, 0)) = true := by decide +kernel

end RepoTests
end Coil
