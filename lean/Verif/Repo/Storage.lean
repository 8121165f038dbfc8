import Verif.Model.String

/-!
# The tests of vectors and strings, replayed on the model

The expectations of tests/runtime/VectorTests.cpp and StringTests.cpp. They are tests of the model, not proofs about it. Statistics are
compared as far as the model counts: constructions and destructions inside blocks.
-/

namespace Coil
namespace RepoTests

/-! ## VectorTests.cpp -/

section Vectors
open Vec

/-- A test program: `int` has four bytes; moving leaves an `int` as it is; a new `int` is zero. -/
def vecRun (ops : List (Vec.Op Nat)) : Res (Vec.State Nat) := Vec.run 4 id 0 ⟨Mem.empty, []⟩ ops

/-- The first `n` elements of a vector, read one by one. -/
def elems (m : Mem Nat) (b : Buf) : Nat → Res (List Nat)
  | 0 => .ok []
  | n + 1 => do
    let l ← elems m b n
    let x ← m.readElem b n
    .ok (l ++ [x])

/-- The capacity and the elements of a variable after a program. -/
def vecSee (v : Nat) (ops : List (Vec.Op Nat)) : Res (Nat × List Nat) := do
  let s ← vecRun ops
  let b ← getVar s.vars v
  let l ← elems s.mem b b.size
  .ok (b.cap, l)

/-- The elements only. -/
def vecElems (v : Nat) (ops : List (Vec.Op Nat)) : Res (List Nat) := do
  let (_, l) ← vecSee v ops
  .ok l

/-- The constructions and destructions of the last statement. -/
def vecStats (ops : List (Vec.Op Nat)) (last : Vec.Op Nat) : Res (Nat × Nat) := do
  let s ← vecRun ops
  let s' ← Vec.step 4 id 0 s last
  .ok (s'.mem.ctors - s.mem.ctors, s'.mem.dtors - s.mem.dtors)

/-- `for (i = 0; i < n; i++) v.pushBack(i)`. -/
def pushes (v n : Nat) : List (Vec.Op Nat) := (List.range n).map (Vec.Op.pushBack v)

/-! `TestPushBack` (94), `TestPopBack` (120) -/

example : vecElems 0 [.create 0] = .ok [] := by decide +kernel
example : vecElems 0 (.create 0 :: pushes 0 1) = .ok [0] := by decide +kernel
example : vecElems 0 (.create 0 :: pushes 0 2) = .ok [0, 1] := by decide +kernel
example : vecElems 0 (.create 0 :: pushes 0 3) = .ok [0, 1, 2] := by decide +kernel
example : vecElems 0 (.create 0 :: pushes 0 3 ++ [.popBack 0]) = .ok [0, 1] := by decide +kernel
example : vecElems 0 (.create 0 :: pushes 0 3 ++ [.popBack 0, .popBack 0]) = .ok [0] := by decide +kernel
example : vecElems 0 (.create 0 :: pushes 0 3 ++ [.popBack 0, .popBack 0, .popBack 0]) = .ok [] := by decide +kernel

/-! `TestReserve` (147), `TestResizeFromEmpty` (162), `TestResizeGrow` (177), `TestResizeNoGrow` (196), `TestResizeShrink` (215),
`TestDefaultConstructor` (234) -/

example : vecSee 0 [.create 0, .reserve 0 10] = .ok (10, []) := by decide +kernel
example : vecSee 0 [.create 0, .resize 0 10] = .ok (10, List.replicate 10 0) := by decide +kernel
example : vecSee 0 ([.create 0, .reserve 0 10] ++ pushes 0 10) = .ok (10, List.range 10) := by decide +kernel
example : vecSee 0 ([.create 0, .reserve 0 10] ++ pushes 0 10 ++ [.resize 0 20]) =
    .ok (20, List.range 10 ++ List.replicate 10 0) := by decide +kernel
example : vecSee 0 ([.create 0, .reserve 0 20] ++ pushes 0 10 ++ [.resize 0 20]) =
    .ok (20, List.range 10 ++ List.replicate 10 0) := by decide +kernel
example : vecSee 0 ([.create 0, .reserve 0 10] ++ pushes 0 10 ++ [.resize 0 5]) = .ok (10, List.range 5) := by decide +kernel
example : vecSee 0 [.create 0] = .ok (0, []) := by decide +kernel

/-! `TestSpanConstructor` (242), `TestCopyConstructor` (255), `TestMoveConstructor` (285), `TestCopyAssignment` (312),
`TestMoveAssignment` (345) -/

example : vecElems 0 [.ofRange [0, 1, 2, 3, 4]] = .ok [0, 1, 2, 3, 4] := by decide +kernel
example : vecElems 0 (.create 0 :: pushes 0 5 ++ [.copyNew 0]) = .ok [0, 1, 2, 3, 4] ∧
    vecElems 1 (.create 0 :: pushes 0 5 ++ [.copyNew 0]) = .ok [0, 1, 2, 3, 4] := by constructor <;> decide +kernel
example : vecElems 0 (.create 0 :: pushes 0 5 ++ [.moveNew 0]) = .ok [] ∧
    vecElems 1 (.create 0 :: pushes 0 5 ++ [.moveNew 0]) = .ok [0, 1, 2, 3, 4] := by constructor <;> decide +kernel
example : vecElems 0 (.create 0 :: pushes 0 5 ++ [.create 0, .copyAssign 1 0]) = .ok [0, 1, 2, 3, 4] ∧
    vecElems 1 (.create 0 :: pushes 0 5 ++ [.create 0, .copyAssign 1 0]) = .ok [0, 1, 2, 3, 4] := by
  constructor <;> decide +kernel
example : vecElems 0 (.create 0 :: pushes 0 5 ++ [.create 0, .moveAssign 1 0]) = .ok [] ∧
    vecElems 1 (.create 0 :: pushes 0 5 ++ [.create 0, .moveAssign 1 0]) = .ok [0, 1, 2, 3, 4] := by
  constructor <;> decide +kernel

/-! `TestData` (372), `TestRange` (401), `TestFrontBack` (431) -/

example : vecElems 0 (.create 0 :: pushes 0 5 ++ [.write 0 2 42]) = .ok [0, 1, 42, 3, 4] := by decide +kernel
example : vecElems 0 (.create 0 :: pushes 0 5 ++ (List.range 5).map (fun i => .write 0 i (2 * i))) = .ok [0, 2, 4, 6, 8] := by
  decide +kernel
example : vecElems 0 (.create 0 :: pushes 0 5 ++ [.write 0 0 100, .write 0 4 104]) = .ok [100, 1, 2, 3, 104] := by decide +kernel

/-! `TestEqualityComparison` (452) -/

/-- `v1 == v2` for two vectors filled one by one. -/
def vecEqual (a b : List Nat) : Res Bool := do
  let s ← vecRun ([.create 0, .create 0] ++ a.map (Vec.Op.pushBack 0) ++ b.map (Vec.Op.pushBack 1))
  let x ← getVar s.vars 0
  let y ← getVar s.vars 1
  Vec.equal (fun x y => x == y) s.mem x y

example : vecEqual (List.range 5) (List.range 5) = .ok true := by decide +kernel
example : vecEqual (List.range 5) ((List.range 5).map (· + 100)) = .ok false := by decide +kernel
example : vecEqual (List.range 5) (List.range 10) = .ok false := by decide +kernel

/-! `TestPopBackStats` (495) to `TestDestructorStats` (610): constructions (with moves) and destructions -/

example : vecStats [.create 0, .pushBack 0 42] (.popBack 0) = .ok (0, 1) := by decide +kernel
example : vecStats [.create 0] (.reserve 0 10) = .ok (0, 0) := by decide +kernel
example : vecStats [.create 0] (.resize 0 10) = .ok (10, 0) := by decide +kernel
example : vecStats ([.create 0, .reserve 0 10] ++ pushes 0 10) (.resize 0 20) = .ok (10 + 10, 10) := by decide +kernel
example : vecStats ([.create 0, .reserve 0 20] ++ pushes 0 10) (.resize 0 20) = .ok (10, 0) := by decide +kernel
example : vecStats ([.create 0, .reserve 0 10] ++ pushes 0 10) (.resize 0 5) = .ok (0, 5) := by decide +kernel
example : vecStats ([.create 0, .reserve 0 10] ++ pushes 0 10) (.clear 0) = .ok (0, 10) := by decide +kernel
example : vecStats (.create 0 :: pushes 0 10) (.destroy 0) = .ok (0, 10) := by decide +kernel

end Vectors

/-! ## StringTests.cpp -/

section Strings
open Str

/-- The length of a string variable after a program and the bytes behind `cStr()`, with the terminator. -/
def strSee (v : Nat) (ops : List Str.Op) : Res (Nat × Bytes) := do
  let s ← Str.run ⟨Mem.empty, []⟩ ops
  let b ← Vec.getVar s.vars v
  let raw ← Str.readSrc s.mem (Str.view b 0 (Str.length b + 1))
  let t ← Str.written raw
  .ok (Str.length b, t)

/-- A text with its length and terminator. -/
def terminated (t : String) : Res (Nat × Bytes) := .ok ((lit t).length, lit t ++ [0])

/-! `TestDefaultConstructed` (23): `String()` is `String("")`. `TestConstructedFromCString` (33),
`TestConstructedFromCStringAndLength` (43), `TestConstructedFromStringView` (53) -/

example : strSee 0 [.ofBytes []] = terminated "" := by decide +kernel
example : strSee 0 [.ofBytes (lit "Null-terminated C string")] = .ok (24, lit "Null-terminated C string" ++ [0]) := by decide +kernel
example : strSee 0 [.ofBytes ((lit "Some string").take 4)] = terminated "Some" := by decide +kernel
example : strSee 1 [.ofBytes (lit "A string literal"), .ofPart 0 2 6] = terminated "string" := by decide +kernel

/-! `TestBack` (69), `TestData` (87) -/

example : strSee 0 [.ofBytes (lit "Test"), .write 0 3 115] = terminated "Tess" := by decide +kernel
example : strSee 0 [.ofBytes (lit "Test"), .write 0 0 99, .write 0 1 111, .write 0 2 105, .write 0 3 108] = terminated "coil" := by
  decide +kernel

/-! `TestAppend` (109), `TestAppendOperators` (119) -/

example : strSee 0 [.ofBytes (lit "One"), .append 0 (lit "Two")] = terminated "OneTwo" := by decide +kernel
example : strSee 0 [.ofBytes [], .append 0 (lit "c")] = .ok (1, lit "c" ++ [0]) := by decide +kernel
example : strSee 0 [.ofBytes [], .append 0 (lit "c"), .append 0 (lit " c-string")] = .ok (10, lit "c c-string" ++ [0]) := by
  decide +kernel
example : strSee 0 [.ofBytes [], .append 0 (lit "c"), .append 0 (lit " c-string"), .ofBytes (lit " string"), .appendPart 0 1 0 7,
    .append 0 (lit " string-view")] = .ok (29, lit "c c-string string string-view" ++ [0]) := by decide +kernel

/-! `TestEquality` (146), `TestConcatenation` (155): `a + b` copies `a` and appends -/

example : (do
    let s ← Str.run ⟨Mem.empty, []⟩ [.ofBytes (lit "Test"), .ofBytes (lit "Test")]
    let a ← Vec.getVar s.vars 0
    let b ← Vec.getVar s.vars 1
    Str.equal s.mem a b) = .ok true := by decide +kernel
example : strSee 1 [.ofBytes (lit "String"), .copyNew 0, .append 1 (lit "c")] = .ok (7, lit "Stringc" ++ [0]) := by decide +kernel
example : strSee 1 [.ofBytes (lit "String"), .copyNew 0, .append 1 (lit " c-string")] = .ok (15, lit "String c-string" ++ [0]) := by
  decide +kernel
example : strSee 2 [.ofBytes (lit "String"), .ofBytes (lit " string"), .copyNew 0, .appendPart 2 1 0 7] =
    .ok (13, lit "String string" ++ [0]) := by decide +kernel

end Strings

end RepoTests
end Coil
