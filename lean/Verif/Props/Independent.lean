import Verif.Proofs.IndependentMaps
import Verif.Proofs.Isolation
import Verif.Props.Registry

/-!
# What programs see does not depend on the hash map (C87)

A program makes a registry, adds, removes and executes commands in any order; its commands may do the same while they run.
`Spec.bookOps` is a registry that is just a list of names and commands, `Spec.seen` is what the outside sees of a run.
-/

namespace Coil
open Spec

namespace Demo

/-- A run of the example commands on the hash map, with or without the repair. -/
def onMap (charSigned fixed : Bool) (acts : List (Action Int Nat Nat)) : Res (Sys Reg Int Nat Nat × List ExecOut) :=
  observed P (mapOps fixed charSigned overOne) (UMap.create (djb2 charSigned) 1) true 5 (some (lexRead (LexCfg.default true))) 10 acts

/-- A map type: nodes of 96 bytes; moving leaves an empty name and no functions behind. -/
def heapCfg (fixed : Bool) : HMap.Cfg Bytes (Command Nat Nat) :=
  ⟨djb2 true, overOne, fixed, 96, 8, fun _ => [], fun _ => ⟨[], []⟩, ⟨[], ⟨[], []⟩, none, none, none⟩⟩

/-- The same run on a hash map on heaps. -/
def onHeap (fixed : Bool) (acts : List (Action Int Nat Nat)) : Res (Sys (HMap.HState Bytes (Command Nat Nat)) Int Nat Nat × List ExecOut) :=
  observed P (heapOps (heapCfg fixed)) (heapMade (heapCfg fixed)) true 5 (some (lexRead (LexCfg.default true))) 10 acts

/-- The same run on a list. -/
def onBook (acts : List (Action Int Nat Nat)) : Res (Sys (Book Nat Nat) Int Nat Nat × List ExecOut) :=
  observed P bookOps (.ok []) true 5 (some (lexRead (LexCfg.default true))) 10 acts

/-- The results of the calls of `execute`. -/
abbrev ended {S : Type} (x : Sys S Int Nat Nat × List ExecOut) : List (Option (List Bytes × Option Bytes)) :=
  x.2.map (fun o => o.toOption.map (fun r => (r.errors, r.returnValue)))

/-- The commands that lose `p` (C24, C32), and then a call of `p`. -/
def losing : List (Action Int Nat Nat) :=
  [.add (lit "a") [(0, 1)], .add (lit "d") [(0, 2)], .add (lit "h") [(0, 3)], .add (lit "l") [(0, 4)], .remove (lit "d"),
    .remove (lit "a"), .add (lit "p") [(0, 5)], .add (lit "a") [(0, 6)], .remove (lit "l"), .exec (.line (lit "p"))]

end Demo

variable {W C D : Type} {P : C → FunctorDef W C D} {catching : Bool} {fuel : Nat} {lexer : Option Lexer} {w : W}
  {acts : List (Action W C D)}

theorem fresh_alike {S1 S2 : Type} {I1 : List (RegEvent C D) → S1 → Prop} {I2 : List (RegEvent C D) → S2 → Prop} {a : S1} {b : S2}
    (h1 : I1 [] a) (h2 : I2 [] b) : Alike I1 I2 (freshSys (W := W) a lexer w) (freshSys b lexer w) :=
  ⟨h1, h2, rfl, rfl, fun _ => Iff.rfl, rfl, rfl, rfl⟩

theorem book_nil : BookAfter (C := C) (D := D) [] [] := by
  intro n c
  simp [standing, dictAfter]

theorem map_made {fixed charSigned : Bool} {exceeds : Nat → Nat → Bool} :
    ∃ m : UMap Bytes (Command C D), UMap.create (djb2 charSigned) 1 = .ok m ∧ MapOf fixed (djb2 charSigned) exceeds [] m := by
  obtain ⟨m, h1, _⟩ := UMap.create_spec (V := Command C D) (djb2 charSigned) (n := 1) (by omega)
  exact ⟨m, h1, by simp only [MapOf, mapAfter, h1, Res.bind_ok, List.map_nil, UMap.runOps]⟩

/-- **C87 (repaired map).** With the repaired `erase`, every program with every set of commands, whatever its commands do, ends in the
same way on the hash map as on a list of names and commands: the same results of `execute`, the same program state, the
same calls of the same function objects, the same changes of the registry; or the same undefined behaviour of a user
function; or both never end. -/
theorem C87_map_is_list {charSigned : Bool} {exceeds : Nat → Nat → Bool} (hex : ∀ b, 0 < b → exceeds 1 b = false) :
    (observed P (mapOps true charSigned exceeds) (UMap.create (djb2 charSigned) 1) catching fuel lexer w acts).map seen =
      (observed P bookOps (.ok []) catching fuel lexer w acts).map seen := by
  obtain ⟨m, h1, h2⟩ := map_made (C := C) (D := D) (fixed := true) (charSigned := charSigned) (exceeds := exceeds)
  have all : ∀ h : List (RegEvent C D), Handled true h := fun _ => .inl rfl
  have h := fol_acts handled_prefix (map_implements hex) (book_implements (Handled true)) (P := P) catching fuel acts
    (fresh_alike (lexer := lexer) (w := w) h2 book_nil) (all _)
  simp only [observed, h1, Res.bind_ok]
  cases hb : actsOut P bookOps catching fuel (freshSys [] lexer w) acts with
  | ok x =>
    rw [hb] at h
    obtain ⟨s1, g1, g2⟩ := h (all _)
    rw [g1]
    simp only [Res.map_ok, seen, g2.user, g2.calls, g2.history]
  | ub u => rw [hb] at h; rw [h all]; rfl
  | diverge => rw [hb] at h; rw [h all]; rfl

/-- **C87 (platforms).** So neither the signedness of `char`, which enters the hash function, nor the load factor can be seen. -/
theorem C87_hash_unseen {cs1 cs2 : Bool} {ex1 ex2 : Nat → Nat → Bool} (h1 : ∀ b, 0 < b → ex1 1 b = false)
    (h2 : ∀ b, 0 < b → ex2 1 b = false) :
    (observed P (mapOps true cs1 ex1) (UMap.create (djb2 cs1) 1) catching fuel lexer w acts).map seen =
      (observed P (mapOps true cs2 ex2) (UMap.create (djb2 cs2) 1) catching fuel lexer w acts).map seen := by
  rw [C87_map_is_list h1, C87_map_is_list h2]

/-- **C87 (code as it is).** A program that ends properly on a list, with a history of changes that `erase` as it is handles (C24), ends in
the same way on the hash map as it is. Missing for the full claim: programs with other removals (`C87_as_is_false`). -/
theorem C87_as_is_partial {charSigned : Bool} {exceeds : Nat → Nat → Bool} (hex : ∀ b, 0 < b → exceeds 1 b = false)
    {t : Sys (Book C D) W C D} {outs : List ExecOut} (hb : observed P bookOps (.ok []) catching fuel lexer w acts = .ok (t, outs))
    (hs : SafeHistory t.history) :
    ∃ s, observed P (mapOps false charSigned exceeds) (UMap.create (djb2 charSigned) 1) catching fuel lexer w acts = .ok (s, outs) ∧
      s.user = t.user ∧ s.calls = t.calls ∧ s.history = t.history ∧ s.lexer = t.lexer ∧ (∀ id, id ∈ s.freed ↔ id ∈ t.freed) ∧
      ∀ name, bindingsGet (mapOps false charSigned exceeds) s name = .ok (t.reg.get name) := by
  obtain ⟨m, h1, h2⟩ := map_made (C := C) (D := D) (fixed := false) (charSigned := charSigned) (exceeds := exceeds)
  have mi := map_implements (C := C) (D := D) (fixed := false) (charSigned := charSigned) hex
  have bi := book_implements (C := C) (D := D) (Handled false)
  have h := fol_acts handled_prefix mi bi (P := P) catching fuel acts (fresh_alike (lexer := lexer) (w := w) h2 book_nil) (.inr trivial)
  have hb : actsOut P bookOps catching fuel (freshSys [] lexer w) acts = .ok (t, outs) := hb
  rw [hb] at h
  obtain ⟨s, g1, g2⟩ := h (.inr hs)
  refine ⟨s, by simp only [observed, h1, Res.bind_ok, g1], g2.user, g2.calls, g2.history, g2.lexer, g2.freed, fun name => ?_⟩
  exact Alike.find mi bi g2 (.inr hs) name

/-- **C87 (on heaps).** The same for the hash map whose vectors live on the heap, with or without the repair, as long as the sizes
are representable: nothing is read or written outside of blocks, and no node and no block is leaked or freed twice,
whatever the commands do to the registry while they run. -/
theorem C87_heap_partial {c : HMap.Cfg Bytes (Command C D)} (hN : 0 < c.nodeSize) (hB : 0 < c.indexSize)
    (hex : ∀ b, 0 < b → c.exceeds 1 b = false) {t : Sys (Book C D) W C D} {outs : List ExecOut}
    (hb : observed P bookOps (.ok []) catching fuel lexer w acts = .ok (t, outs)) (hs : c.fixed = true ∨ SafeHistory t.history)
    (hn : 3 * (t.history.length + 1) * c.nodeSize < 2 ^ 64) (hi : (t.history.length + 1) * 2 * c.indexSize < 2 ^ 64) :
    ∃ s, observed P (heapOps c) (heapMade c) catching fuel lexer w acts = .ok (s, outs) ∧
      s.user = t.user ∧ s.calls = t.calls ∧ s.history = t.history ∧ s.lexer = t.lexer ∧ (∀ id, id ∈ s.freed ↔ id ∈ t.freed) ∧
      (∀ name, bindingsGet (heapOps c) s name = .ok (t.reg.get name)) ∧ Accounted s.reg.nodes ∧ Accounted s.reg.buckets := by
  have e : (t.history.length + 1) * 2 * c.indexSize = t.history.length * 2 * c.indexSize + 2 * c.indexSize := by
    rw [Nat.add_mul, Nat.add_mul]
  have hh : HeapHandled c t.history := ⟨hs, hn, by omega⟩
  obtain ⟨m, h1, h2⟩ := heap_made hN hB (show c.indexSize < 2 ^ 64 by omega)
  have mi := heap_implements hex hN hB
  have bi := book_implements (C := C) (D := D) (HeapHandled c)
  have h := fol_acts heapHandled_prefix mi bi (P := P) catching fuel acts (fresh_alike (lexer := lexer) (w := w) h2 book_nil)
    (heapHandled_prefix [] t.history hh)
  have hb : actsOut P bookOps catching fuel (freshSys [] lexer w) acts = .ok (t, outs) := hb
  rw [hb] at h
  obtain ⟨s, g1, g2⟩ := h hh
  obtain ⟨_, _, r, _⟩ := g2.reg1
  refine ⟨s, by simp only [observed, h1, Res.bind_ok, g1], g2.user, g2.calls, g2.history, g2.lexer, g2.freed, fun name => ?_,
    accounted_of r.nodes, accounted_of r.buckets⟩
  exact Alike.find mi bi g2 hh name

/-- **C87 is false of the code**: after this program, `p` is a command on the list and unknown on the hash map as it is. -/
theorem C87_as_is_false :
    (Demo.onBook Demo.losing).map Demo.ended = .ok [some ([], some (lit "10"))] ∧
    (Demo.onMap true false Demo.losing).map Demo.ended = .ok [some ([lit "No function 'p' is registered"], none)] := by
  refine ⟨?_, ?_⟩ <;> decide +kernel

/-- The repaired map behaves like the list there. -/
example : (Demo.onMap true true Demo.losing).map Demo.ended = .ok [some ([], some (lit "10"))] := by decide +kernel

/-- The example history with commands that add and remove commands: the list, the map as it is, and the map with unsigned `char`. -/
example : (Demo.onBook Demo.acts).map Demo.ended = (Demo.onMap true false Demo.acts).map Demo.ended ∧
    (Demo.onMap false false Demo.acts).map Demo.ended = (Demo.onMap true false Demo.acts).map Demo.ended ∧
    (Demo.onBook Demo.acts).map (fun x => (x.2.length, x.1.user, x.1.calls.length)) = .ok (3, 42, 2) := by
  refine ⟨?_, ?_, ?_⟩ <;> decide +kernel

/-- The same on heaps: also the call that fails, as it is, and the one that succeeds, with the repair. Three commands are left in
the map; ten nodes have been constructed and seven destroyed, in pushes, moves to larger blocks and removals. -/
example : (Demo.onHeap false Demo.acts).map Demo.ended = (Demo.onBook Demo.acts).map Demo.ended ∧
    (Demo.onHeap false Demo.losing).map Demo.ended = .ok [some ([lit "No function 'p' is registered"], none)] ∧
    (Demo.onHeap true Demo.losing).map Demo.ended = .ok [some ([], some (lit "10"))] ∧
    (Demo.onHeap false Demo.acts).map (fun x => (x.1.reg.nodes.mem.ctors, x.1.reg.nodes.mem.dtors)) = .ok (10, 7) := by
  refine ⟨?_, ?_, ?_, ?_⟩ <;> decide +kernel

end Coil
