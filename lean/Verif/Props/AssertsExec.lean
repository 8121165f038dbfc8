import Verif.Proofs.CheckedProgram
import Verif.Props.Asserts
import Verif.Props.AssertsLexer

/-!
# Registering and executing commands in a build with assertions (C78)
-/

namespace Coil
open Spec

section

variable {W C D : Type} {P : C → FunctorDef W C D} {fixed charSigned : Bool} {exceeds : Nat → Nat → Bool}
  {catching : Bool} {fuel : Nat} {w : W} {s : Sys (UMap Bytes (Command C D)) W C D}

/-- **C78.** The built-in lexer with assertions mirrors the one without, for every text and configuration. -/
theorem C78_lexer_transparent (cfg : LexCfg) : SameLexer True (some (lexReadC cfg)) (some (lexRead cfg)) :=
  .some fun t => Mirrored.of_stops (stops_lexRead t)

/-- **C78.** Executing a request with assertions gives the result it gives without and leaves the same program behind, or it stops at
a failed assertion: for every registry, damaged or not, every function, and every lexer that mirrors its counterpart. -/
theorem C78_transparent {l : Option Lexer} (hl : SameLexer True s.lexer l) (req : Request) :
    Mirrors True (fun x y => SameButLexer x.1 y.1 ∧ x.1.lexer = s.lexer ∧ y.1.lexer = l ∧ x.2 = y.2)
      (executeC P (mapOpsC fixed charSigned exceeds) catching fuel s req)
      (execute P (mapOps fixed charSigned exceeds) catching fuel (setLexer s l) req) := by
  refine Mirrored.mono (mirror_nested (mapMirror fixed charSigned exceeds) hl fuel 0 s (setLexer s l) req ⟨rfl, rfl, trivial⟩) ?_
  rintro ⟨a, o⟩ ⟨b, o'⟩ - - ⟨⟨h1, rfl, -⟩, rfl⟩
  exact ⟨rfl, h1, rfl, rfl⟩

/-- **C78.** The same for whole programs, in which functions and the program around them change the registry and the lexer. -/
theorem C78_program_transparent {lC l : Option Lexer} (hl : SameLexer True lC l) {actsC acts : List (Action W C D)}
    (ha : SameActions True actsC acts) :
    Mirrors True SameButLexer (programC P fixed charSigned exceeds catching fuel lC w actsC)
      (program P fixed charSigned exceeds catching fuel l w acts) := by
  obtain ⟨m, h1, -⟩ := newBindings_both (C := C) (D := D) charSigned l w
  obtain ⟨m', g1, g2, -⟩ := newBindings_both (C := C) (D := D) charSigned lC w
  have hm : m' = m := by
    obtain ⟨m0, e, -⟩ := UMap.create_spec (V := Command C D) (djb2 charSigned) (n := 1) (by omega)
    simp only [newBindings, e, Res.bind_ok, Res.ok.injEq, Sys.mk.injEq] at h1 g1
    rw [← h1.1, ← g1.1]
  subst hm
  simp only [program, programC, h1, g2, Res.bind_ok]
  refine Mirrored.mono (mirror_actAll (mapMirror fixed charSigned exceeds) ha _ _ hl ⟨rfl, rfl, trivial⟩) ?_
  rintro a b - - ⟨_, _, -, -, rfl, -⟩
  rfl

/-- **C78 (repaired map).** Only the lexer can fail an assertion: with a lexer that fails none, a program with assertions has exactly the
outcome of the program without. -/
theorem C78_hold_repaired (hex : ∀ b, 0 < b → exceeds 1 b = false) {lC l : Option Lexer} (hl : SameLexer False lC l)
    {actsC acts : List (Action W C D)} (ha : SameActions False actsC acts) :
    Mirrors False SameButLexer (programC P true charSigned exceeds catching fuel lC w actsC)
      (program P true charSigned exceeds catching fuel l w acts) := by
  obtain ⟨m, h1, -, hd, -⟩ := newBindings_both (C := C) (D := D) charSigned l w
  obtain ⟨m', g1, g2, -⟩ := newBindings_both (C := C) (D := D) charSigned lC w
  have hm : m' = m := by
    obtain ⟨m0, e, -⟩ := UMap.create_spec (V := Command C D) (djb2 charSigned) (n := 1) (by omega)
    simp only [newBindings, e, Res.bind_ok, Res.ok.injEq, Sys.mk.injEq] at h1 g1
    rw [← h1.1, ← g1.1]
  subst hm
  simp only [program, programC, h1, g2, Res.bind_ok]
  refine Mirrored.mono (mirror_actAll (mapMirror_repaired hex) ha _ _ hl ⟨rfl, rfl, hd⟩) ?_
  rintro a b - - ⟨_, _, -, -, rfl, -⟩
  rfl

/-- **C78 (repaired map).** So does every request in every state that such a program reaches, whatever the lexer, which is the same in both
builds here; only a missing lexer stops. -/
theorem C78_execute_repaired (hex : ∀ b, 0 < b → exceeds 1 b = false) {acts : List (Action W C D)}
    (h : Reached P true charSigned exceeds catching acts s) {l : Lexer} (hl : s.lexer = some l) (req : Request) :
    executeC P (mapOpsC true charSigned exceeds) catching fuel s req = execute P (mapOps true charSigned exceeds) catching fuel s req := by
  have hm := mirror_nested (P := P) (catching := catching) (mapMirror_repaired (charSigned := charSigned) hex)
    (lC := some l) (l := some l) (.some fun t => Mirrored.refl _ fun _ => rfl) fuel 0 s s req
    ⟨hl, by simp [setLexer, ← hl], h.dictionary hex⟩
  change Mirrors _ _ (executeC P (mapOpsC true charSigned exceeds) catching fuel s req)
    (execute P (mapOps true charSigned exceeds) catching fuel s req) at hm
  generalize executeC P (mapOpsC true charSigned exceeds) catching fuel s req = x at hm
  generalize execute P (mapOps true charSigned exceeds) catching fuel s req = y at hm
  cases hm with
  | @ok a b h =>
    obtain ⟨a1, a2⟩ := a
    obtain ⟨b1, b2⟩ := b
    obtain ⟨⟨h1, h2, -⟩, h3⟩ := h
    simp only at h1 h2 h3
    subst h2 h3
    simp [setLexer, ← h1]
  | ub u => rfl
  | diverge => rfl
  | stop y h => exact h.elim

/-- **C78.** Executing a line without a lexer stops with assertions and is undefined without. -/
theorem C78_no_lexer (hl : s.lexer = none) (t : Bytes) :
    executeC P (mapOpsC fixed charSigned exceeds) catching (fuel + 1) s (.line t) = .ub .assertion ∧
      execute P (mapOps fixed charSigned exceeds) catching (fuel + 1) s (.line t) = .ub .nullDeref := by
  constructor
  · simp [executeC, nestedC, Nested.exec, executeLineC, hl]
  · simp [execute, nested, Nested.exec, executeLine, hl]

/-- **C78.** With assertions, in the code as it is, a program whose functions, serializers and lexers have no undefined behaviour of their own
has none at all but the use of a destroyed function object: whatever it does to the registry, it ends properly, stops at a
failed assertion, or does not end. If no function changes the registry while it runs, destroyed objects are not used either. -/
theorem C78_contained {changes : Prop} (hex : ∀ b, 0 < b → exceeds 1 b = false) (hP : CarefulFunctions changes P) {lexer : Option Lexer}
    (hl : CarefulLexer lexer) {acts : List (Action W C D)} (ha : ∀ a ∈ acts, CarefulAction a) {u : UB}
    (h : programC P fixed charSigned exceeds catching fuel lexer w acts = .ub u) : u = .assertion ∨ (changes ∧ u = .useAfterFree) := by
  obtain ⟨m, -, h2, -, h3, h4⟩ := newBindings_both (C := C) (D := D) charSigned lexer w
  simp only [programC, h2, Res.bind_ok] at h
  have := bounded_program (fixed := fixed) (charSigned := charSigned) (catching := catching) (fuel := fuel) hex hP acts ha
    ⟨m, lexer, w, [], 0, [], []⟩ h4 hl (by refine ⟨?_, ?_, ?_, ?_, ?_, ?_⟩ <;> simp [h3, entIds])
  rw [h] at this
  exact this

/-- **C78.** The built-in lexer is such a lexer. -/
theorem C78_lexer_contained (cfg : LexCfg) : CarefulLexer (some (lexReadC cfg)) := by
  rintro l ⟨⟩ t ht
  exact contained_lexRead ht

end

namespace Demo

/-- What a program of the examples ends with: its state, or why it stops. -/
def runC (acts : List (Action Int Nat Nat)) : Res (Int × List (Nat × Nat)) :=
  (programC P false true overOne true 5 (some (lexReadC (LexCfg.default true))) 10 acts).map fun s => (s.user, s.calls)

/-- The same without assertions. -/
def runPlain (acts : List (Action Int Nat Nat)) : Res (Int × List (Nat × Nat)) :=
  (program P false true overOne true 5 (some (lexRead (LexCfg.default true))) 10 acts).map fun s => (s.user, s.calls)

end Demo

/-- **C78 is false of the code**: a program of legal calls fails an assertion, with the map as it is; without assertions it writes
out of bounds. -/
theorem C78_stops_false :
    Demo.runC [.add (lit "a") [(0, 0)], .add (lit "e") [(0, 0)], .add (lit "i") [(0, 0)], .add (lit "m") [(0, 0)],
        .remove (lit "a"), .remove (lit "e"), .remove (lit "m")] = .ub .assertion ∧
      Demo.runPlain [.add (lit "a") [(0, 0)], .add (lit "e") [(0, 0)], .add (lit "i") [(0, 0)], .add (lit "m") [(0, 0)],
        .remove (lit "a"), .remove (lit "e"), .remove (lit "m")] = .ub .oobWrite := by
  refine ⟨?_, ?_⟩ <;> decide +kernel

/-- **C78 is false of the code**: a line typed by a user fails an assertion of the lexer. -/
theorem C78_line_false :
    Demo.runC [.add (lit "a") [(1, 0)], .exec (.line (lit "a (\")"))] = .ub .assertion ∧
      Demo.runPlain [.add (lit "a") [(1, 0)], .exec (.line (lit "a (\")"))] = .ub .oobRead := by
  refine ⟨?_, ?_⟩ <;> decide +kernel

/-- Careful functions: a counter, a function that changes a named argument if there is one, and one that executes a line. -/
def Demo.careful : Nat → FunctorDef Int Nat Nat
  | 0 => Demo.fn [Demo.int] fun a => .get fun w => .set (w + a.1) (.ret (w + a.1))
  | 1 => Demo.void [] fun _ => .named fun l => if 0 < l.length then .setNamed 0 ⟨lit "k", ⟨[]⟩⟩ (.ret ()) else .ret ()
  | _ => Demo.void [] fun _ => .captured fun _ => .execLine (lit "count 1") fun _ => .throw .other

/-- They satisfy the hypothesis of `C78_contained`, in its stronger form. -/
example : CarefulFunctions False Demo.careful := by
  constructor
  · intro c xs n
    match c with
    | 0 => exact .get fun w => .set _ (.ret _)
    | 1 =>
      refine .named fun l hl => ?_
      by_cases h : 0 < l.length
      · rw [if_pos h]
        exact .setNamed _ (by omega) (.ret _)
      · rw [if_neg h]
        exact .ret _
    | c + 2 =>
      refine .captured fun _ => .execLine ?_ fun _ => .throw _
      show (lit "count 1").length < _
      decide +kernel
  · intro c p hp v
    match c with
    | 0 =>
      have hp' : p = Demo.int := by simpa [Demo.careful, Demo.fn] using hp
      subst hp'
      show Contained ((intConv Demo.pl .int).fromString v)
      simp only [intConv, arithConv]
      repeat' first | exact .ok | split
    | 1 => simp [Demo.careful, Demo.void] at hp
    | c + 2 => simp [Demo.careful, Demo.void] at hp

/-- A function that changes the registry while it runs can still use what it destroyed. -/
example : Demo.runC [.add (lit "gone") [(7, 42)], .exec (.line (lit "gone"))] = .ub .useAfterFree := by decide +kernel

/-- A program with nested calls that passes all assertions. -/
example : Demo.runC [.add (lit "add") [(0, 0), (1, 0)], .add (lit "two") [(2, 0)], .add (lit "calls") [(6, 0)],
    .exec (.line (lit "calls")), .remove (lit "two"), .exec (.line (lit "add 1"))] = .ok (16, [(0, 3), (1, 1), (1, 2), (0, 1)]) := by
  decide +kernel

end Coil
