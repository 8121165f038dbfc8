import Verif.Proofs.Passing

/-!
# C88: argument objects are moved to the user function, never copied, and destroyed exactly once

`Spec.Rules` (Spec/Passing) checks a log of what happened to the objects; it knows nothing of the call.
-/

namespace Coil
namespace Props
open Spec Pass

variable {α : Type}

/-- Whatever the parameters, the conversions, the user function and the exceptions out of move constructors, serializers and the
user function: no object is used before its construction, after its destruction or after it was moved from, every constructed object
is destroyed exactly once, and nothing is copied. The user function is called at most once, and only with the values that the
conversions gave, all of them and in order. -/
theorem C88_objects (fails : Nat → Bool) (modes : List Mode) (cs : List (Outcome α)) (body : Body α) (hl : modes.length = cs.length) :
    ∃ w, Rules World.start (callFunction fails modes cs body St.start).1.log = some w ∧ w.Clean ∧
      copies (callFunction fails modes cs body St.start).1.log = 0 ∧
      (w.calls = [] ∨ ∃ xs, AllConvert cs xs ∧ w.calls = [xs]) ∧
      ((callFunction fails modes cs body St.start).2 = .called → w.calls ≠ []) := by
  obtain ⟨w, h1, h2, ⟨m, k, hC⟩, h3⟩ := callFunction_spec fails modes cs body hl
  refine ⟨w, h1.rules, clean_of h2, hC.copies, ?_, ?_⟩
  · rcases h3 with ⟨_, h, _⟩ | ⟨_, h, _⟩ | ⟨h, h', _⟩
    · exact .inl h
    · exact .inl h
    · exact .inr ⟨_, h, h'⟩
  · intro he
    rcases h3 with ⟨h, _⟩ | ⟨h, _⟩ | ⟨_, h, _⟩
    · rw [h] at he; cases he
    · rw [h] at he; cases he
    · rw [h]; simp

/-- When all conversions give values and no move constructor throws, the user function is called exactly once with these values. Every
value is made once, moved once into its `Expected`, and then moved three times if the parameter is taken by value and not at all if it
is taken by reference. The call ends with an exception exactly if the user function does. -/
theorem C88_called (modes : List Mode) (xs : List α) (body : Body α) (hl : modes.length = xs.length) :
    ∃ w, Rules World.start (callFunction (fun _ => false) modes (xs.map .value) body St.start).1.log = some w ∧ w.calls = [xs] ∧
      (callFunction (fun _ => false) modes (xs.map .value) body St.start).2 = (if (body xs).2 then .exn else .called) ∧
      makes (callFunction (fun _ => false) modes (xs.map .value) body St.start).1.log = xs.length ∧
      moves (callFunction (fun _ => false) modes (xs.map .value) body St.start).1.log =
        xs.length + 3 * modes.count .byValue := by
  obtain ⟨w, h1, h2, _, h3⟩ := callFunction_spec (fun _ => false) modes (xs.map .value) body (by simpa using hl)
  rw [valuesOf_map] at h3
  rcases h3 with ⟨_, _, h | h⟩ | ⟨_, _, h, _⟩ | ⟨_, hc, he, hC⟩
  · simp at h
  · exact absurd (fun _ => rfl) h
  · simp at h
  · have hC := hC (fun _ => rfl)
    exact ⟨w, h1.rules, hc, he, by simpa [St.start, makes] using hC.makes, by simpa [St.start, moves] using hC.moves⟩

/-- When a conversion gives an error, the user function is not called. If nothing throws, each conversion that gave a value made one
object and moved it once. -/
theorem C88_rejected (fails : Nat → Bool) (modes : List Mode) (cs : List (Outcome α)) (body : Body α) (hl : modes.length = cs.length)
    (he : Outcome.error ∈ cs) :
    (∃ w, Rules World.start (callFunction fails modes cs body St.start).1.log = some w ∧ w.calls = []) ∧
    ((∀ n, fails n = false) → Outcome.throws ∉ cs →
      (callFunction fails modes cs body St.start).2 = .rejected ∧
      makes (callFunction fails modes cs body St.start).1.log = (cs.filter (· matches .value _)).length ∧
      moves (callFunction fails modes cs body St.start).1.log = (cs.filter (· matches .value _)).length) := by
  have hlen : ∀ ds : List (Outcome α), (valuesOf ds).length = (ds.filter (· matches .value _)).length := by
    intro ds
    induction ds with
    | nil => rfl
    | cons d ds ih => cases d <;> simpa [valuesOf] using ih
  obtain ⟨w, h1, h2, _, h3⟩ := callFunction_spec fails modes cs body hl
  have hnv : cs ≠ (valuesOf cs).map .value := fun e => by
    rw [e] at he
    simp at he
  rcases h3 with ⟨_, hc, h⟩ | ⟨h, hc, _, _, hC⟩ | ⟨h, _⟩
  · refine ⟨⟨w, h1.rules, hc⟩, fun hf ht => ?_⟩
    rcases h with h | h
    · exact absurd h ht
    · exact absurd hf h
  · exact ⟨⟨w, h1.rules, hc⟩, fun _ _ => ⟨h, by simpa [St.start, makes, hlen] using hC.makes,
      by simpa [St.start, moves, hlen] using hC.moves⟩⟩
  · exact absurd h hnv

/-! ## Examples -/

/-- A function `(T, T const&, T&&)` that moves its third parameter away and then throws. -/
example :
    (callFunction (fun _ => false) [.byValue, .constRef, .rvalueRef] [.value 10, .value 20, .value 30]
      (fun _ => ([1, 2], true)) (St.start : St Nat)).1.log =
    [.make 0 10, .move 0 1, .destroy 0, .make 2 20, .move 2 3, .destroy 2, .make 4 30, .move 4 5, .destroy 4,
     .move 1 6, .move 6 7, .move 7 8, .call [8, 3, 5], .take 5, .destroy 8, .destroy 7, .destroy 6,
     .destroy 5, .destroy 3, .destroy 1] := by decide +kernel

/-- The rules accept that log and see one call. -/
example :
    Rules World.start (callFunction (fun _ => false) [.byValue, .constRef, .rvalueRef] [.value 10, .value 20, .value 30]
      (fun _ => ([1, 2], true)) (St.start : St Nat)).1.log =
    some ⟨List.replicate 9 .gone, [[10, 20, 30]]⟩ := by decide +kernel

/-- The move into the parameter of `typedCall` throws for the second of two arguments: everything is destroyed, nothing is called. -/
example :
    (callFunction (fun n => n == 5) [.byValue, .byValue] [.value 10, .value 20] (fun _ => ([], false)) (St.start : St Nat)) =
    (⟨7, 6, [.make 0 10, .move 0 1, .destroy 0, .make 2 20, .move 2 3, .destroy 2, .move 1 4, .move 3 5, .move 4 6, .failed 5,
      .destroy 6, .destroy 5, .destroy 4, .destroy 3, .destroy 1]⟩, .exn) := by
  have h : ∀ a b : St Nat × Ending, a.1.next = b.1.next → a.1.tries = b.1.tries → a.1.log = b.1.log → a.2 = b.2 → a = b := by
    rintro ⟨⟨_, _, _⟩, _⟩ ⟨⟨_, _, _⟩, _⟩ h1 h2 h3 h4
    simp only at h1 h2 h3 h4
    subst h1 h2 h3 h4
    rfl
  refine h _ _ ?_ ?_ ?_ ?_ <;> decide +kernel

/-- The assignment `var 42` of the test (BindingsTests.cpp 299-316): one value made, no copies; the setter moves its parameter into the variable
(Variable.h 13-17). -/
example :
    makes (callFunction (fun _ => false) [.byValue] [.value 42] (fun _ => ([0], false)) (St.start : St Nat)).1.log = 1 ∧
    copies (callFunction (fun _ => false) [.byValue] [.value 42] (fun _ => ([0], false)) (St.start : St Nat)).1.log = 0 := by
  refine ⟨?_, ?_⟩ <;> decide +kernel

/-- An error beside a value: the value is destroyed, and nothing is called. -/
example :
    (callFunction (fun _ => false) [.byValue, .byValue] [.value 42, .error] (fun _ => ([], false)) (St.start : St Nat)).1.log =
    [.make 0 42, .move 0 1, .destroy 0, .destroy 1] := by decide +kernel

/-- The rules do reject: a call with an object that was moved from, a second destruction, and a leak is not clean. -/
example : Rules World.start ([.make 0 1, .move 0 1, .call [0]] : List (Ev Nat)) = none ∧
    Rules World.start ([.make 0 1, .destroy 0, .destroy 0] : List (Ev Nat)) = none ∧
    Rules World.start ([.make 0 1] : List (Ev Nat)) = some ⟨[.live 1], []⟩ := by
  refine ⟨?_, ?_, ?_⟩ <;> decide +kernel

end Props
end Coil
