import Verif.Proofs.EncapsulationMap
import Verif.Props.NamesOnly
import Verif.Props.Conv

/-!
# The whole program of the encapsulation example (C107)
-/

namespace Coil
open Spec UMap

variable {pl : Platform} {tiny : Nat → Nat → Bool} {catching charSigned : Bool} {cfg : LexCfg} {reqs : List Request}

/-- **C107.** With the repaired hash map: whatever the user enters, the program goes on, in the way of `Story`; no object is used after it was
destroyed, and none is left but the one the variable points to. The commands of the subsystem are registered exactly if they can be used. -/
theorem C107_run (hp : Proper cfg) {exceeds : Nat → Nat → Bool} (hex : ∀ b, 0 < b → exceeds 1 b = false) (hr : ∀ r ∈ reqs, Enterable (delims cfg) r) :
    ∃ fuel s outs g, observed (subFunctions pl tiny) (mapOps true charSigned exceeds) (UMap.create (djb2 charSigned) 1) catching fuel
        (some (fitting cfg)) SubWorld.start (subSetup ++ reqs.map .exec) = .ok (s, outs) ∧
      Story (delims cfg) pl tiny Stage.empty reqs outs g ∧ Fitting s.user g ∧
      ∀ n ∈ subsystemNames, ∃ c, bindingsGet (mapOps true charSigned exceeds) s n = .ok c ∧ (c.isSome = true ↔ g.usable = true) := by
  obtain ⟨outs, σ, g, h1, h2, h3⟩ := story_all (pl := pl) (tiny := tiny) (catching := catching) hr (staged_start rfl (delims cfg))
  obtain ⟨fuel, s, h4, h5⟩ := C89_complete (charSigned := charSigned) hp hex (acts := subSetup ++ reqs.map .exec) (.add (.add h1))
  refine ⟨fuel, s, outs, g, h4, h3, by rw [h5.user]; exact h2.fits, fun n hn => ⟨_, h5.commands n, ?_⟩⟩
  obtain ⟨b, hb⟩ := h2.commands
  rw [hb]
  exact table_usable hn

/-- **C107.** The same with the hash map as it is. -/
theorem C107_as_is (hp : Proper cfg) (hr : ∀ r ∈ reqs, Enterable (delims cfg) r) :
    ∃ fuel s outs g, observed (subFunctions pl tiny) (mapOps false charSigned overOne) (UMap.create (djb2 charSigned) 1) catching fuel
        (some (fitting cfg)) SubWorld.start (subSetup ++ reqs.map .exec) = .ok (s, outs) ∧
      Story (delims cfg) pl tiny Stage.empty reqs outs g ∧ Fitting s.user g ∧
      ∀ n ∈ subsystemNames, ∃ c, bindingsGet (mapOps false charSigned overOne) s n = .ok c ∧ (c.isSome = true ↔ g.usable = true) := by
  obtain ⟨outs, σ, g, h1, h2, h3⟩ := story_all (pl := pl) (tiny := tiny) (catching := catching) hr (staged_start rfl (delims cfg))
  obtain ⟨fuel, s, h4, h5⟩ := (C108_programs (charSigned := charSigned) (exceeds := overOne) hp (acts := subSetup ++ reqs.map .exec)).2
    (.add (.add h1)) (chapters_traced h2.changes)
  refine ⟨fuel, s, outs, g, h4, h3, by rw [h5.user]; exact h2.fits, fun n hn => ⟨_, h5.commands n, ?_⟩⟩
  obtain ⟨b, hb⟩ := h2.commands
  rw [hb]
  exact table_usable hn

/-- **C107.** One command has one effect on the stage, and one return value. -/
theorem C107_one_effect {σ σ1 σ2 : Stage} {i : Input} {r1 r2 : Option Bytes} (h1 : Accepted pl tiny σ i σ1 r1) (h2 : Accepted pl tiny σ i σ2 r2) :
    σ1 = σ2 ∧ r1 = r2 := accepted_one h1 h2

/-- **C107.** The requests and the first stage determine the last stage. -/
theorem C107_one_story (hp : Proper cfg) {σ σ1 σ2 : Stage} {outs1 outs2 : List ExecOut} (h1 : Story (delims cfg) pl tiny σ reqs outs1 σ1)
    (h2 : Story (delims cfg) pl tiny σ reqs outs2 σ2) : σ1 = σ2 := story_one hp h1 h2

/-- **C107.** The end of `run`: it is defined exactly if there is no subsystem any more; otherwise its destructor dereferences a null pointer. -/
theorem C107_leave {w : SubWorld} {g : Stage} (h : Fitting w g) :
    (g.part = none → leaveRun w = .ok w) ∧ (g.part ≠ none → leaveRun w = .ub .nullDeref) := by
  unfold Fitting at h
  unfold leaveRun
  cases hc : w.current with
  | none =>
    simp only [hc] at h
    obtain ⟨rfl, _⟩ := h
    exact ⟨fun _ => rfl, fun h => absurd rfl h⟩
  | some i =>
    simp only [hc] at h
    obtain ⟨p, h1, h2, _⟩ := h
    simp only [SubWorld.at, h2, Option.join]
    exact ⟨fun h => absurd (h1.symm.trans h) nofun, fun _ => rfl⟩

/-! ## Examples -/

namespace Encapsulation

/-- The program with these lines, on the hash map as it is. -/
abbrev entered (lines : List String) : Res (Sys (UMap Bytes (Command SubCode Nat)) SubWorld SubCode Nat × List ExecOut) :=
  observed (subFunctions linux64 fun _ _ => false) (mapOps false true overOne) (UMap.create (djb2 true) 1) true 5 (some (fitting (LexCfg.default true)))
    SubWorld.start (subSetup ++ lines.map fun l => .exec (.line (lit l)))

/-- The answers: errors and return values. -/
abbrev answers (lines : List String) : Res (List (Option (List Bytes × Option Bytes))) :=
  (entered lines).map fun x => x.2.map fun o => o.toOption.map fun r => (r.errors, r.returnValue)

/-- What is left: the objects and the end of `run`. -/
abbrev left (lines : List String) : Res (List Bool × Res Unit) :=
  (entered lines).map fun x => (x.1.user.objects.map Option.isSome, (leaveRun x.1.user).map fun _ => ())

end Encapsulation

open Encapsulation

/-- The lines of the example (EncapsulationExample.cpp 147-159). -/
example : answers ["create_subsystem", "subsystem.time", "subsystem.do_some_work foo 42", "destroy_subsystem", "subsystem.data",
    "subsystem.do_some_work foo 42"] =
    .ok [some ([], none), some ([], some (lit "3.14")), some ([], some (lit "Something: foo42")), some ([], none),
      some ([lit "No function 'subsystem.data' is registered"], none), some ([lit "No function 'subsystem.do_some_work' is registered"], none)] := by
  decide +kernel

/-- After them no object is left, and `run` ends. -/
example : left ["create_subsystem", "subsystem.time", "subsystem.do_some_work foo 42", "destroy_subsystem", "subsystem.data",
    "subsystem.do_some_work foo 42"] = .ok ([false], .ok ()) := by
  decide +kernel

/-- **C107**, a witness: the commands of a living subsystem cannot be used after a second `create_subsystem` (C91_recreate_false).
Only `destroy_subsystem` and a third `create_subsystem` make them usable again. -/
theorem C107_second_create :
    answers ["create_subsystem", "subsystem.counter 8", "create_subsystem", "subsystem.counter", "destroy_subsystem", "create_subsystem", "subsystem.counter"] =
        .ok [some ([], none), some ([], some (lit "8")), some ([], none), some ([lit "No function 'subsystem.counter' is registered"], none),
          some ([], none), some ([], none), some ([], some (lit "7"))] ∧
      left ["create_subsystem", "subsystem.counter 8", "create_subsystem"] = .ok ([false, true], .ub .nullDeref) := by
  refine ⟨?_, ?_⟩ <;> decide +kernel

/-- The lines of the example can be entered. -/
example : Enterable (delims (LexCfg.default true)) (.line (lit "create_subsystem")) := by
  refine ⟨by decide +kernel, fun h => ?_⟩
  have hp : Proper (LexCfg.default true) := proper_default true
  have h1 := (lexRead_ub_iff hp (s := lit "create_subsystem") (u := .oobRead) (by decide +kernel)).2 ⟨rfl, h⟩
  revert h1
  decide +kernel

end Coil
