import Verif.Proofs.EntityProgram
import Verif.Props.Answered

/-!
# The program of examples/variadic (C122)
-/

namespace Coil
open Spec

variable {pl : Platform} {catching charSigned fixed : Bool} {cfg : LexCfg} {d : Delims} {reqs : List Request} {exceeds : Nat → Nat → Bool}
  {outs : List ExecOut} {h h' : List Entity} {s : Sys (UMap Bytes (Command EntityCode Unit)) (List Entity) EntityCode Unit}

/-- **C122.** Whatever is entered, the entities are those that were added, in this order, each with the name it was last given; a new name goes to the
first entity that the text refers to, and the text is taken as an id if it is one and as a name otherwise. -/
theorem C122_run (hp : Proper cfg) (hex : ∀ b, 0 < b → exceeds 1 b = false) {fuel : Nat}
    (h : observed (entityFunctions pl) (mapOps fixed charSigned exceeds) (UMap.create (djb2 charSigned) 1) catching fuel (some (fitting cfg)) []
      (fixedProgram entityTable reqs) = .ok (s, outs)) :
    Annals (RosterTold pl) catching (delims cfg) [] reqs outs s.user := by
  obtain ⟨h', g1, rfl⟩ := entity_accounts.annals ((C110_run hp hex entity_quiet).1 ⟨fuel, s, h, rfl⟩) rfl
  exact g1

/-- **C122.** The program answers exactly if every line fits and has no lone quote in a group: no command, whatever its arguments, is in the way. -/
theorem C122_total (hp : Proper cfg) (hex : ∀ b, 0 < b → exceeds 1 b = false) :
    (∃ fuel s outs, observed (entityFunctions pl) (mapOps fixed charSigned exceeds) (UMap.create (djb2 charSigned) 1) catching fuel
      (some (fitting cfg)) [] (fixedProgram entityTable reqs) = .ok (s, outs)) ↔ ∀ r ∈ reqs, Enterable (delims cfg) r := by
  rw [C117_iff hp hex entity_quiet entity_steady trivial]
  exact ⟨fun h r hr => (h r hr).1, fun h r hr => ⟨h r hr, fun i _ => entity_answerable i⟩⟩

theorem result_ids {i : Input} {out : ExecOut} (g : Result (RosterTold pl) catching h i h' out) : h.map (·.id) <+: h'.map (·.id) := by
  rcases g with ⟨_, t, _⟩ | ⟨_, rfl, _⟩
  · cases t with
    | add => simp
    | rename r => cases r <;> simp
    | list | lost | parts => exact List.prefix_refl _
  · exact List.prefix_refl _

/-- **C122.** An entity is never lost, moved or given another id: the ids that are there stay where they are, and new ones come behind them. -/
theorem C122_ids (g : Annals (RosterTold pl) catching d h reqs outs h') : h.map (·.id) <+: h'.map (·.id) := by
  induction g with
  | nil => exact List.prefix_refl _
  | wrong _ _ ih => exact ih
  | line _ r _ ih | input r _ ih => exact (result_ids r).trans ih

/-- **C122.** So an id refers to the same entity for ever, whatever is entered in between and however often the entity is renamed. -/
theorem C122_same (g : Annals (RosterTold pl) catching d h reqs outs h') {t : Bytes} {z : Int} (ht : IdText pl t z) {pre post : List Entity} {e : Entity}
    (hr : Refers pl t h pre e post) : ∃ pre' e' post', Refers pl t h' pre' e' post' ∧ pre'.length = pre.length ∧ e'.id = e.id := by
  have hids := C122_ids g
  cases hr with
  | name no => exact absurd ⟨z, ht⟩ no
  | @id z' _ _ _ h1 h2 h3 =>
    obtain ⟨more, hm⟩ := hids
    simp only [List.map_append, List.map_cons, List.append_assoc, List.cons_append] at hm
    obtain ⟨pre', rest, rfl, hp, hq⟩ := List.map_eq_append_iff.1 hm.symm
    obtain ⟨e', post', rfl, he, _⟩ := List.map_eq_cons_iff.1 hq
    refine ⟨pre', e', post', .id h1 (he.trans h2) ?_, ?_, he⟩
    · intro x hx hxz
      have : x.id ∈ pre.map (·.id) := hp ▸ List.mem_map_of_mem hx
      obtain ⟨y, hy, hyx⟩ := List.mem_map.1 this
      exact h3 y hy (hyx.trans hxz)
    · have := congrArg List.length hp
      simpa using this

/-- **C122.** A command that reports an error or is not understood changes nothing. -/
theorem C122_kept {i : Input} {r : ExecResult} (g : Result (RosterTold pl) catching h i h' (.ok r)) (he : r.errors ≠ []) : h' = h := by
  rcases g with ⟨o, t, s⟩ | ⟨_, rfl, _⟩
  · cases t with
    | list | lost | parts => rfl
    | add | rename =>
      obtain ⟨r', h1, h2, _⟩ := s
      cases h1
      exact absurd h2 he
  · rfl

/-! ## Examples -/

namespace Roster

/-- The program with these lines, on the hash map as it is. -/
abbrev entered (lines : List Bytes) : Res (Sys (UMap Bytes (Command EntityCode Unit)) (List Entity) EntityCode Unit × List ExecOut) :=
  observed (entityFunctions linux64) (mapOps false true overOne) (UMap.create (djb2 true) 1)
    true 5 (some (fitting (LexCfg.default true))) [] (fixedProgram entityTable (lines.map .line))

/-- The answers: errors and output. -/
abbrev answers (lines : List String) : Res (List (Option (List Bytes × Bytes))) :=
  (entered (lines.map lit)).map fun x => x.2.map fun o => o.toOption.map fun r => (r.errors, r.output)

/-- An answer without errors. -/
abbrev said (t : String) : Option (List Bytes × Bytes) := some ([], lit t)

/-- Errors. -/
abbrev wrong (ts : List String) : Option (List Bytes × Bytes) := some (ts.map lit, [])

end Roster

open Roster

/-- The lines of the example (VariadicExample.cpp 89-96). -/
example : answers ["entities.add 0 entity0", "entities.add 1 entity1", "entities.add 2 entity2", "entities.list", "entities.rename 0 player0",
      "entities.rename entity1 player1", "entities.rename 3 player3", "entities.list"] =
    .ok [said "", said "", said "", said "Entities:\n0: entity0\n1: entity1\n2: entity2\n", said "", said "",
      wrong ["Failed to find entity '3'"], said "Entities:\n0: player0\n1: player1\n2: entity2\n"] := by
  decide +kernel

/-- An entity whose name is an id: the text is taken as an id, so the name does not help. Two entities with the same id: the first is meant. A group
as the entity is an error. -/
example : answers ["entities.add 1 7", "entities.add 1 b", "entities.rename 7 c", "entities.rename 1 a", "entities.rename b 7", "entities.list",
      "entities.rename (1 2) x"] =
    .ok [said "", said "", wrong ["Failed to find entity '7'"], said "", said "", said "Entities:\n1: a\n1: 7\n",
      wrong ["Unknown type of 'entity'", "Unable to convert '1 2' to type 'unsigned long': Expected 1 subvalues, got 2",
        "Unable to convert '1 2' to type 'string': Expected 1 subvalues, got 2"]] := by
  decide +kernel

/-- The hypotheses of `C122_same` hold for the second entity of the example. -/
example : IdText linux64 (lit "1") 1 ∧ Refers linux64 (lit "1") [⟨0, lit "entity0"⟩, ⟨1, lit "entity1"⟩] [⟨0, lit "entity0"⟩] ⟨1, lit "entity1"⟩ [] := by
  have h : IdText linux64 (lit "1") 1 := idText_iff.1 (by decide +kernel)
  exact ⟨h, .id (pre := [_]) h rfl (by simp)⟩

/-- A sign in front is no id, but a space before it hides it: the id is then the number modulo 2^64, and `-1` is looked for as a name. -/
example : answers ["entities.add -1 last", "entities.add ' -1' last", "entities.add 18446744073709551615 other", "entities.rename -1 x",
      "entities.rename ' -1' first", "entities.list"] =
    .ok [wrong ["Unable to convert '-1' to type 'unsigned long'"], said "", said "", wrong ["Failed to find entity '-1'"], said "",
      said "Entities:\n18446744073709551615: first\n18446744073709551615: other\n"] := by
  decide +kernel

end Coil
