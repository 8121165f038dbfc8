import Verif.Proofs.AdvancedProgram
import Verif.Proofs.UserProgram
import Verif.Props.Growing

/-!
# The program of examples/advanced (C128)
-/

namespace Coil
open Spec Vw

variable {tiny : Nat → Nat → Bool} {nan : Fl → Fl → Bool} {catching charSigned fixed : Bool} {cfg : LexCfg} {reqs more : List Request}
  {exceeds : Nat → Nat → Bool} {outs : List ExecOut} {s : Sys (UMap Bytes (Command AdvancedCode Bytes)) AdvancedWorld AdvancedCode Bytes} {fuel : Nat}

/-- **C128.** Whatever is entered, the commands do what is told; the entities are the three of the beginning, and the commands that are registered are those
that mean something. -/
theorem C128_run (hp : Proper cfg) (hex : ∀ b, 0 < b → exceeds 1 b = false)
    (h : observed (advancedFunctions tiny nan) (mapOps fixed charSigned exceeds) (UMap.create (djb2 charSigned) 1) catching fuel
      (some (fitting cfg)) AdvancedWorld.start (fixedProgram advancedTable reqs) = .ok (s, outs)) :
    ∃ h', Annals (AdvancedTold tiny nan) catching (delims cfg) advancedBeginning reqs outs h' ∧
      s.user = ⟨people.map (fun id => ⟨id, h'.name id, h'.payload id⟩), h'.angle⟩ ∧
      ∀ n, ∃ c, bindingsGet (mapOps fixed charSigned exceeds) s n = .ok c ∧ (c.isSome ↔ (h'.sense n).isSome) := by
  obtain ⟨S', h1, h2, h3⟩ := C127_sound hp hex advanced_growing h
  obtain ⟨h', g1, g2⟩ := advanced_accounts.annals h1 advanced_begins
  refine ⟨h', g1, h2.trans g2.1, fun n => ?_⟩
  obtain ⟨c, c1, c2⟩ := h3 n
  refine ⟨c, c1, ?_⟩
  rw [g2.2 n] at c2
  have := congrArg Option.isSome c2
  simp only [Option.isSome_map] at this
  rw [this]

/-- **C128, partial.** When the program answers: if it has answered the requests up to now, it answers one more exactly if that line fits and has no lone
quote in a group and the command makes no trouble. The full claim, that it always answers, is false: see `C128_total_false`. -/
theorem C128_total_partial (hp : Proper cfg) (hex : ∀ b, 0 < b → exceeds 1 b = false)
    (h : observed (advancedFunctions tiny nan) (mapOps fixed charSigned exceeds) (UMap.create (djb2 charSigned) 1) catching fuel
      (some (fitting cfg)) AdvancedWorld.start (fixedProgram advancedTable reqs) = .ok (s, outs)) :
    ∃ h', Annals (AdvancedTold tiny nan) catching (delims cfg) advancedBeginning reqs outs h' ∧ ∀ r,
      (∃ fuel s outs, observed (advancedFunctions tiny nan) (mapOps fixed charSigned exceeds) (UMap.create (djb2 charSigned) 1) catching fuel
        (some (fitting cfg)) AdvancedWorld.start (fixedProgram advancedTable (reqs ++ [r])) = .ok (s, outs)) ↔
      Enterable (delims cfg) r ∧ ∀ i, Enters (delims cfg) r i → ¬ AdvancedTrouble h' i := by
  obtain ⟨S', h1, _⟩ := C127_sound hp hex advanced_growing h
  obtain ⟨h', g1, g2⟩ := advanced_accounts.annals h1 advanced_begins
  refine ⟨h', g1, fun r => ?_⟩
  rw [C127_next hp hex advanced_growing h1]
  simp only [advanced_responsive g2]

/-- **C128.** There are always the same three entities. -/
theorem C128_people (hp : Proper cfg) (hex : ∀ b, 0 < b → exceeds 1 b = false)
    (h : observed (advancedFunctions tiny nan) (mapOps fixed charSigned exceeds) (UMap.create (djb2 charSigned) 1) catching fuel
      (some (fitting cfg)) AdvancedWorld.start (fixedProgram advancedTable reqs) = .ok (s, outs)) :
    s.user.entities.map Entity.id = [lit "player", lit "npc1", lit "npc2"] := by
  obtain ⟨h', _, h2, _⟩ := C128_run hp hex h
  rw [h2, List.map_map]
  show people.map (fun id => id) = _
  rw [List.map_id']
  rfl

/-- **C128.** Variables are live: after `entities.create_entity_variable v id`, whatever is entered that makes no variables, the variables `v.id`, `v.name` and
`v.payload` show the entity as it is then. -/
theorem C128_live (hp : Proper cfg) (hex : ∀ b, 0 < b → exceeds 1 b = false) {v id : Bytes} {f : Field} {named named' : List Named}
    (h : observed (advancedFunctions tiny nan) (mapOps fixed charSigned exceeds) (UMap.create (djb2 charSigned) 1) catching fuel
      (some (fitting cfg)) AdvancedWorld.start (fixedProgram advancedTable
        ((reqs ++ [.input ⟨lit "entities.create_entity_variable", [⟨[v]⟩, ⟨[id]⟩], named⟩]) ++ more ++ [.input ⟨fieldName v f, [], named'⟩])) = .ok (s, outs))
    (hid : id ∈ people) (hv : v ≠ lit "entities.create_entity_variable")
    (hm : ∀ r ∈ more, ∀ i, Enters (delims cfg) r i → i.name ≠ lit "entities.create_entity_variable") :
    ∃ before r e, outs = before ++ [.ok r] ∧ e ∈ s.user.entities ∧ e.id = id ∧ r.errors = [] ∧ r.returnValue = some (f.of e) := by
  obtain ⟨h', ha, hu, _⟩ := C128_run hp hex h
  obtain ⟨h3, o3, out, ha1, rfl, hlast⟩ := annals_last ha
  obtain ⟨h2, o2, o2', rfl, _, ha2, hmid⟩ := annals_split ha1
  obtain ⟨h1, o1, out1, ha3, _, hfirst⟩ := annals_last ha2
  have r1 : Rooted h1 := annals_kept ha3 (fun _ _ _ _ _ _ _ hr ht => rooted_told hr ht) rooted_begins
  have hn : lit "entities.create_entity_variable" ∉ [v, v ++ lit ".id", v ++ lit ".name"] := by
    simp only [List.mem_cons, List.not_mem_nil, or_false, not_or]
    exact ⟨fun e => hv e.symm, not_suffixed (by decide +kernel), not_suffixed (by decide +kernel)⟩
  have means : h1.Means (lit "entities.create_entity_variable") .create := ⟨by decide +kernel, r1.1⟩
  have b2 : h2.sense (fieldName v f) = some (.field f id) ∧ Rooted h2 := by
    rcases hfirst with ⟨o, hd, _⟩ | ⟨hno, _⟩
    · refine ⟨?_, rooted_told r1 hd⟩
      generalize hi : (⟨lit "entities.create_entity_variable", [⟨[v]⟩, ⟨[id]⟩], named⟩ : Input) = i at hd
      have hs : h1.sense i.name = some .create := by rw [← hi]; exact r1.1
      cases hd with
      | create m harg _ =>
        rw [← hi] at harg
        cases harg
        have c1 : v ++ lit ".id" ≠ v ++ lit ".name" := fun e => absurd (List.append_cancel_left e) (by decide +kernel)
        have c2 : v ++ lit ".id" ≠ v ++ lit ".payload" := fun e => absurd (List.append_cancel_left e) (by decide +kernel)
        have c3 : v ++ lit ".name" ≠ v ++ lit ".payload" := fun e => absurd (List.append_cancel_left e) (by decide +kernel)
        simp only [AdvancedHistory.variables, instead]
        cases f with
        | id => rw [show fieldName v .id = v ++ lit ".id" from rfl, if_neg c2, if_neg c1, if_pos rfl]
        | name => rw [show fieldName v .name = v ++ lit ".name" from rfl, if_neg c3, if_pos rfl]
        | payload => rw [show fieldName v .payload = v ++ lit ".payload" from rfl, if_pos rfl]
      | rename m | stranger m | list m | direction m | turn m | noAngle m | emptyAngle m | whole m | setWhole m | field m | setId m | setName m | setPayload m =>
        have := m.2
        rw [hs] at this
        cases this
    · exact absurd ⟨_, _, .create means rfl hn⟩ hno
  have b3 : h3.sense (fieldName v f) = some (.field f id) ∧ Rooted h3 := by
    refine annals_kept (I := fun h => h.sense (fieldName v f) = some (.field f id) ∧ Rooted h) hmid ?_ b2
    intro r hr i hi h h' o hI hd
    refine ⟨?_, rooted_told hI.2 hd⟩
    cases hd with
    | create m _ _ => exact absurd (hI.2.2.1 _ m.2) (hm r hr i hi)
    | rename | stranger | list | direction | turn | noAngle | emptyAngle | whole | setWhole | field | setId | setName | setPayload => exact hI.1
  have hne : fieldName v f ≠ [] := by
    cases f <;> exact fun e => absurd (List.append_eq_nil_iff.1 e).2 (by decide +kernel)
  rcases hlast with ⟨o, hd, hs⟩ | ⟨hno, _⟩
  · generalize hi : (⟨fieldName v f, [], named'⟩ : Input) = i at hd
    have hse : h3.sense i.name = some (.field f id) := by rw [← hi]; exact b3.1
    have harg0 : i.arguments = [] := by rw [← hi]
    cases hd with
    | field m _ _ =>
      have := m.2
      rw [hse] at this
      cases this
      obtain ⟨r, rfl, e1, e2, _⟩ := hs
      refine ⟨_, r, ⟨id, h'.name id, h'.payload id⟩, rfl, ?_, rfl, e1, ?_⟩
      · rw [hu]
        exact List.mem_map.2 ⟨id, hid, rfl⟩
      · rw [e2]
        cases f <;> rfl
    | setId _ harg _ | setName _ harg _ | setPayload _ harg _ => rw [harg0] at harg; cases harg
    | rename m | stranger m | list m | create m | direction m | turn m | noAngle m | emptyAngle m | whole m | setWhole m =>
      have := m.2
      rw [hse] at this
      cases this
  · exact absurd ⟨_, _, .field ⟨hne, b3.1⟩ rfl hid⟩ hno

/-- **C128.** An entity that is renamed has the new name, unless a variable has been given the name of the command. -/
theorem C128_renamed (hp : Proper cfg) (hex : ∀ b, 0 < b → exceeds 1 b = false) {t id : Bytes} {named : List Named}
    (h : observed (advancedFunctions tiny nan) (mapOps fixed charSigned exceeds) (UMap.create (djb2 charSigned) 1) catching fuel
      (some (fitting cfg)) AdvancedWorld.start (fixedProgram advancedTable
        (reqs ++ [.input ⟨lit "entities.rename", [⟨[id]⟩, ⟨[t]⟩], named⟩])) = .ok (s, outs))
    (hid : id ∈ people)
    (hm : ∀ r ∈ reqs, ∀ i, Enters (delims cfg) r i → i.arguments.head? ≠ some ⟨[lit "entities.rename"]⟩) :
    ∃ before r e, outs = before ++ [.ok r] ∧ r.errors = [] ∧ e ∈ s.user.entities ∧ e.id = id ∧ e.name = t := by
  obtain ⟨h', ha, hu, _⟩ := C128_run hp hex h
  obtain ⟨h1, o1, out, ha1, rfl, hlast⟩ := annals_last ha
  have b1 : h1.sense (lit "entities.rename") = some .rename := by
    refine annals_kept (I := fun h => h.sense (lit "entities.rename") = some .rename) ha1 ?_ (by decide +kernel)
    intro r hr i hi h h' o hI hd
    cases hd with
    | create m harg _ =>
      have := hm r hr i hi
      rw [harg] at this
      simp only [AdvancedHistory.variables, instead]
      rw [if_neg (not_suffixed (by decide +kernel)), if_neg (not_suffixed (by decide +kernel)), if_neg (not_suffixed (by decide +kernel)),
        if_neg fun e => this (by rw [← e]; rfl)]
      exact hI
    | rename | stranger | list | direction | turn | noAngle | emptyAngle | whole | setWhole | field | setId | setName | setPayload => exact hI
  have means : h1.Means (lit "entities.rename") .rename := ⟨by decide +kernel, b1⟩
  rcases hlast with ⟨o, hd, hs⟩ | ⟨hno, _⟩
  · generalize hi : (⟨lit "entities.rename", [⟨[id]⟩, ⟨[t]⟩], named⟩ : Input) = i at hd
    have hse : h1.sense i.name = some .rename := by rw [← hi]; exact b1
    cases hd with
    | rename m harg _ =>
      rw [← hi] at harg
      cases harg
      obtain ⟨r, rfl, e1, _⟩ := hs
      refine ⟨_, r, ⟨id, t, h1.payload id⟩, rfl, e1, ?_, rfl, rfl⟩
      rw [hu]
      exact List.mem_map.2 ⟨id, hid, by simp [instead]⟩
    | stranger m harg hno =>
      rw [← hi] at harg
      cases harg
      exact absurd hid hno
    | create m | list m | direction m | turn m | noAngle m | emptyAngle m | whole m | setWhole m | field m | setId m | setName m | setPayload m =>
      have := m.2
      rw [hse] at this
      cases this
  · exact absurd ⟨_, _, .rename means rfl hid⟩ hno

/-- **C128.** Only `direction` turns: without it the angle stays 45 degrees, whatever variables are made. -/
theorem C128_angle (hp : Proper cfg) (hex : ∀ b, 0 < b → exceeds 1 b = false)
    (h : observed (advancedFunctions tiny nan) (mapOps fixed charSigned exceeds) (UMap.create (djb2 charSigned) 1) catching fuel
      (some (fitting cfg)) AdvancedWorld.start (fixedProgram advancedTable reqs) = .ok (s, outs))
    (hm : ∀ r ∈ reqs, ∀ i, Enters (delims cfg) r i → i.name ≠ lit "direction") : s.user.angle = .fin false 11796480 (-18) := by
  obtain ⟨h', ha, hu, _⟩ := C128_run hp hex h
  have := annals_kept (I := fun h => h.angle = .fin false 11796480 (-18) ∧ Rooted h) ha (by
    intro r hr i hi h h' o hI hd
    refine ⟨?_, rooted_told hI.2 hd⟩
    cases hd with
    | turn m => exact absurd (hI.2.2.2.2 _ m.2) (hm r hr i hi)
    | rename | stranger | create | list | direction | noAngle | emptyAngle | whole | setWhole | field | setId | setName | setPayload => exact hI.1)
    ⟨rfl, rooted_begins⟩
  rw [hu]
  exact this.1

/-! ## Examples -/

namespace Advanced128

/-- The program with these lines, on the hash map as it is. -/
abbrev entered (lines : List String) : Res (Sys (UMap Bytes (Command AdvancedCode Bytes)) AdvancedWorld AdvancedCode Bytes × List ExecOut) :=
  observed (advancedFunctions (fun _ _ => true) (fun _ _ => false)) (mapOps false true overOne) (UMap.create (djb2 true) 1) true 8
    (some (fitting (LexCfg.default true))) AdvancedWorld.start (fixedProgram advancedTable (lines.map fun l => .line (lit l)))

/-- The answers: errors and return value. -/
abbrev answers (lines : List String) : Res (List (Option (List Bytes × Option Bytes))) :=
  (entered lines).map fun x => x.2.map fun o => o.toOption.map fun r => (r.errors, r.returnValue)

/-- What the last command writes. -/
abbrev written (lines : List String) : Res (Option Bytes) :=
  (entered lines).map fun x => (x.2.getLast?.bind Except.toOption).map fun r => r.output

abbrev said (t : String) : Option (List Bytes × Option Bytes) := some ([], some (lit t))

abbrev done : Option (List Bytes × Option Bytes) := some ([], none)

abbrev wrong (ts : List String) : Option (List Bytes × Option Bytes) := some (ts.map lit, none)

end Advanced128

open Advanced128

/-- **C128**, witnesses: a variable for an entity that there is not, and a variable with the name of the command that makes variables. -/
theorem C128_total_false :
    answers ["entities.create_entity_variable x nobody", "x.id"] = .ub .nullDeref ∧
    answers ["entities.create_entity_variable x nobody", "x.name y"] = .ub .nullDeref ∧
    answers ["entities.create_entity_variable x nobody", "x", "x.name y z"] =
      .ok [done, said "null", wrong ["Wrong number of arguments to 'x.name': expected 0 or 1, got 2"]] ∧
    answers ["entities.create_entity_variable entities.create_entity_variable player"] = .ub .useAfterFree := by
  refine ⟨?_, ?_, ?_, ?_⟩ <;> decide +kernel

/-- Lines of the example (AdvancedExample.cpp 158-176). -/
example : answers ["entities.rename npc1 'Enemy'", "entities.create_entity_variable player_entity player", "player_entity", "player_entity.id",
      "player_entity.name", "player_entity.payload", "player_entity.payload 'I am a modified player'", "player_entity.id other",
      "entities.rename nobody x", "direction", "direction 30", "direction 60d", "direction 3.1415926535r", "direction x"] =
    .ok [done, done, said "EntityId{player}", said "player", said "Player", said "I am a player", said "I am a modified player",
      wrong ["This property is read-only"], wrong ["Failed to find entity 'nobody'"], said "45 degrees", said "30 degrees", said "60 degrees",
      said "180 degrees", wrong ["Unable to convert 'x' to type 'float'"]] := by
  decide +kernel

/-- The list after two changes. -/
example : written ["entities.create_entity_variable v player", "v.payload changed", "entities.rename npc1 Enemy", "entities.list"] =
    .ok (some (lit "ID\tName\tPayload\n--\t----\t-------\nplayer\tPlayer\tchanged\nnpc1\tEnemy\tA pretty weak NPC\nnpc2\tNPC 2\tA strong NPC\n")) := by
  decide +kernel

/-- A variable sees what is changed after it was made, and it can take the name of a command. -/
example : answers ["entities.create_entity_variable v npc2", "entities.rename npc2 Boss", "v.name", "entities.create_entity_variable direction npc1",
      "direction", "direction.name"] =
    .ok [done, done, said "Boss", done, said "EntityId{npc1}", said "NPC 1"] := by
  decide +kernel

end Coil
