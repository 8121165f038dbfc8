import Verif.Proofs.Pool
import Verif.Props.Fixed
import Verif.Props.Conv

/-!
# Entities (C111, C112)
-/

namespace Coil
open Spec

variable {pl : Platform} {sz : IntType} {tiny : Nat → Nat → Bool} {nan : Fl → Fl → Bool} {catching charSigned fixed : Bool} {cfg : LexCfg}
  {reqs : List Request} {exceeds : Nat → Nat → Bool} {outs : List ExecOut} {s : Sys (UMap Bytes (Command UserCode Unit)) UserWorld UserCode Unit}

/-- **C111.** Whatever the user enters into the program of the example, if the program does not run into the undefined overflow of `sum`, the
commands for entities do what the history says, and at the end the entities are those that were added and not removed since. With the hash map as it is
and with the repaired one. -/
theorem C111_run (hp : Proper cfg) (hex : ∀ b, 0 < b → exceeds 1 b = false) (hsz : SizeType pl sz) {fuel : Nat}
    (h : observed (userFunctions pl sz tiny nan) (mapOps fixed charSigned exceeds) (UMap.create (djb2 charSigned) 1) catching fuel (some (fitting cfg))
      UserWorld.start (fixedProgram userTable reqs) = .ok (s, outs)) :
    ∃ h', EntityStory (delims cfg) [] reqs outs h' ∧ Keeps s.user.pool h' :=
  entity_talk hsz ((C110_run hp hex user_quiet).1 ⟨fuel, s, h, rfl⟩) ⟨rfl, rfl⟩

/-- **C111.** What is told is determined by the history and the command. -/
theorem C111_one {h h1 h2 : List Deed} {i : Input} {r1 r2 : Option Bytes} (t1 : EntityTold h i h1 r1) (t2 : EntityTold h i h2 r2) :
    h1 = h2 ∧ r1 = r2 := by
  have n1 : lit "entities.add" ≠ lit "entities.find" := by decide +kernel
  have n2 : lit "entities.add" ≠ lit "entities.focused_entity" := by decide +kernel
  have n3 : lit "entities.add" ≠ lit "entities.remove_some" := by decide +kernel
  have n4 : lit "entities.find" ≠ lit "entities.focused_entity" := by decide +kernel
  have n5 : lit "entities.find" ≠ lit "entities.remove_some" := by decide +kernel
  have n6 : lit "entities.focused_entity" ≠ lit "entities.remove_some" := by decide +kernel
  have index_one : ∀ {t a b}, IndexText t a → IndexText t b → a = b := by
    intro t a b ha hb
    have hsz : SizeType linux64 .ullong := .inl rfl
    have e1 := (index_iff hsz).2 ⟨t, rfl, ha⟩
    rw [(index_iff hsz).2 ⟨t, rfl, hb⟩] at e1
    simpa using e1.symm
  have i1 := told_inv t1
  have i2 := told_inv t2
  generalize lit "entities.add" = na at *
  generalize lit "entities.find" = nf at *
  generalize lit "entities.focused_entity" = no at *
  generalize lit "entities.remove_some" = nr at *
  clear t1 t2
  rcases i1 with ⟨e, n, ha, rfl, rfl⟩ | ⟨e, n, ha, rfl, hr⟩ | ⟨e, ⟨ha, rfl, rfl⟩ | ⟨t, k, ha, hk, rfl, rfl⟩⟩ | ⟨e, v, ha, rfl, rfl⟩ <;>
    rcases i2 with ⟨e', n', ha', rfl, rfl⟩ | ⟨e', n', ha', rfl, hr'⟩ | ⟨e', ⟨ha', rfl, rfl⟩ | ⟨t', k', ha', hk', rfl, rfl⟩⟩ |
      ⟨e', v', ha', rfl, rfl⟩ <;> rw [e] at e' <;> rw [ha] at ha' <;>
    first
    | exact absurd e' n1 | exact absurd e' n2 | exact absurd e' n3 | exact absurd e' n4 | exact absurd e' n5 | exact absurd e' n6
    | exact absurd e'.symm n1 | exact absurd e'.symm n2 | exact absurd e'.symm n3 | exact absurd e'.symm n4 | exact absurd e'.symm n5
    | exact absurd e'.symm n6 | (exfalso; simp at ha'; done) | skip
  · cases ha'; exact ⟨rfl, rfl⟩
  · cases ha'
    rcases hr with ⟨k, hk, rfl⟩ | ⟨hm, rfl⟩ <;> rcases hr' with ⟨k', hk', rfl⟩ | ⟨hm', rfl⟩
    · rw [firstAt_one hk hk']; exact ⟨rfl, rfl⟩
    · obtain ⟨a, b, hab, _⟩ := hk; exact absurd (by rw [hab]; simp) hm'
    · obtain ⟨a, b, hab, _⟩ := hk'; exact absurd (by rw [hab]; simp) hm
    · exact ⟨rfl, rfl⟩
  · exact ⟨rfl, rfl⟩
  · cases ha'
    rw [index_one hk hk']
    exact ⟨rfl, rfl⟩
  · cases ha'; exact ⟨rfl, rfl⟩

/-! ## Ids -/

/-- **C112.** Where the entity stands that was added after the history `h`: behind those older entities that are still there. -/
theorem C112_position (h later : List Deed) (n : Bytes) (hn : removedIn later n = false) :
    (survivors (h ++ .add n :: later))[((survivors h).filter (fun m => !removedIn later m)).length]? = some n := by
  have e : (fun m => !removedIn (.add n :: later) m) = (fun m => !removedIn later m) := rfl
  rw [survivors_split, e]
  simp [survivors, hn]

/-- **C112.** The id that `entities.add` tells stays right as long as no older entity, nor the entity itself, is removed. Missing for the full claim
(ids are for ever): removals of older entities, see `C112_shift_false`. -/
theorem C112_id_partial (h later : List Deed) (n : Bytes) (hn : removedIn later n = false) (ho : ∀ m ∈ survivors h, removedIn later m = false) :
    EntityTold h ⟨lit "entities.add", [⟨[n]⟩], []⟩ (h ++ [.add n]) (some (idText (survivors h).length)) ∧
      (survivors (h ++ .add n :: later))[(survivors h).length]? = some n := by
  refine ⟨.add, ?_⟩
  have := C112_position h later n hn
  rwa [List.filter_eq_self.2 (by simpa using ho)] at this

/-- **C112.** An id is told by `entities.find` for at most one name. -/
theorem C112_find_one {h : List Deed} {n m : Bytes} {k : Nat} (h1 : FirstAt (survivors h) n k) (h2 : FirstAt (survivors h) m k) : n = m := by
  obtain ⟨a, b, e1, _, rfl⟩ := h1
  obtain ⟨a', b', e2, _, e3⟩ := h2
  have g1 : (survivors h)[a.length]? = some n := by rw [e1]; simp
  have g2 : (survivors h)[a.length]? = some m := by rw [e2, e3]; simp
  exact Option.some.inj (g1.symm.trans g2)

/-- **C112.** The text of an id is never accepted as an id: what the program prints cannot be given back to it. -/
theorem C112_text_false (hsz : SizeType pl sz) (k : Int) : ∃ m, (entityIdConv pl sz).fromString ⟨[(entityIdConv pl sz).toString k]⟩ = .ok (.error m) := by
  have htot : ∃ r, (entityIdConv pl sz).fromString ⟨[(entityIdConv pl sz).toString k]⟩ = .ok r := by
    simp only [entityIdConv]
    obtain ⟨r, hr⟩ := arith_total (name := sz.name pl) (parse := sz.fromString pl) (print := sz.toString) ⟨[(entityIdConv pl sz).toString k]⟩
    have hr' : (intConv pl sz).fromString ⟨[lit "EntityId{" ++ intDec k ++ lit "}"]⟩ = .ok r := hr
    rw [hr']
    cases r <;> exact ⟨_, rfl⟩
  obtain ⟨r, hr⟩ := htot
  cases r with
  | error m => exact ⟨m, hr⟩
  | ok x =>
    obtain ⟨t, ht, hx⟩ := (index_iff hsz).1 hr
    cases ht
    obtain ⟨_, neg, mag, hs, _⟩ := hx
    exact absurd hs (no_numeral k)

/-! ## Examples -/

namespace Usertypes

/-- The program with these lines, on the hash map as it is. -/
abbrev entered (lines : List String) : Res (Sys (UMap Bytes (Command UserCode Unit)) UserWorld UserCode Unit × List ExecOut) :=
  observed (userFunctions linux64 .ulong (fun _ _ => false) (fun _ _ => false)) (mapOps false true overOne) (UMap.create (djb2 true) 1) true 5
    (some (fitting (LexCfg.default true))) UserWorld.start (fixedProgram userTable (lines.map fun l => .line (lit l)))

/-- The answers: errors and return values. -/
abbrev answers (lines : List String) : Res (List (Option (List Bytes × Option Bytes))) :=
  (entered lines).map fun x => x.2.map fun o => o.toOption.map fun r => (r.errors, r.returnValue)

/-- What is left: the names of the entities and the id in focus. -/
abbrev left (lines : List String) : Res (List Bytes × Int) :=
  (entered lines).map fun x => (x.1.user.pool.names, x.1.user.pool.focused)

/-- An answer without errors. -/
abbrev said (t : String) : Option (List Bytes × Option Bytes) := some ([], some (lit t))

/-- An error. -/
abbrev wrong (t : String) : Option (List Bytes × Option Bytes) := some ([lit t], none)

end Usertypes

open Usertypes

/-- **C112**, a witness: the id of an entity changes when an older one is removed; the id that was told before is another entity's, or nobody's. -/
theorem C112_shift_false :
    answers ["entities.add a", "entities.add b", "entities.find b", "entities.remove_some a", "entities.find b"] =
        .ok [said "EntityId{0}", said "EntityId{1}", said "EntityId{1}", some ([], none), said "EntityId{0}"] := by
  decide +kernel

/-- **C112**, a witness: two entities with one name; only the first is found. -/
theorem C112_find_false :
    answers ["entities.add a", "entities.add a", "entities.find a"] = .ok [said "EntityId{0}", said "EntityId{1}", said "EntityId{0}"] := by
  decide +kernel

/-- **C112**, a witness: the focus can be put on an id that no entity has, and stays on an entity's id when the entity is removed. -/
theorem C112_focus_false :
    left ["entities.add a", "entities.focused_entity 7"] = .ok ([lit "a"], 7) ∧
      left ["entities.add a", "entities.add b", "entities.focused_entity 1", "entities.remove_some b"] = .ok ([lit "a"], 1) := by
  refine ⟨?_, ?_⟩ <;> decide +kernel

/-- The lines of the example (UsertypesExample.cpp 222-226). -/
example : answers ["entities.add player", "entities.add coop_player", "entities.add enemy", "entities.focused_entity", "entities.find coop_player",
    "entities.focused_entity 1"] =
    .ok [said "EntityId{0}", said "EntityId{1}", said "EntityId{2}", said "EntityId{0}", said "EntityId{1}", said "EntityId{1}"] := by
  decide +kernel

/-- The lines of the example (UsertypesExample.cpp 227-231). -/
example : answers ["particles.spawn (1, 1) (0.1, 0.1)", "particles.get_pos_at 0.5", "particles.last_particle_pos (1.5, 1.5)",
    "particles.last_particle_pos"] =
    .ok [some ([], none), said "(1.050000, 1.050000)", said "(1.500000, 1.500000)", said "(1.500000, 1.500000)"] := by
  decide +kernel

/-- The lines of the example (UsertypesExample.cpp 234-241). -/
example : answers ["sum 1", "sum 1,2,3", "sum (1 2 3 4 5)", "particles.last_particle_pos (one 2)", "particles.last_particle_pos (1 two)",
    "sum (one two)"] =
    .ok [said "1", said "6", said "15", wrong "Unable to convert 'one 2' to type 'Vec2': Unable to convert 'one' to type 'float'",
      wrong "Unable to convert '1 two' to type 'Vec2': Unable to convert 'two' to type 'float'",
      wrong "Unable to convert 'one two' to type 'DynamicArray<int>': Unable to convert 'one' to type 'int'"] := by
  decide +kernel

/-- The program tells a story: the hypotheses of C111 hold, and what is left is what the history says. -/
example : ∃ outs h', EntityStory (delims (LexCfg.default true)) []
    (["entities.add a", "entities.add b", "entities.focused_entity 1", "entities.remove_some (a c)"].map fun l => .line (lit l)) outs h' ∧
      survivors h' = [lit "b"] ∧ focusAfter h' = 1 := by
  have hleft : left ["entities.add a", "entities.add b", "entities.focused_entity 1", "entities.remove_some (a c)"] = .ok ([lit "b"], 1) := by
    decide +kernel
  have hmap : ∀ {α β : Type} {f : α → β} {x : Res α} {y : β}, x.map f = .ok y → ∃ a, x = .ok a ∧ f a = y := by
    intro α β f x y h
    cases x with
    | ok a => cases h; exact ⟨a, rfl, rfl⟩
    | ub | diverge => cases h
  obtain ⟨⟨s, outs⟩, he, hx⟩ := hmap hleft
  obtain ⟨h', hs, hk⟩ := C111_run (proper_default true) (by intro b hb; simp [overOne]; omega) (.inr ⟨rfl, rfl⟩) he
  have e1 := congrArg Prod.fst hx
  have e2 := congrArg Prod.snd hx
  exact ⟨outs, h', hs, hk.1.symm.trans e1, hk.2.symm.trans e2⟩

/-- An entity that was removed and added again. -/
example : survivors [.add (lit "a"), .add (lit "b"), .remove [lit "a"], .add (lit "a")] = [lit "b", lit "a"] ∧
    removedIn [.remove [lit "a"], .add (lit "a")] (lit "b") = false := by
  refine ⟨?_, ?_⟩ <;> decide +kernel

/-- Texts of indices: with a minus after white space too. -/
example : IndexText (lit "42") 42 ∧ IndexText (lit " -1") 18446744073709551615 ∧ ¬ ∃ k, IndexText (lit "-1") k := by
  have hsz : SizeType linux64 .ullong := .inl rfl
  have go : ∀ {t k}, (entityIdConv linux64 .ullong).fromString ⟨[t]⟩ = .ok (.ok k) → IndexText t k := by
    intro t k h
    obtain ⟨t', ht, hx⟩ := (index_iff hsz).1 h
    cases ht
    exact hx
  refine ⟨go (by decide +kernel), go (by decide +kernel), ?_⟩
  rintro ⟨k, hk, _⟩
  exact hk (by decide +kernel)

end Coil
