import Verif.Proofs.UserProgram
import Verif.Props.Answered

/-!
# The program of examples/usertypes (C126)
-/

namespace Coil
open Spec Fl Floats

variable {pl : Platform} {sz : IntType} {tiny : Nat → Nat → Bool} {nan : Fl → Fl → Bool} {catching charSigned fixed : Bool} {cfg : LexCfg}
  {reqs : List Request} {exceeds : Nat → Nat → Bool} {outs : List ExecOut} {s : Sys (UMap Bytes (Command UserCode Unit)) UserWorld UserCode Unit}
  {fuel : Nat}

theorem user_begins : UserKeeps UserWorld.start userBeginning := ⟨⟨rfl, rfl⟩, rfl⟩

/-- **C126.** Whatever is entered, the commands do what is told. -/
theorem C126_run (hp : Proper cfg) (hex : ∀ b, 0 < b → exceeds 1 b = false) (hsz : SizeType pl sz)
    (h : observed (userFunctions pl sz tiny nan) (mapOps fixed charSigned exceeds) (UMap.create (djb2 charSigned) 1) catching fuel
      (some (fitting cfg)) UserWorld.start (fixedProgram userTable reqs) = .ok (s, outs)) :
    ∃ h', Annals (UserTold pl tiny nan) catching (delims cfg) userBeginning reqs outs h' ∧ UserKeeps s.user h' := by
  obtain ⟨h', g1, g2⟩ := (user_accounts hsz).annals ((C110_run hp hex user_quiet).1 ⟨fuel, s, h, rfl⟩) user_begins
  exact ⟨h', g1, g2⟩

/-- **C126, partial.** When the program answers: exactly if every line fits and has no lone quote in a group and no `sum` overflows on its way. The
full claim, that it always answers, is false: see `C126_total_false`. -/
theorem C126_total_partial (hp : Proper cfg) (hex : ∀ b, 0 < b → exceeds 1 b = false) :
    (∃ fuel s outs, observed (userFunctions pl sz tiny nan) (mapOps fixed charSigned exceeds) (UMap.create (djb2 charSigned) 1) catching fuel
      (some (fitting cfg)) UserWorld.start (fixedProgram userTable reqs) = .ok (s, outs)) ↔
    ∀ r ∈ reqs, Enterable (delims cfg) r ∧ ∀ i, Enters (delims cfg) r i → ¬ UserTrouble pl i := by
  rw [C117_iff hp hex user_quiet user_steady trivial]
  simp only [user_answerable]

/-- **C126.** The particle is where it was put: after `particles.spawn`, whatever is entered that does not move the particle, `particles.get_pos_at` tells
the position for the given time, starting from the position and with the velocity it was spawned with. -/
theorem C126_where (hp : Proper cfg) (hex : ∀ b, 0 < b → exceeds 1 b = false) (hsz : SizeType pl sz) {more : List Request} {v u : Value} {p q : Vec2}
    {t : Bytes} {x : Fl} {named named' : List Named}
    (h : observed (userFunctions pl sz tiny nan) (mapOps fixed charSigned exceeds) (UMap.create (djb2 charSigned) 1) catching fuel
      (some (fitting cfg)) UserWorld.start (fixedProgram userTable ((reqs ++ [.input ⟨lit "particles.spawn", [v, u], named⟩]) ++ more ++
        [.input ⟨lit "particles.get_pos_at", [⟨[t]⟩], named'⟩])) = .ok (s, outs))
    (hv : ReadsVec tiny v p) (hu : ReadsVec tiny u q) (ht : ReadsFloat tiny t x)
    (hm : ∀ r ∈ more, ∀ i, Enters (delims cfg) r i → ¬ MovesParticle i) :
    ∃ before r text, outs = before ++ [.ok r] ∧ r.errors = [] ∧ r.returnValue = some text ∧
      PairText ⟨Fl.add .single nan p.x (Fl.mul .single nan q.x x), Fl.add .single nan p.y (Fl.mul .single nan q.y x)⟩ text := by
  obtain ⟨h', ha, _⟩ := C126_run hp hex hsz h
  obtain ⟨h3, o3, out, ha1, rfl, hlast⟩ := annals_last ha
  obtain ⟨h2, o2, o2', rfl, _, ha2, hmid⟩ := annals_split ha1
  obtain ⟨h1, o1, out1, _, _, hfirst⟩ := annals_last ha2
  have b2 : h2.pos = p ∧ h2.vel = q := by
    rcases hfirst with ⟨o, hd, _⟩ | ⟨hno, _⟩
    · generalize hi : (⟨lit "particles.spawn", [v, u], named⟩ : Input) = i at hd
      cases hd with
      | spawn g1 g2 =>
        cases hi
        have e1 := (vec_iff.2 hv).symm.trans (vec_iff.2 g1)
        have e2 := (vec_iff.2 hu).symm.trans (vec_iff.2 g2)
        simp only [Res.ok.injEq, Except.ok.injEq] at e1 e2
        exact ⟨e1.symm, e2.symm⟩
      | entity hd => cases hd <;> exact absurd (congrArg GInput.name hi) (by dsimp only; decide +kernel)
      | posAt | pos | setPos | sum => exact absurd (congrArg GInput.name hi) (by dsimp only; decide +kernel)
    · exact absurd ⟨_, _, .spawn hv hu⟩ hno
  have b3 : h3.pos = p ∧ h3.vel = q := by
    refine annals_kept (I := fun h => h.pos = p ∧ h.vel = q) hmid ?_ b2
    intro r hr i hi h h' o hI hd
    have hn := hm r hr i hi
    cases hd with
    | spawn => exact absurd (.inl ⟨rfl, rfl⟩) hn
    | setPos => exact absurd (.inr ⟨rfl, rfl⟩) hn
    | entity | posAt | pos | sum => exact hI
  rcases hlast with ⟨o, hd, hs⟩ | ⟨hno, _⟩
  · generalize hi : (⟨lit "particles.get_pos_at", [⟨[t]⟩], named'⟩ : Input) = i at hd
    cases hd with
    | posAt g1 g2 =>
      cases hi
      have e1 := ht.symm.trans g1
      simp only [Res.ok.injEq, Except.ok.injEq] at e1
      subst e1
      obtain ⟨r, rfl, r1, r2, _⟩ := hs
      refine ⟨_, r, _, rfl, r1, r2, ?_⟩
      unfold UserHistory.at_ at g2
      rwa [b3.1, b3.2] at g2
    | entity hd => cases hd <;> exact absurd (congrArg GInput.name hi) (by dsimp only; decide +kernel)
    | spawn | pos | setPos | sum => exact absurd (congrArg GInput.name hi) (by dsimp only; decide +kernel)
  · exact absurd ⟨_, _, .posAt ht (pairText (tiny := tiny) _)⟩ hno

/-- **C126.** The commands for entities and those for the particle do not interfere: if no command for entities is entered, there are still no entities
and the focus is where it was, and if the particle is not moved, it still rests at the origin. -/
theorem C126_apart (hp : Proper cfg) (hex : ∀ b, 0 < b → exceeds 1 b = false) (hsz : SizeType pl sz)
    (h : observed (userFunctions pl sz tiny nan) (mapOps fixed charSigned exceeds) (UMap.create (djb2 charSigned) 1) catching fuel
      (some (fitting cfg)) UserWorld.start (fixedProgram userTable reqs) = .ok (s, outs)) :
    ((∀ r ∈ reqs, ∀ i, Enters (delims cfg) r i → i.name ∉ entityNames) → s.user.pool = UserWorld.start.pool) ∧
    ((∀ r ∈ reqs, ∀ i, Enters (delims cfg) r i → ¬ MovesParticle i) → s.user.particle = UserWorld.start.particle) := by
  obtain ⟨h', ha, hk⟩ := C126_run hp hex hsz h
  constructor
  · intro hno
    have := annals_kept (I := fun h => h.deeds = []) ha (by
      intro r hr i hi h h' o hI hd
      have hn := hno r hr i hi
      cases hd with
      | entity hd => exact absurd (by cases hd <;> (dsimp only; decide +kernel)) hn
      | spawn | setPos | posAt | pos | sum => exact hI) rfl
    obtain ⟨⟨k1, k2⟩, _⟩ := hk
    rw [this] at k1 k2
    generalize s.user = w at *
    obtain ⟨⟨n, f⟩, _⟩ := w
    dsimp only at k1 k2
    rw [k1, k2]
    rfl
  · intro hno
    have := annals_kept (I := fun h => h.pos = userBeginning.pos ∧ h.vel = userBeginning.vel) ha (by
      intro r hr i hi h h' o hI hd
      have hn := hno r hr i hi
      cases hd with
      | spawn => exact absurd (.inl ⟨rfl, rfl⟩) hn
      | setPos => exact absurd (.inr ⟨rfl, rfl⟩) hn
      | entity | posAt | pos | sum => exact hI) ⟨rfl, rfl⟩
    rw [hk.2, this.1, this.2]
    rfl

/-! ## Examples -/

namespace User126

/-- The program with these lines, on the hash map as it is. -/
abbrev entered (lines : List String) : Res (Sys (UMap Bytes (Command UserCode Unit)) UserWorld UserCode Unit × List ExecOut) :=
  observed (userFunctions linux64 .ulong (fun _ _ => true) (fun _ _ => false)) (mapOps false true overOne) (UMap.create (djb2 true) 1) true 5
    (some (fitting (LexCfg.default true))) UserWorld.start (fixedProgram userTable (lines.map fun l => .line (lit l)))

/-- The answers: errors and return value. -/
abbrev answers (lines : List String) : Res (List (Option (List Bytes × Option Bytes))) :=
  (entered lines).map fun x => x.2.map fun o => o.toOption.map fun r => (r.errors, r.returnValue)

abbrev said (t : String) : Option (List Bytes × Option Bytes) := some ([], some (lit t))

abbrev done : Option (List Bytes × Option Bytes) := some ([], none)

abbrev wrong (ts : List String) : Option (List Bytes × Option Bytes) := some (ts.map lit, none)

end User126

open User126

/-- **C126**, witnesses: a sum that is too great, and one that is too great only on the way. -/
theorem C126_total_false : answers ["sum 2147483647,1"] = .ub .intOverflow ∧ answers ["entities.add x", "sum (2147483647 1 -1)"] = .ub .intOverflow ∧
    answers ["sum (2147483647 -1 1)"] = .ok [said "2147483647"] := by
  refine ⟨?_, ?_, ?_⟩ <;> decide +kernel

/-- Lines of the example (UsertypesExample.cpp 222-241). -/
example : answers ["entities.add player", "entities.add coop_player", "entities.focused_entity", "entities.find coop_player",
      "entities.focused_entity 1", "particles.spawn (1, 1) (0.1, 0.1)", "particles.get_pos_at 0.5", "particles.last_particle_pos (1.5, 1.5)",
      "particles.last_particle_pos", "sum 1,2,3", "particles.last_particle_pos (one 2)", "sum (one two)"] =
    .ok [said "EntityId{0}", said "EntityId{1}", said "EntityId{0}", said "EntityId{1}", said "EntityId{1}", done, said "(1.050000, 1.050000)",
      said "(1.500000, 1.500000)", said "(1.500000, 1.500000)", said "6",
      wrong ["Unable to convert 'one 2' to type 'Vec2': Unable to convert 'one' to type 'float'"],
      wrong ["Unable to convert 'one two' to type 'DynamicArray<int>': Unable to convert 'one' to type 'int'"]] := by
  decide +kernel

/-- The hypotheses of `C126_where` hold: values of the example, with other commands in between. -/
example : (∃ p, ReadsVec (fun _ _ => true) ⟨[lit "1", lit "1"]⟩ p) ∧ (∃ x, ReadsFloat (fun _ _ => true) (lit "0.5") x) ∧
    ¬ MovesParticle ⟨lit "entities.add", [⟨[lit "x"]⟩], []⟩ ∧ ¬ MovesParticle ⟨lit "particles.last_particle_pos", [], []⟩ := by
  refine ⟨⟨⟨.fin false 8388608 (-23), .fin false 8388608 (-23)⟩, _, _, rfl, ?_, ?_⟩, ⟨.fin false 8388608 (-24), ?_⟩, ?_, ?_⟩
  · unfold ReadsFloat; decide +kernel
  · unfold ReadsFloat; decide +kernel
  · unfold ReadsFloat; decide +kernel
  · unfold MovesParticle; decide +kernel
  · unfold MovesParticle; decide +kernel

end Coil
