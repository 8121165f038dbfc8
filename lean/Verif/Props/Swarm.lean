import Verif.Proofs.Travel
import Verif.Props.Answered
import Verif.Props.Angle

/-!
# The particle system (C113, C114)
-/

namespace Coil
open Spec Floats

variable {tiny : Nat → Nat → Bool} {nan : Fl → Fl → Bool} {name sid : Bytes} {catching charSigned fixed : Bool} {cfg : LexCfg}
  {reqs : List Request} {exceeds : Nat → Nat → Bool} {outs : List ExecOut} {s : Sys (UMap Bytes (Command SwarmCode Unit)) SwarmWorld SwarmCode Unit}

/-- **C113.** Whatever is entered into the program, the commands do what the history says, and at the end every particle is where the history puts it. -/
theorem C113_run (hp : Proper cfg) (hex : ∀ b, 0 < b → exceeds 1 b = false) {fuel : Nat}
    (h : observed (swarmFunctions tiny nan name sid) (mapOps fixed charSigned exceeds) (UMap.create (djb2 charSigned) 1) catching fuel
      (some (fitting cfg)) SwarmWorld.start (fixedProgram swarmTable reqs) = .ok (s, outs)) :
    ∃ h', Chronicle (SwarmTold tiny nan) (delims cfg) [] reqs outs h' ∧ SwarmKeeps nan s.user h' :=
  swarm_telltale.story ((C110_run hp hex swarm_quiet).1 ⟨fuel, s, h, rfl⟩) ⟨rfl, rfl⟩

/-- **C113.** Every request is answered, without undefined behaviour and without an exception. -/
theorem C113_total (hp : Proper cfg) (hex : ∀ b, 0 < b → exceeds 1 b = false) (hr : ∀ r ∈ reqs, Enterable (delims cfg) r) :
    ∃ fuel s outs, observed (swarmFunctions tiny nan name sid) (mapOps fixed charSigned exceeds) (UMap.create (djb2 charSigned) 1) catching fuel
      (some (fitting cfg)) SwarmWorld.start (fixedProgram swarmTable reqs) = .ok (s, outs) ∧ outs.length = reqs.length ∧
      ∀ out ∈ outs, ∃ r, out = .ok r := by
  obtain ⟨outs, w', ht, hl⟩ := C110_total (catching := catching) (w := SwarmWorld.start)
    (swarm_total (tiny := tiny) (nan := nan) (name := name) (sid := sid)) hr
  obtain ⟨fuel, s, h, _⟩ := (C110_run (fixed := fixed) (charSigned := charSigned) hp hex swarm_quiet).2 ht
  refine ⟨fuel, s, outs, h, hl, ?_⟩
  obtain ⟨h', hc, hk⟩ := C113_run hp hex h
  generalize ([] : List SwarmDeed) = h0 at hc
  clear h ht hr hl hk
  induction hc with
  | nil => simp
  | wrong _ _ ih =>
    intro o ho
    rcases List.mem_cons.1 ho with rfl | ho
    · exact ⟨_, rfl⟩
    · exact ih o ho
  | line _ hu _ ih | input hu _ ih =>
    intro o ho
    rcases List.mem_cons.1 ho with rfl | ho
    · exact ⟨_, hu.choose_spec.1⟩
    · exact ih o ho

/-- **C113.** And only these: a line that does not fit, or one with a lone quote in a group, is not answered. -/
theorem C113_iff (hp : Proper cfg) (hex : ∀ b, 0 < b → exceeds 1 b = false) :
    (∃ fuel s outs, observed (swarmFunctions tiny nan name sid) (mapOps fixed charSigned exceeds) (UMap.create (djb2 charSigned) 1) catching fuel
      (some (fitting cfg)) SwarmWorld.start (fixedProgram swarmTable reqs) = .ok (s, outs)) ↔ ∀ r ∈ reqs, Enterable (delims cfg) r :=
  C117_total hp hex swarm_quiet swarm_total

/-- **C113.** What is told is determined by the history and the command. -/
theorem C113_one {h h1 h2 : List SwarmDeed} {i : Input} {r1 r2 : Option Bytes} {o1 o2 : Bytes} (t1 : SwarmTold tiny nan h i h1 r1 o1)
    (t2 : SwarmTold tiny nan h i h2 r2 o2) : h1 = h2 ∧ r1 = r2 ∧ o1 = o2 := swarm_one t1 t2

/-! ## Where the particles are -/

/-- A number that is whole. -/
def Whole (x : Fl) (z : Int) : Prop := Finite .single x ∧ val x = z

/-- The text of a whole number; a zero may be a negative one. -/
def WholeText (z : Int) (t : Bytes) : Prop := t = intDec z ∨ (z = 0 ∧ t = lit "-0")

/-- **C114.** The particle that is found is the first one that was added with the name, and it has made all the steps since. -/
theorem C114_found {earlier later : List SwarmDeed} {id : Bytes} {p v : Point} {named : List Named}
    (hfirst : ∀ p v, SwarmDeed.add id p v ∉ earlier) :
    SwarmTold tiny nan (earlier ++ .add id p v :: later) ⟨lit "particles.get", [⟨[id]⟩], named⟩ (earlier ++ .add id p v :: later)
      (some (moteText (moved nan id p v (stepsOf later)))) [] :=
  .got (first_added hfirst)

/-- **C114.** With whole numbers below a million the answer is exact: position plus velocity times the sum of the steps. -/
theorem C114_whole {earlier later : List SwarmDeed} {id : Bytes} {p v : Point} {named : List Named} {a b c d : Int} {zs : List Int}
    (hfirst : ∀ p v, SwarmDeed.add id p v ∉ earlier) (ha : Whole p.x a) (hb : Whole p.y b) (hc : Whole v.x c) (hd : Whole v.y d)
    (hz : Forall2 Whole (stepsOf later) zs) (hx : a.natAbs + (zs.map fun z => (c * z).natAbs).sum ≤ 999999)
    (hy : b.natAbs + (zs.map fun z => (d * z).natAbs).sum ≤ 999999) (hcl : c.natAbs ≤ 999999) (hdl : d.natAbs ≤ 999999) :
    ∃ tx ty tvx tvy, SwarmTold tiny nan (earlier ++ .add id p v :: later) ⟨lit "particles.get", [⟨[id]⟩], named⟩ (earlier ++ .add id p v :: later)
        (some (lit "{'" ++ id ++ lit "': p " ++ ([40] ++ tx ++ [44] ++ ty ++ [41]) ++ lit ", v " ++ ([40] ++ tvx ++ [44] ++ tvy ++ [41]) ++ lit "}")) [] ∧
      WholeText (a + c * zs.sum) tx ∧ WholeText (b + d * zs.sum) ty ∧ WholeText c tvx ∧ WholeText d tvy := by
  obtain ⟨x1, x2⟩ := travel_whole (nan := nan) hc.1 hc.2 (stepsOf later) zs p.x a ha.1 ha.2 hz (by omega)
  obtain ⟨y1, y2⟩ := travel_whole (nan := nan) hd.1 hd.2 (stepsOf later) zs p.y b hb.1 hb.2 hz (by omega)
  have hs : ∀ w : Int, (w * zs.sum).natAbs ≤ (zs.map fun z => (w * z).natAbs).sum := by
    intro w
    clear hz hx hy x2 y2
    induction zs with
    | nil => simp
    | cons z zs ih =>
      simp only [List.sum_cons, List.map_cons, Int.mul_add]
      omega
  have hsc := hs c
  have hsd := hs d
  exact ⟨_, _, _, _, C114_found hfirst, whole_text x1 x2 (by omega), whole_text y1 y2 (by omega), whole_text hc.1 hc.2 hcl, whole_text hd.1 hd.2 hdl⟩

/-- The bound for the error after steps: each step loses at most one part in four millions, and a ten-millionth. -/
def lost (x v : ℚ) (steps : List ℚ) : ℚ :=
  ((1 + 1 / 2 ^ 22) ^ steps.length - 1) * (|x| + absSum (steps.map fun dt => v * dt)) + steps.length * (1 + 1 / 2 ^ 22) ^ steps.length / 10 ^ 7

/-- **C114.** In general each coordinate is where it should be up to the error of the steps, and printed with six digits. Missing for the full claim
(the position is exact up to the digits printed, however the time is divided): the loss grows with the steps, see `C114_split_false`. -/
theorem C114_error_partial {x v : Fl} {steps : List Fl} (hx : Finite .single x) (hv : Finite .single v) (ht : ∀ dt ∈ steps, Finite .single dt)
    (hg : 3 * ((1 + 1 / 2 ^ 22) ^ steps.length * (|val x| + absSum (steps.map fun dt => val v * val dt) + steps.length / 10 ^ 7)) ≤ greatest .single) :
    ∃ r, ReadsNumber (Fl.printG (travel nan x v steps)) r ∧
      |r - (val x + val v * (steps.map val).sum)| ≤
        lost (val x) (val v) (steps.map val) + 5 / 10 ^ 6 * (|val x + val v * (steps.map val).sum| + lost (val x) (val v) (steps.map val)) := by
  obtain ⟨h1, h2⟩ := travel_error (nan := nan) hv steps x hx ht hg
  have h2' : |val (travel nan x v steps) - (val x + val v * (steps.map val).sum)| ≤ lost (val x) (val v) (steps.map val) := by
    refine h2.trans (le_of_eq ?_)
    simp only [lost, List.length_map, List.map_map]
    rfl
  obtain ⟨r, h3, h4⟩ := printG_accuracy h1
  refine ⟨r, h3, ?_⟩
  have a1 := abs_sub_le r (val (travel nan x v steps)) (val x + val v * (steps.map val).sum)
  have a2 := abs_sub_abs_le_abs_sub (val (travel nan x v steps)) (val x + val v * (steps.map val).sum)
  linarith

/-! ## Examples -/

namespace Compound

/-- The program with these lines, on the hash map as it is. -/
abbrev entered (lines : List String) : Res (Sys (UMap Bytes (Command SwarmCode Unit)) SwarmWorld SwarmCode Unit × List ExecOut) :=
  observed (swarmFunctions (fun _ _ => false) (fun _ _ => false) (lit "Point") (lit "Particle")) (mapOps false true overOne) (UMap.create (djb2 true) 1)
    true 5 (some (fitting (LexCfg.default true))) SwarmWorld.start (fixedProgram swarmTable (lines.map fun l => .line (lit l)))

/-- The answers: errors, and return value or output. -/
abbrev answers (lines : List String) : Res (List (Option (List Bytes × Bytes))) :=
  (entered lines).map fun x => x.2.map fun o => o.toOption.map fun r => (r.errors, r.returnValue.getD r.output)

/-- An answer without errors. -/
abbrev said (t : String) : Option (List Bytes × Bytes) := some ([], lit t)

/-- An error. -/
abbrev wrong (t : String) : Option (List Bytes × Bytes) := some ([lit t], [])

end Compound

open Compound

/-- **C114**, a witness: two steps of 1 are not one step of 2. -/
theorem C114_split_false :
    answers ["particles.add p 16777216,0 1,0", "particles.update 1", "particles.update 1", "particles.update -16777216", "particles.get p"] =
        .ok [said "", said "", said "", said "", said "{'p': p (0,0), v (1,0)}"] ∧
      answers ["particles.add p 16777216,0 1,0", "particles.update 2", "particles.update -16777216", "particles.get p"] =
        .ok [said "", said "", said "", said "{'p': p (2,0), v (1,0)}"] := by
  refine ⟨?_, ?_⟩ <;> decide +kernel

/-- The lines of the example (CompoundExample.cpp 151-158). -/
example : answers ["particles.add p1 1,1 1,1", "particles.add p2 0,1 1,0", "particles.add p3 1,0 0,1", "particles.list", "particles.update 2.0",
    "particles.list", "particles.get p2", "particles.get unknown_particle"] =
    .ok [said "", said "", said "", said "ID\tPos\tVel\n--\t---\t---\np1\t(1,1)\t(1,1)\np2\t(0,1)\t(1,0)\np3\t(1,0)\t(0,1)\n", said "",
      said "ID\tPos\tVel\n--\t---\t---\np1\t(3,3)\t(1,1)\np2\t(2,1)\t(1,0)\np3\t(1,2)\t(0,1)\n", said "{'p2': p (2,1), v (1,0)}", said "null"] := by
  decide +kernel

/-- The lines of the example (CompoundExample.cpp 161-176). -/
example : answers ["pivot", "pivot (1 1)", "pivot (1.5, 1.5)", "pivot (1.5 , 1.5)", "pivot (1.5 ; 1.5)", "pivot (1.5 1.5)", "pivot (1.5,1.5)",
    "pivot (1.5;1.5)", "pivot (1.5 | 1.5)", "pivot 1.5,1.5", "pivot 1.5;1.5", "pivot 1.5|1.5"] =
    .ok [said "(0,0)", said "(1,1)", said "(1.5,1.5)", said "(1.5,1.5)", said "(1.5,1.5)", said "(1.5,1.5)", said "(1.5,1.5)", said "(1.5,1.5)",
      said "(1.5,1.5)", said "(1.5,1.5)", said "(1.5,1.5)", said "(1.5,1.5)"] := by
  decide +kernel

/-- The lines of the example (CompoundExample.cpp 179-181). -/
example : answers ["pivot 1 1", "pivot (1, 1, 1)", "pivot (1)"] =
    .ok [wrong "Wrong number of arguments to 'pivot': expected 0 or 1, got 2",
      wrong "Unable to convert '1 1 1' to type 'Point': Expected 2 subvalues, got 3",
      wrong "Unable to convert '1' to type 'Point': Expected 2 subvalues, got 1"] := by
  decide +kernel

/-- The lines of the example (CompoundExample.cpp 184-190). -/
example : answers ["sum_all ()", "sum_all (1)", "sum_all (1 2 3)", "sum_all 1,2,3,5,8", "get_arg_or_pi 1", "get_arg_or_pi 2", "get_arg_or_pi ()"] =
    .ok [said "0", said "1", said "6", said "19", said "1", said "2", said "3.14"] := by
  decide +kernel

/-- The program tells a story: the hypotheses of C113 hold, and what is left is what the history says. -/
example : ∃ outs h', Chronicle (SwarmTold (fun _ _ => false) (fun _ _ => false)) (delims (LexCfg.default true)) []
    (["particles.add a 1,2 3,4", "particles.update 2", "pivot 5,6"].map fun l => .line (lit l)) outs h' ∧
      (swarm (fun _ _ => false) h').map Mote.text = [lit "{'a': p (7,10), v (3,4)}"] ∧ pointText (pivotAfter h') = lit "(5,6)" := by
  have hleft : ((entered ["particles.add a 1,2 3,4", "particles.update 2", "pivot 5,6"]).map fun x => (x.1.user.motes.map Mote.text, pointText x.1.user.pivot)) =
      .ok ([lit "{'a': p (7,10), v (3,4)}"], lit "(5,6)") := by decide +kernel
  have hmap : ∀ {α β : Type} {f : α → β} {x : Res α} {y : β}, x.map f = .ok y → ∃ a, x = .ok a ∧ f a = y := by
    intro α β f x y h
    cases x with
    | ok a => cases h; exact ⟨a, rfl, rfl⟩
    | ub | diverge => cases h
  obtain ⟨⟨s, outs⟩, he, hx⟩ := hmap hleft
  obtain ⟨h', hs, hk⟩ := C113_run (proper_default true) (by intro b hb; simp [overOne]; omega) he
  have e1 := congrArg Prod.fst hx
  have e2 := congrArg Prod.snd hx
  dsimp only at e1 e2
  rw [hk.1] at e1
  rw [hk.2] at e2
  exact ⟨outs, h', hs, e1, e2⟩

/-- Whole numbers, as C114_whole wants them. -/
example : Whole (.fin false 12582912 (-22)) 3 ∧ Whole (.fin true 10485760 (-20)) (-10) ∧ WholeText (3 + -10 * (2 + 4)) (lit "-57") := by
  refine ⟨⟨⟨false, _, _, rfl, ?_⟩, ?_⟩, ⟨⟨true, _, _, rfl, ?_⟩, ?_⟩, .inl (by decide +kernel)⟩
  · constructor <;> norm_num [Fmt.single, Stored]
  · norm_num [val, finVal, mag]
  · constructor <;> norm_num [Fmt.single, Stored]
  · norm_num [val, finVal, mag]

end Coil
