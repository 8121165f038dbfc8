import Verif.Proofs.RefusalEncapsulation
import Verif.Props.Encapsulation

/-!
# All answers of the program of examples/encapsulation (C131)
-/

namespace Coil
open Spec Fl Floats

variable {pl : Platform} {tiny : Nat → Nat → Bool} {size : Bytes} {catching charSigned : Bool} {cfg : LexCfg} {reqs before after : List Request}
  {r : Request} {i : Input} {es : List Bytes}

/-- **C131.** Whatever the user enters, the program goes on and answers in the way of `SubTale`, with the repaired hash map. -/
theorem C131_run (hp : Proper cfg) {exceeds : Nat → Nat → Bool} (hex : ∀ b, 0 < b → exceeds 1 b = false) (hr : ∀ r ∈ reqs, Enterable (delims cfg) r) :
    ∃ fuel s outs g, observed (subFunctions pl tiny) (mapOps true charSigned exceeds) (UMap.create (djb2 charSigned) 1) catching fuel
        (some (fitting cfg)) SubWorld.start (subSetup ++ reqs.map .exec) = .ok (s, outs) ∧
      SubTale (delims cfg) pl tiny size Stage.empty reqs outs g ∧ Fitting s.user g := by
  obtain ⟨outs, σ, g, h1, h2, h3⟩ := tale_all (pl := pl) (tiny := tiny) (size := size) (catching := catching) hr (staged_start rfl (delims cfg))
  obtain ⟨fuel, s, h4, h5⟩ := C89_complete (charSigned := charSigned) hp hex (acts := subSetup ++ reqs.map .exec) (.add (.add h1))
  exact ⟨fuel, s, outs, g, h4, h3, by rw [h5.user]; exact h2.fits⟩

/-- **C131.** The same with the hash map as it is. -/
theorem C131_as_is (hp : Proper cfg) (hr : ∀ r ∈ reqs, Enterable (delims cfg) r) :
    ∃ fuel s outs g, observed (subFunctions pl tiny) (mapOps false charSigned overOne) (UMap.create (djb2 charSigned) 1) catching fuel
        (some (fitting cfg)) SubWorld.start (subSetup ++ reqs.map .exec) = .ok (s, outs) ∧
      SubTale (delims cfg) pl tiny size Stage.empty reqs outs g ∧ Fitting s.user g := by
  obtain ⟨outs, σ, g, h1, h2, h3⟩ := tale_all (pl := pl) (tiny := tiny) (size := size) (catching := catching) hr (staged_start rfl (delims cfg))
  obtain ⟨fuel, s, h4, h5⟩ := (C108_programs (charSigned := charSigned) (exceeds := overOne) hp (acts := subSetup ++ reqs.map .exec)).2
    (.add (.add h1)) (chapters_traced h2.changes)
  exact ⟨fuel, s, outs, g, h4, h3, by rw [h5.user]; exact h2.fits⟩

/-- **C131.** The requests and the first stage determine all answers and the last stage. -/
theorem C131_one (hp : Proper cfg) {σ σ1 σ2 : Stage} {outs1 outs2 : List ExecOut} (h1 : SubTale (delims cfg) pl tiny size σ reqs outs1 σ1)
    (h2 : SubTale (delims cfg) pl tiny size σ reqs outs2 σ2) : outs1 = outs2 ∧ σ1 = σ2 := tale_one hp h1 h2

/-- **C131.** After whatever was entered, a command is carried out or refused, not both; it is refused exactly if it is not understood. -/
theorem C131_either {g : Stage} {outs : List ExecOut} (h : SubTale (delims cfg) pl tiny size Stage.empty reqs outs g) (i : Input) :
    ((∃ es, Declined pl tiny size g.signatures i es) ↔ ¬ ∃ σ v, Accepted pl tiny g i σ v) ∧
      ((∃ σ v, Accepted pl tiny g i σ v) ↔ Understood pl tiny size g.signatures i) := by
  have hu := tale_usable h (fun h => by cases h)
  refine ⟨⟨?_, fun hn => ?_⟩, fun ⟨_, _, h⟩ => accepted_understood h, understood_accepted hu⟩
  · rintro ⟨es, hd⟩ ⟨_, _, ha⟩
    exact declined_not (stage_signatures (j := 0)) hd (accepted_understood ha)
  · rcases sub_either (pl := pl) (tiny := tiny) (size := size) (g := g) i with h | h
    · exact h
    · exact absurd (understood_accepted hu h) hn

/-- **C131.** A command that is refused may be left out or put in anywhere: the other answers and the subsystem are the same. -/
theorem C131_skipped (hp : Proper cfg) (hb : ∀ r ∈ before, Enterable (delims cfg) r) (ha : ∀ r ∈ after, Enterable (delims cfg) r)
    (hr : Enterable (delims cfg) r) (hi : Asks (delims cfg) r i) :
    ∃ g1 o1, SubTale (delims cfg) pl tiny size Stage.empty before o1 g1 ∧ ∀ es, Declined pl tiny size g1.signatures i es →
      ∃ fuel s fuel' s' o2 g,
        observed (subFunctions pl tiny) (mapOps false charSigned overOne) (UMap.create (djb2 charSigned) 1) catching fuel
          (some (fitting cfg)) SubWorld.start (subSetup ++ (before ++ r :: after).map .exec) = .ok (s, o1 ++ .ok ⟨i, es, none, []⟩ :: o2) ∧
        observed (subFunctions pl tiny) (mapOps false charSigned overOne) (UMap.create (djb2 charSigned) 1) catching fuel'
          (some (fitting cfg)) SubWorld.start (subSetup ++ (before ++ after).map .exec) = .ok (s', o1 ++ o2) ∧ Fitting s.user g ∧ Fitting s'.user g := by
  have e1 : ∀ r' ∈ before ++ after, Enterable (delims cfg) r' := fun r' h => (List.mem_append.1 h).elim (hb r') (ha r')
  have e2 : ∀ r' ∈ before ++ r :: after, Enterable (delims cfg) r' := by
    intro r' h
    rcases List.mem_append.1 h with h | h
    · exact hb r' h
    · rcases List.mem_cons.1 h with rfl | h
      · exact hr
      · exact ha r' h
  obtain ⟨fuel', s', outs', g', h1, h2, h3⟩ := C131_as_is (pl := pl) (tiny := tiny) (size := size) (catching := catching) (charSigned := charSigned) hp e1
  obtain ⟨fuel, s, outs, g, k1, k2, k3⟩ := C131_as_is (pl := pl) (tiny := tiny) (size := size) (catching := catching) (charSigned := charSigned) hp e2
  obtain ⟨o1, o2, g1, rfl, t1, t2⟩ := tale_split h2
  refine ⟨g1, o1, t1, fun es hd => ?_⟩
  obtain ⟨rfl, rfl⟩ := tale_one hp k2 ((tale_skip hp t1 hi hd).2 h2)
  exact ⟨fuel, s, fuel', s', o2, g, k1, h1, k3, h3⟩

/-! ## Examples -/

/-- A variable before and after the subsystem is made, with a bad number, with too many arguments; a call with two bad arguments. -/
example : Encapsulation.answers ["subsystem.counter x", "create_subsystem", "subsystem.counter x", "subsystem.counter 1 2", "subsystem.do_some_work (a b) c",
      "subsystem.do_some_work 1", "subsystem.time 1,2", "create_subsystem now", "subsystem.counter"] =
    .ok [some ([lit "No function 'subsystem.counter' is registered"], none), some ([], none),
      some ([lit "Unable to convert 'x' to type 'int'"], none), some ([lit "Wrong number of arguments to 'subsystem.counter': expected 0 or 1, got 2"], none),
      some ([lit "Unable to convert 'a b' to type 'string': Expected 1 subvalues, got 2", lit "Unable to convert 'c' to type 'int'"], none),
      some ([lit "Wrong number of arguments to 'subsystem.do_some_work': expected 2, got 1"], none),
      some ([lit "Unable to convert '1 2' to type 'float': Expected 1 subvalues, got 2"], none),
      some ([lit "Wrong number of arguments to 'create_subsystem': expected 0, got 1"], none), some ([], some (lit "7"))] := by
  decide +kernel

/-- The same command is refused with two answers, at two stages. -/
example : Declined pl tiny size (Stage.signatures ⟨none, false⟩) ⟨lit "subsystem.data", [⟨[]⟩], []⟩ [lit "No function 'subsystem.data' is registered"] ∧
    Declined pl tiny size (Stage.signatures ⟨some Part.fresh, true⟩) ⟨lit "subsystem.data", [⟨[]⟩], []⟩
      [lit "Unable to convert '' to type 'string': Expected 1 subvalues, got 0"] := by
  constructor
  · have : lit "No function 'subsystem.data' is registered" = lit "No function '" ++ upToNul (lit "subsystem.data") ++ lit "' is registered" := by decide +kernel
    rw [this]
    exact .unknown (by dsimp only; decide +kernel) rfl
  · refine .arguments (kss := [[], [.text]]) (ks := [.text]) (by dsimp only; decide +kernel) rfl ⟨[[]], [], rfl, rfl, by simp⟩ ?_ (by simp)
    have : lit "Unable to convert '' to type 'string': Expected 1 subvalues, got 0" = wrongParts ⟨[]⟩ (lit "string") 1 := by decide +kernel
    rw [this]
    exact .said (.text (by simp)) .nil

end Coil
