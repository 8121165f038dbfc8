import Verif.Proofs.Growing
import Verif.Props.Fixed
import Verif.Props.NamesOnly

/-!
# Programs whose commands make commands (C127)
-/

namespace Coil
open Spec

variable {W C D : Type} {P : C → FunctorDef W C D} {catching charSigned fixed : Bool} {T : Table C D} {cfg : LexCfg} {reqs : List Request}
  {exceeds : Nat → Nat → Bool} {w : W} {outs : List ExecOut}

/-- **C127.** A program that registers a table of commands, which add commands and remove none, and then executes what it is given: what it does is a
conversation with a growing table, with the hash map as it is as well as with the repaired one. At the end the registry holds the table. -/
theorem C127_sound (hp : Proper cfg) (hex : ∀ b, 0 < b → exceeds 1 b = false) (hq : AllGrowing P) {fuel : Nat}
    {s : Sys (UMap Bytes (Command C D)) W C D}
    (h : observed P (mapOps fixed charSigned exceeds) (UMap.create (djb2 charSigned) 1) catching fuel (some (fitting cfg)) w
        (fixedProgram T reqs) = .ok (s, outs)) :
    ∃ S', Growth P catching (delims cfg) ⟨T, w⟩ reqs outs S' ∧ s.user = S'.user ∧
      ∀ n, ∃ c, bindingsGet (mapOps fixed charSigned exceeds) s n = .ok c ∧
        c.map (fun c => c.functors.map (fun f => (f.code, f.data))) = S'.table.functions n := by
  have hadds : ∀ ev ∈ s.history, ∃ n fs, ev = .added n fs := by
    have h := h
    simp only [observed] at h
    obtain ⟨m, _, hm⟩ := Res.bind_eq_ok.1 h
    exact growing_history hq hm (by simp [freshSys])
  obtain ⟨σ, h6, h7⟩ := (C108_programs (charSigned := charSigned) (exceeds := exceeds) hp (acts := fixedProgram T reqs)).1 h
    (C108_safe hex (.inr (adds_safe hadds)))
  obtain ⟨S', h1, h2⟩ := growth_of_acts hq (stands_start T (delims cfg) w) (acts_adding.1 h6)
  refine ⟨S', h1, h7.user.trans h2.user, fun n => ⟨_, h7.commands n, ?_⟩⟩
  rw [Option.map_map]
  exact h2.tabled.commands n

/-- **C127.** And every such conversation takes place. -/
theorem C127_complete (hp : Proper cfg) (hex : ∀ b, 0 < b → exceeds 1 b = false) {S' : Standing W C D}
    (h : Growth P catching (delims cfg) ⟨T, w⟩ reqs outs S') :
    ∃ fuel s, observed P (mapOps fixed charSigned exceeds) (UMap.create (djb2 charSigned) 1) catching fuel (some (fitting cfg)) w
        (fixedProgram T reqs) = .ok (s, outs) ∧ s.user = S'.user := by
  obtain ⟨σ, h1, h2⟩ := acts_of_growth h (stands_start T (delims cfg) w)
  obtain ⟨fuel, s, h6, h7⟩ := (C108_programs (charSigned := charSigned) (exceeds := exceeds) hp (acts := fixedProgram T reqs)).2
    (acts_adding.2 h1) (C108_safe hex (.inr (adds_safe h2.adds)))
  exact ⟨fuel, s, h6, h7.user.trans h2.user⟩

/-- **C127.** When such a program answers: if it has answered the requests up to now, it answers one more exactly if that line fits and has no lone quote in
a group, and the command that is entered can be answered as things stand. -/
theorem C127_next (hp : Proper cfg) (hex : ∀ b, 0 < b → exceeds 1 b = false) (hq : AllGrowing P) {S : Standing W C D}
    (h : Growth P catching (delims cfg) ⟨T, w⟩ reqs outs S) (r : Request) :
    (∃ fuel s outs, observed P (mapOps fixed charSigned exceeds) (UMap.create (djb2 charSigned) 1) catching fuel (some (fitting cfg)) w
      (fixedProgram T (reqs ++ [r])) = .ok (s, outs)) ↔
    Enterable (delims cfg) r ∧ ∀ i, Enters (delims cfg) r i → Responsive P S i := by
  rw [← growth_one (catching := catching) hp]
  constructor
  · rintro ⟨fuel, s', outs', h'⟩
    obtain ⟨S', h1, _⟩ := C127_sound hp hex hq h'
    obtain ⟨o1, o2, S1, _, g1, g2⟩ := growth_split h1
    obtain ⟨_, rfl⟩ := growth_unique hp h g1
    exact ⟨_, _, g2⟩
  · rintro ⟨o2, S2, g⟩
    obtain ⟨fuel, s', h', _⟩ := C127_complete (fixed := fixed) (charSigned := charSigned) hp hex (growth_join h g)
    exact ⟨fuel, s', _, h'⟩

/-- **C127.** A conversation is determined by what the user enters, and its beginnings are conversations. -/
theorem C127_one (hp : Proper cfg) {S S1 S2 : Standing W C D} {o1 o2 : List ExecOut} :
    (Growth P catching (delims cfg) S reqs o1 S1 → Growth P catching (delims cfg) S reqs o2 S2 → o1 = o2 ∧ S1 = S2) ∧
    ∀ {more : List Request}, Growth P catching (delims cfg) S (reqs ++ more) o1 S1 → ∃ o S', Growth P catching (delims cfg) S reqs o S' ∧ o <+: o1 := by
  refine ⟨growth_unique hp, fun h => ?_⟩
  obtain ⟨a, b, S', rfl, h1, _⟩ := growth_split h
  exact ⟨a, S', h1, b, rfl⟩

/-- **C127.** A command that is known stays known. -/
theorem C127_stays {S S' : Standing W C D} (h : Growth P catching (delims cfg) S reqs outs S') {n : Bytes} (hn : S.table.functions n ≠ none) :
    S'.table.functions n ≠ none := by
  obtain ⟨more, e⟩ := growth_longer h
  rw [e]
  clear e h
  generalize S.table = T at hn ⊢
  induction more generalizing T with
  | nil => rwa [List.append_nil]
  | cons c more ih =>
    rw [List.append_cons]
    refine ih _ ?_
    rw [functions_more]
    split
    · simp
    · exact hn

/-- **C127.** If no function adds commands, this is the conversation of C110. -/
theorem C127_quiet (hp : Proper cfg) (hq : AllQuiet P) {w' : W} :
    (∃ T', Growth P catching (delims cfg) ⟨T, w⟩ reqs outs ⟨T', w'⟩) ↔ Talk P catching T (delims cfg) w reqs outs w' := by
  have hg : AllGrowing P := fun c xs => quiet_growing (hq c xs)
  have hex : ∀ b, 0 < b → overOne 1 b = false := by intro b hb; simp [overOne]; omega
  rw [← C110_run (fixed := true) (charSigned := true) hp hex hq]
  constructor
  · rintro ⟨T', h⟩
    exact C127_complete hp hex h
  · rintro ⟨fuel, s, h, rfl⟩
    obtain ⟨⟨T', u⟩, h1, h2, _⟩ := C127_sound hp hex hg h
    dsimp only at h2
    subst h2
    exact ⟨T', h1⟩

/-! ## Example: a garden -/

namespace Garden

/-- `sow n t` makes a command `n` that answers `t`, and then names the garden; `grow` is what it makes. -/
inductive Code where
  | sow
  | grow
  deriving DecidableEq

/-- The functions of the garden. -/
def functions : Code → FunctorDef Nat Code Bytes
  | .sow => ⟨[⟨Bytes, stringConv⟩, ⟨Bytes, stringConv⟩], Unit, lit "void", none, fun a => .get fun k => .set (k + 1) <|
      .add a.1 [(.grow, a.2.1)] <| .captured fun d => .log d (.ret ())⟩
  | .grow => ⟨[], Bytes, lit "string", some id, fun _ => .captured fun d => .ret d⟩

/-- At the beginning there is one command. -/
def table : Table Code Bytes := [(lit "sow", [(.sow, lit "Eden")])]

theorem growing : AllGrowing functions := by
  intro c xs
  cases c with
  | sow => exact .get fun k => .set (.add (.captured fun d => .log .ret))
  | grow => exact .captured fun d => .ret

/-- The garden with these lines, on the hash map as it is. -/
abbrev entered (lines : List String) : Res (Sys (UMap Bytes (Command Code Bytes)) Nat Code Bytes × List ExecOut) :=
  observed functions (mapOps false true overOne) (UMap.create (djb2 true) 1) true 5 (some (fitting (LexCfg.default true))) 0
    (fixedProgram table (lines.map fun l => .line (lit l)))

/-- The answers: output and errors, return values. -/
abbrev answers (lines : List String) : Res (List (Option (List Bytes × Option Bytes))) :=
  (entered lines).map fun x => x.2.map fun o => o.toOption.map fun r => (r.errors ++ [r.output], r.returnValue)

end Garden

/-- What the garden answers: commands that were made, and made again. -/
example : Garden.answers ["tulip", "sow tulip red", "tulip", "sow rose white", "sow tulip blue", "tulip", "rose", "sow"] =
    .ok [some ([lit "No function 'tulip' is registered", []], none), some ([lit "Eden"], none), some ([[]], some (lit "red")),
      some ([lit "Eden"], none), some ([lit "Eden"], none), some ([[]], some (lit "blue")), some ([[]], some (lit "white")),
      some ([lit "Wrong number of arguments to 'sow': expected 2, got 0", []], none)] := by
  decide +kernel

/-- A command that replaces itself and then looks at what it has captured. -/
example : Garden.answers ["sow sow x"] = .ub .useAfterFree := by decide +kernel

/-- What the theory says of it: it cannot be answered, and nothing else is wrong with `sow`. -/
example (S : Standing Nat Garden.Code Bytes) (h : S.table.functions (lit "sow") = some [(.sow, lit "Eden")]) (n t : Bytes) :
    Responsive Garden.functions S ⟨lit "sow", [⟨[n]⟩, ⟨[t]⟩], []⟩ ↔ n ≠ lit "sow" := by
  constructor
  · intro hr hn
    subst hn
    obtain ⟨_, h2⟩ := hr _ (.sow, lit "Eden") (by dsimp only; decide) h ⟨[], [], rfl, rfl, by simp⟩
    obtain ⟨es, e, S', h3⟩ := h2 (lit "sow", t, ()) ⟨rfl, rfl, trivial⟩
    cases h3 with
    | get h3 => cases h3 with
      | set h3 => cases h3 with
        | add h3 =>
          have e : (true && decide (lit "sow" ≠ lit "sow")) = false := by decide
          dsimp only at h3
          rw [e] at h3
          cases h3
  · intro hn fs f _ hfs hf
    rw [h] at hfs
    cases hfs
    have : f = (.sow, lit "Eden") := by simpa using firstTaking_member hf
    subst this
    refine ⟨⟨⟨_, rfl⟩, ⟨_, rfl⟩, trivial⟩, ?_⟩
    rintro ⟨a, b, ⟨⟩⟩ ⟨h1, _⟩
    cases h1
    have e : (true && decide (n ≠ lit "sow")) = true := by simp [hn]
    have key : Recounts (R := Unit) (W := Nat) (lit "Eden") [] (lit "sow") [] (.captured fun d => .log d (.ret ())) (true && decide (n ≠ lit "sow"))
        (Standing.more ⟨S.table, S.user + 1⟩ n [(Garden.Code.grow, b)]) [.log (lit "Eden")] (.ret ())
        (Standing.more ⟨S.table, S.user + 1⟩ n [(Garden.Code.grow, b)]) := by
      rw [e]
      exact .captured (.log .ret)
    exact ⟨_, _, _, .get (.set (.add key))⟩

/-- The conversation of a run. -/
example : ∃ outs S', Growth Garden.functions true (delims (LexCfg.default true)) ⟨Garden.table, 0⟩ (["sow a b", "a"].map fun l => .line (lit l)) outs S' ∧
    S'.user = 1 ∧ outs.length = 2 := by
  have h : ∃ x, Garden.entered ["sow a b", "a"] = .ok x ∧ x.1.user = 1 ∧ x.2.length = 2 := by
    have : ((Garden.entered ["sow a b", "a"]).map fun x => (x.1.user, x.2.length)) = .ok (1, 2) := by decide +kernel
    generalize Garden.entered ["sow a b", "a"] = y at this
    cases y with
    | ok a =>
      have e : (a.1.user, a.2.length) = (1, 2) := Res.ok.inj this
      exact ⟨a, rfl, congrArg Prod.fst e, congrArg Prod.snd e⟩
    | ub | diverge => cases this
  obtain ⟨⟨s, outs⟩, he, hu, hl⟩ := h
  obtain ⟨S', h1, h2, _⟩ := C127_sound (proper_default true) (by intro b hb; simp [overOne]; omega) Garden.growing he
  exact ⟨outs, S', h1, h2.symm.trans hu, hl⟩

end Coil
