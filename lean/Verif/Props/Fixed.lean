import Verif.Proofs.Fixed
import Verif.Props.NamesOnly

/-!
# Programs with fixed commands (C110)
-/

namespace Coil
open Spec

variable {W C D : Type} {P : C → FunctorDef W C D} {catching charSigned fixed : Bool} {T : Table C D} {cfg : LexCfg} {reqs : List Request}
  {exceeds : Nat → Nat → Bool} {w w' : W} {outs : List ExecOut}

/-- **C110.** A program that registers a table of quiet commands and then executes what it is given holds exactly the conversations of the table, with
the hash map as it is as well as with the repaired one. -/
theorem C110_run (hp : Proper cfg) (hex : ∀ b, 0 < b → exceeds 1 b = false) (hq : AllQuiet P) :
    (∃ fuel s, observed P (mapOps fixed charSigned exceeds) (UMap.create (djb2 charSigned) 1) catching fuel (some (fitting cfg)) w
        (fixedProgram T reqs) = .ok (s, outs) ∧ s.user = w') ↔
      Talk P catching T (delims cfg) w reqs outs w' := by
  obtain ⟨h1, h2, _, more, h4, h5⟩ := adding_props (T := T) (Scene.start (C := C) (D := D) (delims cfg) w)
  have ht := tabled_start (T := T) (delims cfg) w
  have hsafe : ∀ {x : W}, RightAlong fixed (djb2 charSigned) exceeds
      (({ Scene.adding (Scene.start (C := C) (D := D) (delims cfg) w) T with user := x } : Scene W C D).changes.map asDictOp) := by
    intro x
    refine C108_safe hex (.inr (adds_safe ?_))
    show ∀ ev ∈ (Scene.adding (Scene.start (C := C) (D := D) (delims cfg) w) T).changes, _
    rw [h4]
    exact h5
  constructor
  · rintro ⟨fuel, s, hrun, rfl⟩
    have hadds : ∀ ev ∈ s.history, ∃ n fs, ev = .added n fs := by
      simp only [observed] at hrun
      obtain ⟨m, _, hm⟩ := Res.bind_eq_ok.1 hrun
      exact fixed_history hq hm (by simp [freshSys])
    obtain ⟨σ, h6, h7⟩ := (C108_programs (charSigned := charSigned) (exceeds := exceeds) hp (acts := fixedProgram T reqs)).1 hrun
      (C108_safe hex (.inr (adds_safe hadds)))
    have := (talk_of_acts hq ht (acts_adding.1 h6)).1
    rwa [h2, ← h7.user] at this
  · intro h
    have := acts_adding.2 (acts_of_talk h ht h2)
    obtain ⟨fuel, s, h6, h7⟩ := (C108_programs (charSigned := charSigned) (exceeds := exceeds) hp (acts := fixedProgram T reqs)).2 this hsafe
    exact ⟨fuel, s, h6, h7.user⟩

/-- **C110.** The commands stay those of the table. -/
theorem C110_commands (hp : Proper cfg) (hex : ∀ b, 0 < b → exceeds 1 b = false) (hq : AllQuiet P) {fuel : Nat}
    {s : Sys (UMap Bytes (Command C D)) W C D}
    (h : observed P (mapOps fixed charSigned exceeds) (UMap.create (djb2 charSigned) 1) catching fuel (some (fitting cfg)) w
        (fixedProgram T reqs) = .ok (s, outs)) (n : Bytes) :
    ∃ c, bindingsGet (mapOps fixed charSigned exceeds) s n = .ok c ∧
      c.map (fun c => c.functors.map (fun f => (f.code, f.data))) = T.functions n := by
  have hadds : ∀ ev ∈ s.history, ∃ n fs, ev = .added n fs := by
    simp only [observed] at h
    obtain ⟨m, _, hm⟩ := Res.bind_eq_ok.1 h
    exact fixed_history hq hm (by simp [freshSys])
  obtain ⟨σ, h6, h7⟩ := (C108_programs (charSigned := charSigned) (exceeds := exceeds) hp (acts := fixedProgram T reqs)).1 h
    (C108_safe hex (.inr (adds_safe hadds)))
  have ht := tabled_start (T := T) (delims cfg) w
  have := (talk_of_acts hq ht (acts_adding.1 h6)).2
  refine ⟨_, h7.commands n, ?_⟩
  rw [this, Option.map_map]
  exact ht.commands n

/-- **C110.** If the conversions are defined and the functions come to an end, the program answers whatever the user enters. -/
theorem C110_total (ht : TotalTable P T) (hr : ∀ r ∈ reqs, Enterable (delims cfg) r) :
    ∃ outs w', Talk P catching T (delims cfg) w reqs outs w' ∧ outs.length = reqs.length := by
  obtain ⟨outs, w', h⟩ := talk_total (catching := catching) ht hr w
  refine ⟨outs, w', h, ?_⟩
  induction h with
  | nil => rfl
  | wrong _ _ ih => simp [ih (fun r hr' => hr r (List.mem_cons_of_mem _ hr'))]
  | line _ _ _ ih => simp [ih (fun r hr' => hr r (List.mem_cons_of_mem _ hr'))]
  | input _ _ ih => simp [ih (fun r hr' => hr r (List.mem_cons_of_mem _ hr'))]

/-- **C110.** A conversation is determined by what the user enters. -/
theorem C110_one (hp : Proper cfg) {outs2 : List ExecOut} {w2 : W} (h1 : Talk P catching T (delims cfg) w reqs outs w')
    (h2 : Talk P catching T (delims cfg) w reqs outs2 w2) : outs = outs2 ∧ w' = w2 := by
  have ht := tabled_start (T := T) (delims cfg) w
  have hw := (adding_props (T := T) (Scene.start (C := C) (D := D) (delims cfg) w)).2.1
  have := C89_one_meaning hp (acts_adding.2 (acts_of_talk h1 ht hw)) (acts_adding.2 (acts_of_talk h2 ht hw))
  exact ⟨this.1, this.2.1⟩

/-! ## Example: a notebook -/

namespace Notebook

/-- `note x` writes down `x`, `notes` tells how many notes there are, `note` without arguments throws. -/
inductive Code where
  | note
  | notes
  | empty

/-- The functions of the notebook. -/
def functions : Code → FunctorDef (List Bytes) Code Unit
  | .note => ⟨[⟨Bytes, stringConv⟩], Unit, lit "void", none, fun a => .get fun w => .set (w ++ [a.1]) (.log (lit "noted") (.ret ()))⟩
  | .notes => ⟨[], Nat, lit "int", some natDec, fun _ => .get fun w => .ret w.length⟩
  | .empty => ⟨[], Unit, lit "void", none, fun _ => .throw (.std (lit "nothing to note"))⟩

/-- The commands of the notebook. -/
def table : Table Code Unit := [(lit "note", [(.note, ()), (.empty, ())]), (lit "notes", [(.notes, ())])]

theorem quiet : AllQuiet functions := by
  intro c xs
  cases c with
  | note => exact .get fun w => .set (.log .ret)
  | notes => exact .get fun w => .ret
  | empty => exact .throw

theorem total : TotalTable functions table := by
  intro c _ f _
  obtain ⟨f, _⟩ := f
  refine ⟨?_, ?_⟩
  · cases f with
    | note =>
      intro p hp v
      rw [List.mem_singleton.1 hp]
      obtain ⟨sv⟩ := v
      match sv with
      | [] => exact ⟨_, rfl⟩
      | [_] => exact ⟨_, rfl⟩
      | _ :: _ :: _ => exact ⟨_, rfl⟩
    | notes | empty => intro p hp; cases hp
  · intro xs l w
    cases f with
    | note => exact ⟨_, _, _, .get (.set (.log .ret))⟩
    | notes => exact ⟨_, _, _, .get .ret⟩
    | empty => exact ⟨_, _, _, .throw⟩

/-- The notebook with these lines, on the hash map as it is. -/
abbrev entered (lines : List String) : Res (Sys (UMap Bytes (Command Code Unit)) (List Bytes) Code Unit × List ExecOut) :=
  observed functions (mapOps false true overOne) (UMap.create (djb2 true) 1) true 5 (some (fitting (LexCfg.default true))) []
    (fixedProgram table (lines.map fun l => .line (lit l)))

/-- The answers: errors and output, return values. -/
abbrev answers (lines : List String) : Res (List (Option (List Bytes × Option Bytes))) :=
  (entered lines).map fun x => x.2.map fun o => o.toOption.map fun r => (r.errors ++ [r.output], r.returnValue)

end Notebook

open Notebook

/-- What the notebook answers. -/
example : answers ["note a", "note 'b c'", "notes", "note", "note 1 2", "burn", "note a=1"] =
    .ok [some ([lit "noted"], none), some ([lit "noted"], none), some ([[]], some (lit "2")),
      some ([lit "Exception caught during execution: nothing to note", []], none),
      some ([lit "Wrong number of arguments to 'note': expected 1 or 0, got 2", []], none),
      some ([lit "No function 'burn' is registered", []], none),
      some ([lit "Exception caught during execution: nothing to note", []], none)] := by
  decide +kernel

/-- The conversation of a run. -/
example : ∃ outs, Talk functions true table (delims (LexCfg.default true)) [] (["note a", "notes"].map fun l => .line (lit l)) outs [lit "a"] ∧
    outs.length = 2 := by
  have h : ∃ x, entered ["note a", "notes"] = .ok x ∧ x.1.user = [lit "a"] ∧ x.2.length = 2 := by
    have : ((entered ["note a", "notes"]).map fun x => (x.1.user, x.2.length)) = .ok ([lit "a"], 2) := by decide +kernel
    generalize entered ["note a", "notes"] = y at this
    cases y with
    | ok a =>
      have e : (a.1.user, a.2.length) = ([lit "a"], 2) := Res.ok.inj this
      exact ⟨a, rfl, congrArg Prod.fst e, congrArg Prod.snd e⟩
    | ub | diverge => cases this
  obtain ⟨⟨s, outs⟩, he, hu, hl⟩ := h
  exact ⟨outs, (C110_run (proper_default true) (by intro b hb; simp [overOne]; omega) quiet).1 ⟨5, s, he, hu⟩, hl⟩

/-- The notebook answers whatever it is given as an input that is already read. -/
example (i : Input) (w : List Bytes) : ∃ outs w', Talk functions true table (delims (LexCfg.default true)) w [.input i] outs w' ∧ outs.length = 1 :=
  C110_total total (by simp [Enterable])

end Coil
