import Verif.Proofs.EnumPrograms
import Verif.Props.Answered

/-!
# The programs of examples/enums and examples/flags (C120, C121)
-/

namespace Coil
open Spec

variable {pl : Platform} {u : IntType} {d : EnumDecl} {catching charSigned fixed : Bool} {cfg : LexCfg}
  {reqs : List Request} {exceeds : Nat → Nat → Bool} {outs : List ExecOut}

/-! ## C120 -/

/-- **C120.** An enumeration with plain constants: an argument is a number that is a value of it, or one of the names in any mixture of cases. -/
theorem C120_accepts (hd : Declarable pl d) (hp : PlainConstants d.constants) (v : Value) (x : Int) :
    (enumConv pl d).fromString v = .ok (.ok x) ↔ ∃ s, v = ⟨[s]⟩ ∧ (AsNumber pl d.underlying s x ∧ ValueOf d x ∨ Names d.constants s x) :=
  plain_accepts hd hp

/-- **C120.** It is shown as the name of the value, or as nothing. -/
theorem C120_shows (hd : Declarable pl d) (hp : PlainConstants d.constants) (x : Int) : Shown d.constants x ((enumConv pl d).toString x) :=
  plain_shows hd hp x

/-- **C120.** Whatever is entered, the commands of the example do what is told, what is not understood changes nothing, and the state is what was
chosen last. The underlying type of the unscoped enumeration may be any integer type. -/
theorem C120_run (hp : Proper cfg) (hex : ∀ b, 0 < b → exceeds 1 b = false) {fuel : Nat}
    {s : Sys (UMap Bytes (Command EnumCode Unit)) EnumWorld EnumCode Unit}
    (h : observed (enumFunctions pl u) (mapOps fixed charSigned exceeds) (UMap.create (djb2 charSigned) 1) catching fuel (some (fitting cfg))
      EnumWorld.start (fixedProgram enumTable reqs) = .ok (s, outs)) :
    ∃ h', Chronicle (EnumTold pl u) (delims cfg) [] reqs outs h' ∧ (s.user.ability, s.user.resetMode) = abilityAfter h' ∧
      s.user.variableType = typeAfter h' :=
  enum_telltale.story ((C110_run hp hex enum_quiet).1 ⟨fuel, s, h, rfl⟩) ⟨rfl, rfl⟩

/-- **C120, partial.** When the program answers: exactly if every line fits and has no lone quote in a group, and no number but 0, 1, 2 and 3 is given
as the reset mode. The full claim, that it always answers, is false: see `C120_total_false`. -/
theorem C120_total_partial (hp : Proper cfg) (hex : ∀ b, 0 < b → exceeds 1 b = false) :
    (∃ fuel s outs, observed (enumFunctions pl u) (mapOps fixed charSigned exceeds) (UMap.create (djb2 charSigned) 1) catching fuel
      (some (fitting cfg)) EnumWorld.start (fixedProgram enumTable reqs) = .ok (s, outs)) ↔
    ∀ r ∈ reqs, Enterable (delims cfg) r ∧ ∀ i, Enters (delims cfg) r i → ¬ EnumTrouble pl u i := by
  rw [C117_iff hp hex enum_quiet enum_steady trivial]
  constructor
  · exact fun h r hr => ⟨(h r hr).1, fun i hi => (enum_answerable i).1 ((h r hr).2 i hi)⟩
  · exact fun h r hr => ⟨(h r hr).1, fun i hi => (enum_answerable i).2 ((h r hr).2 i hi)⟩

theorem shown_unique {cs : List (Bytes × Int)} (hp : PlainConstants cs) {x : Int} {t t' : Bytes} (h : Shown cs x t) (h' : Shown cs x t') : t = t' := by
  have one : ∀ {n m : Bytes}, (n, x) ∈ cs → (m, x) ∈ cs → n = m := by
    intro n m hn hm
    exact primary_unique (plain_primary (d := ⟨[], .int, true, cs⟩) hp hn) (plain_primary (d := ⟨[], .int, true, cs⟩) hp hm)
  rcases h with h | ⟨rfl, h⟩ <;> rcases h' with h' | ⟨rfl, h'⟩
  · exact one h h'
  · exact absurd h (h' _)
  · exact absurd h' (h _)
  · rfl

theorem read_unique {c : Conv Int} {v : Value} {x y : Int} (h : c.fromString v = .ok (.ok x)) (h' : c.fromString v = .ok (.ok y)) : x = y := by
  rw [h] at h'
  cases h'
  rfl

/-- **C120.** A text stands for one value, and a value has one text. -/
theorem C120_one (hd : Declarable pl d) (hp : PlainConstants d.constants) :
    (∀ {t : Bytes} {x y : Int}, (AsNumber pl d.underlying t x ∧ ValueOf d x ∨ Names d.constants t x) →
      (AsNumber pl d.underlying t y ∧ ValueOf d y ∨ Names d.constants t y) → x = y) ∧
    ∀ {x : Int} {t t' : Bytes}, Shown d.constants x t → Shown d.constants x t' → t = t' :=
  ⟨fun h h' => read_unique ((plain_accepts hd hp).2 ⟨_, rfl, h⟩) ((plain_accepts hd hp).2 ⟨_, rfl, h'⟩), shown_unique hp⟩

/-- **C120.** The three enumerations of the example are declared as C++ requires, and their constants are plain. -/
theorem C120_declared : (Declarable pl abilityDecl ∧ PlainConstants abilityDecl.constants) ∧
    (Declarable pl (resetModeDecl u) ∧ PlainConstants (resetModeDecl u).constants) ∧
    (Declarable pl variableTypeDecl ∧ PlainConstants variableTypeDecl.constants) :=
  ⟨⟨ability_declarable, abilities_plain⟩, ⟨mode_declarable, resetModes_plain⟩, type_declarable, variableTypes_plain⟩

/-! ### Examples -/

namespace Choices

/-- The program with these lines, on the hash map as it is. -/
abbrev entered (lines : List Bytes) : Res (Sys (UMap Bytes (Command EnumCode Unit)) EnumWorld EnumCode Unit × List ExecOut) :=
  observed (enumFunctions linux64 .uint) (mapOps false true overOne) (UMap.create (djb2 true) 1)
    true 5 (some (fitting (LexCfg.default true))) EnumWorld.start (fixedProgram enumTable (lines.map .line))

/-- The answers: errors, and return value or output. -/
abbrev answers (lines : List String) : Res (List (Option (List Bytes × Bytes))) :=
  (entered (lines.map lit)).map fun x => x.2.map fun o => o.toOption.map fun r => (r.errors, r.returnValue.getD r.output)

/-- An answer without errors. -/
abbrev said (t : String) : Option (List Bytes × Bytes) := some ([], lit t)

/-- Errors. -/
abbrev wrong (ts : List String) : Option (List Bytes × Bytes) := some (ts.map lit, [])

end Choices

section
open Choices

/-- **C120**, a witness: a number that is no value of the unscoped enumeration. -/
theorem C120_total_false : (entered [lit "abilities.set_ability SpeedBoost 100"]).map (fun x => x.2.length) = .ub .badEnum := by decide +kernel

/-- The lines of the example (EnumsExample.cpp 73-81). -/
example : answers ["abilities.set_ability SpeedBoost AfterDelay", "abilities.get_ability", "abilities.get_reset_mode", "variable_type",
      "variable_type Float"] =
    .ok [said "", said "SpeedBoost", said "AfterDelay", said "String", said "Float"] := by
  decide +kernel

/-- The lines of the example (EnumsExample.cpp 84-86). -/
example : answers ["variable_type Custom", "abilities.set_ability NoRecoil AfterDelay", "abilities.set_ability SpeedBoost AfterFrame"] =
    .ok [wrong ["Unable to convert 'Custom' to type 'VariableType': Possible values are ['Integer', 'Float', 'String']"],
      wrong ["Unable to convert 'NoRecoil' to type 'Ability': Possible values are ['None', 'SpeedBoost', 'IncreasedHealth']"],
      wrong ["Unable to convert 'AfterFrame' to type 'ResetMode': Possible values are ['Never', 'AfterDelay', 'AfterDeath']"]] := by
  decide +kernel

/-- Numbers and other cases are understood. A number of an `enum class` needs no name, nor does the mode 3. -/
example : answers ["abilities.set_ability increasedhealth 3", "abilities.get_ability", "abilities.get_reset_mode", "variable_type 100", "variable_type"] =
    .ok [said "", said "IncreasedHealth", said "", said "", said ""] := by
  decide +kernel

end

/-! ## C121 -/

/-- **C121.** Whatever is entered, the commands of the example do what is told, what is not understood changes nothing, and the variable has the bits of
the flags given last. -/
theorem C121_run (hp : Proper cfg) (hex : ∀ b, 0 < b → exceeds 1 b = false) {fuel : Nat}
    {s : Sys (UMap Bytes (Command FlagsCode Unit)) Int FlagsCode Unit}
    (h : observed (flagsFunctions pl) (mapOps fixed charSigned exceeds) (UMap.create (djb2 charSigned) 1) catching fuel (some (fitting cfg))
      (flagsStart pl) (fixedProgram flagsTable reqs) = .ok (s, outs)) :
    ∃ h', Chronicle (FlagsTold pl) (delims cfg) [] reqs outs h' ∧ Union pl .int (flagsAfter h') s.user :=
  flags_telltale.story ((C110_run hp hex flags_quiet).1 ⟨fuel, s, h, rfl⟩) flags_start

/-- **C121.** The program answers exactly if every line fits and has no lone quote in a group: no flag, number or command is dangerous. -/
theorem C121_total (hp : Proper cfg) (hex : ∀ b, 0 < b → exceeds 1 b = false) :
    (∃ fuel s outs, observed (flagsFunctions pl) (mapOps fixed charSigned exceeds) (UMap.create (djb2 charSigned) 1) catching fuel
      (some (fitting cfg)) (flagsStart pl) (fixedProgram flagsTable reqs) = .ok (s, outs)) ↔ ∀ r ∈ reqs, Enterable (delims cfg) r := by
  rw [C117_iff hp hex flags_quiet flags_steady trivial]
  exact ⟨fun h r hr => (h r hr).1, fun h r hr => ⟨h r hr, fun i _ => flags_answerable i⟩⟩

/-- The flags of the set, with their bits. -/
def setFlags (b : Nat → Bool) : List (Bytes × Nat) :=
  [(lit "DrawBoundingBox", 0), (lit "DrawOrigin", 1), (lit "DrawWireframe", 2), (lit "DrawName", 3)].filter fun e => b e.2

theorem setFlags_barred (b : Nat → Bool) : barred (setFlags b) = flagsLine b := by
  unfold setFlags barred flagsLine
  simp only [List.filter_cons, List.filter_nil]
  cases b 0 <;> cases b 1 <;> cases b 2 <;> cases b 3 <;> rfl

theorem setFlags_of {z : Int} {b : Nat → Bool} (hb : ∀ k, b k = true ↔ Bit z k) (h4 : ∀ k, Bit z k → k < 4) : FlagsOf drawDecl z (setFlags b) where
  sorted := by
    refine List.Pairwise.filter _ ?_
    simp
  bits k := by
    rw [← hb]
    constructor
    · intro h
      have hk := h4 k ((hb k).1 h)
      have : k = 0 ∨ k = 1 ∨ k = 2 ∨ k = 3 := by omega
      rcases this with rfl | rfl | rfl | rfl <;> exact ⟨_, List.mem_filter.2 ⟨by simp only [List.mem_cons, Prod.mk.injEq, and_true]; simp; rfl, h⟩⟩
    · rintro ⟨n, hn⟩
      exact (List.mem_filter.1 hn).2
  named n k h := by
    have hm := (List.mem_filter.1 h).1
    refine plain_primary (d := drawDecl) flagNames_plain ?_
    show _ ∈ flagNames
    unfold flagNames
    simp only [List.mem_cons, Prod.mk.injEq, List.not_mem_nil, or_false] at hm ⊢
    rcases hm with ⟨rfl, rfl⟩ | ⟨rfl, rfl⟩ | ⟨rfl, rfl⟩ | ⟨rfl, rfl⟩
    · exact .inl ⟨rfl, rfl⟩
    · exact .inr (.inl ⟨rfl, rfl⟩)
    · exact .inr (.inr (.inl ⟨rfl, rfl⟩))
    · exact .inr (.inr (.inr ⟨rfl, rfl⟩))

/-- **C121.** What is shown for a set of flags is what is drawn: the names of the bits that are set, in the order of the lines that `entity.draw` writes;
and nothing if a bit other than the four is set. -/
theorem C121_shown {z : Int} {t : Bytes} {b : Nat → Bool} (hb : ∀ k, b k = true ↔ Bit z k) :
    FlagText drawDecl z t ↔ ((∀ k, b k = true → k < 4) ∧ t = flagsLine b) ∨ ((∃ k, 4 ≤ k ∧ b k = true) ∧ t = []) := by
  have big : ∀ fs, FlagsOf drawDecl z fs → ∀ k, Bit z k → k < 4 := by
    intro fs hf k hk
    obtain ⟨n, hn⟩ := (hf.bits k).1 hk
    have hm := primary_mem (hf.named n k hn)
    have hs : ∀ c ∈ drawDecl.constants, c.2 ≤ 8 := by decide +kernel
    have h8 := hs _ hm
    refine Decidable.by_contra fun h4 => ?_
    have := Nat.pow_le_pow_right (n := 2) (by omega) (show 4 ≤ k by omega)
    dsimp only at h8
    omega
  constructor
  · intro h
    cases h with
    | @names fs hf =>
      refine .inl ⟨fun k hk => big fs hf k ((hb k).1 hk), ?_⟩
      rw [flagsOf_unique hf (setFlags_of hb (big fs hf)), setFlags_barred]
    | none hn =>
      refine .inr ⟨Classical.byContradiction fun hk => hn ⟨_, setFlags_of hb fun k hb' => Decidable.by_contra fun h4 => hk ⟨k, by omega, (hb k).2 hb'⟩⟩, rfl⟩
  · rintro (⟨h4, rfl⟩ | ⟨⟨k, hk, hk'⟩, rfl⟩)
    · rw [← setFlags_barred]
      exact .names (setFlags_of hb fun k hk => h4 k ((hb k).2 hk))
    · refine .none ?_
      rintro ⟨fs, hf⟩
      have := big fs hf k ((hb k).1 hk')
      omega

theorem flagText_unique {z : Int} {t t' : Bytes} (h : FlagText drawDecl z t) (h' : FlagText drawDecl z t') : t = t' := by
  cases h with
  | names hf =>
    cases h' with
    | names hf' => rw [flagsOf_unique hf hf']
    | none hn => exact absurd ⟨_, hf⟩ hn
  | none hn =>
    cases h' with
    | names hf' => exact absurd ⟨_, hf'⟩ hn
    | none _ => rfl

theorem told_bare {h h' : List (List Int)} {i : Input} {r : Option Bytes} {o : Bytes} (hi : i.arguments = []) (ht : FlagsTold pl h i h' r o) :
    (i.name = lit "entity.flags" ∧ o = [] ∧ ∃ z t, Union pl .int (flagsAfter h) z ∧ FlagText drawDecl z t ∧ r = some t) ∨
      (i.name = lit "entity.draw" ∧ r = none ∧ ∃ b : Nat → Bool, (∀ k, b k = true ↔ ∃ x ∈ flagsAfter h, Bit x k) ∧ o = drawText b) := by
  cases ht with
  | read h1 h2 => exact .inl ⟨rfl, rfl, _, _, h1, h2, rfl⟩
  | write h1 h2 h3 => simp at hi
  | draw h1 => exact .inr ⟨rfl, rfl, _, h1, rfl⟩

/-- **C121.** The order and the repetition of the flags given last do not matter, nor what was given before: what is drawn, and what is shown, is the
same. -/
theorem C121_order {h h' g g' : List (List Int)} {i : Input} {r r' : Option Bytes} {o o' : Bytes} {xs ys : List Int} (he : ∀ x, x ∈ xs ↔ x ∈ ys)
    (hi : i.arguments = []) (ht : FlagsTold pl (h ++ [xs]) i g r o) (ht' : FlagsTold pl (h' ++ [ys]) i g' r' o') :
    r = r' ∧ o = o' := by
  have hne : lit "entity.flags" ≠ lit "entity.draw" := by decide +kernel
  have hbits : ∀ k, (∃ x ∈ xs, Bit x k) ↔ ∃ x ∈ ys, Bit x k := by simp only [he, implies_true]
  rcases told_bare hi ht with ⟨n, rfl, z, t, h1, h2, rfl⟩ | ⟨n, rfl, b, h1, rfl⟩
  · rcases told_bare hi ht' with ⟨n', rfl, z', t', h1', h2', rfl⟩ | ⟨n', _⟩
    · rw [flagsAfter_append] at h1 h1'
      have hz : z = z' := C86_order he h1 h1'
      subst hz
      rw [flagText_unique h2 h2']
      exact ⟨rfl, rfl⟩
    · exact absurd (n.symm.trans n') hne
  · rcases told_bare hi ht' with ⟨n', _⟩ | ⟨n', rfl, b', h1', rfl⟩
    · exact absurd (n'.symm.trans n) hne
    · rw [flagsAfter_append] at h1 h1'
      have hb : b = b' := by
        funext k
        rw [Bool.eq_iff_iff, h1, h1', hbits]
      subst hb
      exact ⟨rfl, rfl⟩

/-! ### Examples -/

namespace Drawing

/-- The program with these lines, on the hash map as it is. -/
abbrev entered (lines : List Bytes) : Res (Sys (UMap Bytes (Command FlagsCode Unit)) Int FlagsCode Unit × List ExecOut) :=
  observed (flagsFunctions linux64) (mapOps false true overOne) (UMap.create (djb2 true) 1)
    true 5 (some (fitting (LexCfg.default true))) (flagsStart linux64) (fixedProgram flagsTable (lines.map .line))

/-- The answers: errors, and return value or output. -/
abbrev answers (lines : List String) : Res (List (Option (List Bytes × Bytes))) :=
  (entered (lines.map lit)).map fun x => x.2.map fun o => o.toOption.map fun r => (r.errors, r.returnValue.getD r.output)

/-- An answer without errors. -/
abbrev said (t : String) : Option (List Bytes × Bytes) := some ([], lit t)

/-- Errors. -/
abbrev wrong (ts : List String) : Option (List Bytes × Bytes) := some (ts.map lit, [])

end Drawing

section
open Drawing

/-- The lines of the example (FlagsExample.cpp 88-95). -/
example : answers ["entity.flags", "entity.draw", "entity.flags DrawOrigin|DrawWireframe", "entity.draw", "entity.flags DrawOrigin", "entity.draw"] =
    .ok [said "DrawBoundingBox|DrawName", said "Drawing bounding box\nDrawing name\n", said "DrawOrigin|DrawWireframe",
      said "Drawing origin\nDrawing wireframe\n", said "DrawOrigin", said "Drawing origin\n"] := by
  decide +kernel

/-- The lines of the example (FlagsExample.cpp 98-106). -/
example : answers ["entity.flags DrawOrigin,DrawWireframe", "entity.flags (DrawOrigin DrawWireframe)", "entity.flags (DrawOrigin, DrawWireframe)",
      "entity.flags DrawName|DrawSomethingElse", "entity.flags DrawName DrawSomethingElse"] =
    .ok [said "DrawOrigin|DrawWireframe", said "DrawOrigin|DrawWireframe", said "DrawOrigin|DrawWireframe",
      wrong ["Unable to convert 'DrawName DrawSomethingElse' to type 'vector<EntityDebugDrawFlags>': Unable to convert 'DrawSomethingElse' to type 'EntityDebugDrawFlags': Possible values are ['DrawBoundingBox', 'DrawOrigin', 'DrawWireframe', 'DrawName']"],
      wrong ["Wrong number of arguments to 'entity.flags': expected 0 or 1, got 2"]] := by
  decide +kernel

/-- Numbers are understood too: a bit without a name leaves nothing to show, but the others are drawn; and no flags can be given. -/
example : answers ["entity.flags 18", "entity.draw", "entity.flags ()", "entity.draw", "entity.flags drawname|8|8", "entity.draw"] =
    .ok [said "", said "Drawing origin\n", said "", said "", said "DrawName", said "Drawing name\n"] := by
  decide +kernel

end

end Coil
