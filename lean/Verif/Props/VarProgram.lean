import Verif.Proofs.VarProgram
import Verif.Proofs.BasicExample
import Verif.Props.Answered
import Verif.Props.Enums

/-!
# Programs of variables (C115, C116)
-/

namespace Coil
open Spec

section General

variable {K W : Type} [DecidableEq K] {T : K → Type} {V : Vars K T W} {cs : List (Bytes × VarKind K T)} {catching charSigned fixed : Bool} {cfg : LexCfg}
  {reqs : List Request} {exceeds : Nat → Nat → Bool} {outs : List ExecOut} {w : W} {s : Sys (UMap Bytes (Command (VarCode K T) Unit)) W (VarCode K T) Unit}
  {init : ∀ k, T k}

/-- **C115.** Any program of variables at different places, under different names: whatever is entered, every variable has the value that was assigned
to it last, the commands answer with these values, and what is not understood changes nothing. -/
theorem C115_run (hp : Proper cfg) (hex : ∀ b, 0 < b → exceeds 1 b = false) (ha : Apart V.ref) (hn : GoodNames cs) {fuel : Nat}
    (h : observed V.functions (mapOps fixed charSigned exceeds) (UMap.create (djb2 charSigned) 1) catching fuel (some (fitting cfg)) w
      (fixedProgram (varTable cs) reqs) = .ok (s, outs)) :
    ∃ h', Chronicle (VarTold V.conv cs (V.values w)) (delims cfg) [] reqs outs h' ∧ V.values s.user = valueAfter (V.values w) h' := by
  have st : ∃ h', Chronicle (VarTold V.conv cs (V.values w)) (delims cfg) [] reqs outs h' ∧
      ∀ k, (V.ref k).read s.user = valueAfter (V.values w) h' k :=
    (vars_telltale ha hn).story ((C110_run hp hex vars_quiet).1 ⟨fuel, s, h, rfl⟩) (fun _ => rfl)
  obtain ⟨h', h1, h2⟩ := st
  exact ⟨h', h1, funext h2⟩

omit [DecidableEq K] in
/-- **C115.** When the program answers: exactly if every line fits and has no lone quote in a group, and every conversion of an assigned value is
defined. -/
theorem C115_answers (hp : Proper cfg) (hex : ∀ b, 0 < b → exceeds 1 b = false) (hn : GoodNames cs) :
    (∃ fuel s outs, observed V.functions (mapOps fixed charSigned exceeds) (UMap.create (djb2 charSigned) 1) catching fuel (some (fitting cfg)) w
      (fixedProgram (varTable cs) reqs) = .ok (s, outs)) ↔
    ∀ r ∈ reqs, Enterable (delims cfg) r ∧ ∀ i, Enters (delims cfg) r i →
      ∀ kind k v, (i.name, kind) ∈ cs → VarKind.about kind = some k → i.arguments = [v] → ∃ r, (V.conv k).fromString v = .ok r := by
  rw [C117_iff hp hex vars_quiet vars_steady trivial]
  constructor
  · exact fun h r hr => ⟨(h r hr).1, fun i hi => (vars_answerable hn i).1 ((h r hr).2 i hi)⟩
  · exact fun h r hr => ⟨(h r hr).1, fun i hi => (vars_answerable hn i).2 ((h r hr).2 i hi)⟩

omit [DecidableEq K] in
/-- **C115.** If the conversions are defined for all values, every request is answered, without undefined behaviour. -/
theorem C115_total (hp : Proper cfg) (hex : ∀ b, 0 < b → exceeds 1 b = false) (hc : ∀ k v, ∃ r, (V.conv k).fromString v = .ok r)
    (hr : ∀ r ∈ reqs, Enterable (delims cfg) r) :
    ∃ fuel s outs, observed V.functions (mapOps fixed charSigned exceeds) (UMap.create (djb2 charSigned) 1) catching fuel (some (fitting cfg)) w
      (fixedProgram (varTable cs) reqs) = .ok (s, outs) ∧ outs.length = reqs.length := by
  obtain ⟨outs, w', ht, hl⟩ := C110_total (catching := catching) (w := w) (vars_total (V := V) (cs := cs) hc) hr
  obtain ⟨fuel, s, h, _⟩ := (C110_run (fixed := fixed) (charSigned := charSigned) hp hex vars_quiet).2 ht
  exact ⟨fuel, s, outs, h, hl⟩

/-- **C115.** A value stays until something else is assigned to the same variable. -/
theorem C115_stays (h later : List (Σ k, T k)) (k : K) (x : T k) (hl : ∀ d ∈ later, d.1 ≠ k) : valueAfter init (h ++ ⟨k, x⟩ :: later) k = x := by
  have : assigned later k = [] := by
    simp only [assigned, List.filterMap_eq_nil_iff]
    intro d hd
    simp [hl d hd]
  have e : assigned (h ++ ⟨k, x⟩ :: later) k = assigned h k ++ [x] := by
    unfold assigned at this ⊢
    rw [List.filterMap_append, List.filterMap_cons, this]
    simp
  simp [valueAfter, e]

/-- **C115.** A variable that nothing was assigned to has its first value. -/
theorem C115_untouched (h : List (Σ k, T k)) (k : K) (hl : ∀ d ∈ h, d.1 ≠ k) : valueAfter init h k = init k := by
  have : assigned h k = [] := by
    simp only [assigned, List.filterMap_eq_nil_iff]
    intro d hd
    simp [hl d hd]
  simp [valueAfter, this]

/-- **C115.** What is told is determined by the history and the command. -/
theorem C115_one (hn : GoodNames cs) {h h1 h2 : List (Σ k, T k)} {i : Input} {r1 r2 : Option Bytes} {o1 o2 : Bytes}
    (t1 : VarTold V.conv cs init h i h1 r1 o1) (t2 : VarTold V.conv cs init h i h2 r2 o2) : h1 = h2 ∧ r1 = r2 ∧ o1 = o2 := by
  have one : ∀ {n : Bytes} {a b : VarKind K T}, (n, a) ∈ cs → (n, b) ∈ cs → a.codes = b.codes := by
    intro n a b h1 h2
    have e := varTable_functions hn.2 h1
    rw [varTable_functions hn.2 h2] at e
    exact (Option.some.inj e).symm
  cases t1 with
  | read m1 =>
    cases t2 with
    | read m2 => have := one m1 m2; simp [VarKind.codes] at this; subst this; exact ⟨rfl, rfl, rfl⟩
    | toggle m2 => have := one m1 m2; simp [VarKind.codes] at this
    | line m2 => have := one m1 m2; simp [VarKind.codes] at this
  | toggle m1 =>
    cases t2 with
    | read m2 => have := one m1 m2; simp [VarKind.codes] at this
    | toggle m2 =>
      have := one m1 m2
      simp only [VarKind.codes, List.cons.injEq, Prod.mk.injEq, VarCode.change.injEq, and_true] at this
      obtain ⟨⟨rfl, e⟩, _⟩ := this
      cases e
      exact ⟨rfl, rfl, rfl⟩
    | line m2 => have := one m1 m2; simp [VarKind.codes] at this
  | line m1 =>
    cases t2 with
    | read m2 => have := one m1 m2; simp [VarKind.codes] at this
    | toggle m2 => have := one m1 m2; simp [VarKind.codes] at this
    | line m2 => have := one m1 m2; simp [VarKind.codes] at this; subst this; exact ⟨rfl, rfl, rfl⟩
  | @assign _ _ kind1 k1 _ _ _ m1 k1' x1 =>
    cases t2 with
    | @assign _ _ kind2 k2 _ _ _ m2 k2' x2 =>
      have := one m1 m2
      have e : k1 = k2 := by
        cases kind1 <;> cases kind2 <;> simp [VarKind.codes, VarKind.about] at this k1' k2' <;> simp_all
      subst e
      rw [x1] at x2
      cases x2
      exact ⟨rfl, rfl, rfl⟩

end General

/-! ## The program of the example -/

section Example

variable {pl : Platform} {tiny : Nat → Nat → Bool} {catching charSigned fixed : Bool} {cfg : LexCfg} {reqs : List Request} {exceeds : Nat → Nat → Bool}
  {outs : List ExecOut} {s : Sys (UMap Bytes (Command (VarCode ExampleVar ExampleVar.Ty) Unit)) VarWorld (VarCode ExampleVar ExampleVar.Ty) Unit}

theorem example_apart : Apart (exampleVars pl tiny).ref where
  same := by intro k x w; cases k <;> rfl
  other := by intro k j x w h; cases k <;> cases j <;> first | rfl | exact absurd rfl h

theorem example_names : GoodNames (exampleCommands pl) := by
  have hl : (exampleCommands pl).map (·.1) = [lit "time_scale", lit "city", lit "type", lit "god_var", lit "god_toggle", lit "print_variables"] := rfl
  refine ⟨fun c hc => ?_, ?_⟩
  · have := List.mem_map_of_mem (f := (·.1)) hc
    rw [hl] at this
    have hall : ∀ x ∈ [lit "time_scale", lit "city", lit "type", lit "god_var", lit "god_toggle", lit "print_variables"], x ≠ [] := by decide +kernel
    exact hall _ this
  · rw [hl]
    decide +kernel

/-- **C116.** The program of the example. -/
theorem C116_run (hp : Proper cfg) (hex : ∀ b, 0 < b → exceeds 1 b = false) {fuel : Nat}
    (h : observed (exampleVars pl tiny).functions (mapOps fixed charSigned exceeds) (UMap.create (djb2 charSigned) 1) catching fuel (some (fitting cfg))
      VarWorld.start (fixedProgram (varTable (exampleCommands pl)) reqs) = .ok (s, outs)) :
    ∃ h', Chronicle (VarTold (exampleVars pl tiny).conv (exampleCommands pl) ((exampleVars pl tiny).values .start)) (delims cfg) [] reqs outs h' ∧
      (exampleVars pl tiny).values s.user = valueAfter ((exampleVars pl tiny).values .start) h' :=
  C115_run hp hex example_apart example_names h

theorem example_entries : exampleDecl.entries pl = [(lit "Type1", 0), (lit "Type2", 1), (lit "Type3", 2)] := by
  have h1 : exampleDecl.entries pl = exampleDecl.entries linux64 := rfl
  rw [h1]
  decide +kernel

theorem example_name (z : Int) : enumName (exampleDecl.entries pl) z = typeText z := by
  rw [example_entries]
  simp only [enumName, typeText, List.find?]
  by_cases h0 : z = 0
  · subst h0; rfl
  · by_cases h1 : z = 1
    · subst h1; rfl
    · by_cases h2 : z = 2
      · subst h2; rfl
      · rw [beq_eq_false_iff_ne.2 (Ne.symm h0), beq_eq_false_iff_ne.2 (Ne.symm h1), beq_eq_false_iff_ne.2 (Ne.symm h2)]
        simp [h0, h1, h2]

theorem typeText_nulFree (z : Int) : NulFree (typeText z) := by
  unfold typeText
  split
  · unfold NulFree; decide
  split
  · unfold NulFree; decide
  split
  · unfold NulFree; decide
  · unfold NulFree; decide

/-- **C116.** What `print_variables` writes: the time scale with six places, the city up to a character 0, the name of the type. -/
theorem C116_line (h : List (Σ k, ExampleVar.Ty k)) (named : List Named) (init : ∀ k : ExampleVar, k.Ty) :
    VarTold (exampleVars pl tiny).conv (exampleCommands pl) init h ⟨lit "print_variables", [], named⟩ h none
      (lit "Time scale: " ++ Fl.printF (valueAfter init h .timeScale) ++ lit ", city: " ++ upToNul (valueAfter init h .city) ++ lit ", type: " ++
        typeText (valueAfter init h .type) ++ [10]) := by
  have := VarTold.line (conv := (exampleVars pl tiny).conv) (cs := exampleCommands pl) (init := init) (h := h) (n := lit "print_variables")
    (text := exampleLine pl) (named := named) (by simp [exampleCommands])
  unfold exampleLine at this
  simp only at this
  rw [example_name, cstr_of_nulFree (typeText_nulFree _)] at this
  exact this

/-- **C116.** `god_toggle` and `god_var` are about the same variable: `n` toggles turn it over `n` times, and nothing else. -/
theorem C116_toggles (init : ∀ k : ExampleVar, k.Ty) (h : List (Σ k, ExampleVar.Ty k)) : ∀ n : Nat, ∃ h',
    (∃ outs, Chronicle (VarTold (exampleVars pl tiny).conv (exampleCommands pl) init) (delims cfg) h
      (List.replicate n (.input ⟨lit "god_toggle", [], []⟩)) outs h') ∧
      valueAfter init h' .godMode = (if n % 2 = 0 then valueAfter init h .godMode else !valueAfter init h .godMode) ∧
      ∀ k, k ≠ .godMode → valueAfter init h' k = valueAfter init h k
  | 0 => ⟨h, ⟨[], .nil⟩, by simp, fun _ _ => rfl⟩
  | n + 1 => by
    obtain ⟨h', ⟨outs, hc⟩, hv, ho⟩ := C116_toggles init (h ++ [⟨.godMode, !valueAfter init h .godMode⟩]) n
    have ht := VarTold.toggle (conv := (exampleVars pl tiny).conv) (cs := exampleCommands pl) (init := init) (h := h) (n := lit "god_toggle")
      (k := .godMode) (f := not) (named := []) (by simp [exampleCommands])
    refine ⟨h', ⟨_, .input ⟨⟨⟨[], [], []⟩, [], _, []⟩, rfl, .inl ⟨ht, rfl⟩⟩ hc⟩, ?_, ?_⟩
    · rw [hv, valueAfter_same]
      by_cases hn : n % 2 = 0
      · have : ¬ (n + 1) % 2 = 0 := by omega
        simp [hn, this]
      · have : (n + 1) % 2 = 0 := by omega
        simp [hn, this]
    · intro k hk
      rw [ho k hk, valueAfter_other _ _ _ _ hk]

/-- **C116, partial.** When the program answers: exactly if every line fits and has no lone quote in a group, and, where `char` is signed, no odd
word is assigned with `god_var` or `god_toggle`. The full claim, that it always answers, is false: see `C116_total_false`. -/
theorem C116_total_partial (hp : Proper cfg) (hex : ∀ b, 0 < b → exceeds 1 b = false) :
    (∃ fuel s outs, observed (exampleVars pl tiny).functions (mapOps fixed charSigned exceeds) (UMap.create (djb2 charSigned) 1) catching fuel
      (some (fitting cfg)) VarWorld.start (fixedProgram (varTable (exampleCommands pl)) reqs) = .ok (s, outs)) ↔
    ∀ r ∈ reqs, Enterable (delims cfg) r ∧ ∀ i, Enters (delims cfg) r i → ¬ VarTrouble pl i := by
  rw [C115_answers hp hex example_names]
  have key : ∀ i : Input, (∀ kind k v, (i.name, kind) ∈ exampleCommands pl → VarKind.about kind = some k → i.arguments = [v] →
      ∃ r, ((exampleVars pl tiny).conv k).fromString v = .ok r) ↔ ¬ VarTrouble pl i := by
    intro i
    constructor
    · rintro h ⟨h1, h2, t, h3, h4⟩
      have : ∃ r, (boolConv pl).fromString ⟨[t]⟩ = .ok r := by
        rcases h2 with h2 | h2
        · exact h (.plain .godMode) .godMode _ (by rw [h2]; simp [exampleCommands]) rfl h3
        · exact h (.toggle .godMode not) .godMode _ (by rw [h2]; simp [exampleCommands]) rfl h3
      exact (bool_converts _).1 this ⟨h1, t, rfl, h4⟩
    · intro hn kind k v hm hk ha
      cases k with
      | timeScale => exact single_defined _
      | city => exact string_converts v
      | type => exact C85_defined_partial rfl _
      | godMode =>
        refine (bool_converts v).2 ?_
        rintro ⟨h1, t, rfl, h2⟩
        refine hn ⟨h1, ?_, t, ha, h2⟩
        simp only [exampleCommands, List.mem_cons, List.not_mem_nil, or_false, Prod.mk.injEq] at hm
        rcases hm with ⟨_, rfl⟩ | ⟨_, rfl⟩ | ⟨_, rfl⟩ | ⟨h, rfl⟩ | ⟨h, rfl⟩ | ⟨_, rfl⟩
        · cases hk
        · cases hk
        · cases hk
        · exact .inl h
        · exact .inr h
        · cases hk
  constructor
  · exact fun h r hr => ⟨(h r hr).1, fun i hi => (key i).1 ((h r hr).2 i hi)⟩
  · exact fun h r hr => ⟨(h r hr).1, fun i hi => (key i).2 ((h r hr).2 i hi)⟩

end Example

/-! ## Examples -/

namespace Variables

/-- The program with these lines, on the hash map as it is. -/
abbrev entered (lines : List Bytes) :
    Res (Sys (UMap Bytes (Command (VarCode ExampleVar ExampleVar.Ty) Unit)) VarWorld (VarCode ExampleVar ExampleVar.Ty) Unit × List ExecOut) :=
  observed (exampleVars linux64 (fun _ _ => false)).functions (mapOps false true overOne) (UMap.create (djb2 true) 1)
    true 5 (some (fitting (LexCfg.default true))) VarWorld.start (fixedProgram (varTable (exampleCommands linux64)) (lines.map .line))

/-- The answers: errors, and return value or output. -/
abbrev answers (lines : List String) : Res (List (Option (List Bytes × Bytes))) :=
  (entered (lines.map lit)).map fun x => x.2.map fun o => o.toOption.map fun r => (r.errors, r.returnValue.getD r.output)

/-- An answer without errors. -/
abbrev said (t : String) : Option (List Bytes × Bytes) := some ([], lit t)

/-- An error. -/
abbrev wrong (t : String) : Option (List Bytes × Bytes) := some ([lit t], [])

end Variables

open Variables

/-- **C116**, a witness: with signed `char`, four bytes as the argument of `god_var` make the program undefined. -/
theorem C116_total_false : (entered [lit "god_var tru" ++ [128]]).map (fun x => x.2.length) = .ub .toLowerRange := by decide +kernel

/-- The lines of the example (VariablesExample.cpp 61-70). -/
example : answers ["time_scale", "city", "type", "print_variables", "time_scale 2.0", "city Berlin", "type Type3", "print_variables"] =
    .ok [said "1", said "Moscow", said "Type2", said "Time scale: 1.000000, city: Moscow, type: Type2\n", said "2", said "Berlin", said "Type3",
      said "Time scale: 2.000000, city: Berlin, type: Type3\n"] := by
  decide +kernel

/-- The lines of the example (VariablesExample.cpp 73-76). -/
example : answers ["time_scale 2.0 3.0", "city Porto Athens", "type UnknownType", "print_variables"] =
    .ok [wrong "Wrong number of arguments to 'time_scale': expected 0 or 1, got 2", wrong "Wrong number of arguments to 'city': expected 0 or 1, got 2",
      wrong "Unable to convert 'UnknownType' to type 'Type': Possible values are ['Type1', 'Type2', 'Type3']",
      said "Time scale: 1.000000, city: Moscow, type: Type2\n"] := by
  decide +kernel

/-- The lines of the example (VariablesExample.cpp 79-82). -/
example : answers ["god_var", "god_toggle", "god_toggle false", "god_toggle 1"] = .ok [said "false", said "true", said "false", said "true"] := by
  decide +kernel

/-- The program tells a story: the hypotheses of C116 hold, and what is left is what the history says. -/
example : ∃ outs h', Chronicle (VarTold (exampleVars linux64 (fun _ _ => false)).conv (exampleCommands linux64) ((exampleVars linux64 (fun _ _ => false)).values .start))
    (delims (LexCfg.default true)) [] (["god_toggle", "city Rome", "god_toggle", "type 7", "god_toggle"].map fun l => .line (lit l)) outs h' ∧
      valueAfter ((exampleVars linux64 (fun _ _ => false)).values .start) h' .city = lit "Rome" ∧
      valueAfter ((exampleVars linux64 (fun _ _ => false)).values .start) h' .type = 7 ∧
      valueAfter ((exampleVars linux64 (fun _ _ => false)).values .start) h' .godMode = true := by
  have hleft : ((entered (["god_toggle", "city Rome", "god_toggle", "type 7", "god_toggle"].map lit)).map fun x =>
      (x.1.user.city, x.1.user.type, x.1.user.godMode)) = .ok (lit "Rome", 7, true) := by decide +kernel
  have hmap : ∀ {α β : Type} {f : α → β} {x : Res α} {y : β}, x.map f = .ok y → ∃ a, x = .ok a ∧ f a = y := by
    intro α β f x y h
    cases x with
    | ok a => cases h; exact ⟨a, rfl, rfl⟩
    | ub | diverge => cases h
  obtain ⟨⟨s, outs⟩, he, hx⟩ := hmap hleft
  obtain ⟨h', hs, hk⟩ := C116_run (proper_default true) (by intro b hb; simp [overOne]; omega) he
  refine ⟨outs, h', hs, ?_, ?_, ?_⟩ <;> rw [← hk]
  · exact congrArg (fun p => p.1) hx
  · exact congrArg (fun p => p.2.1) hx
  · exact congrArg (fun p => p.2.2) hx

end Coil
