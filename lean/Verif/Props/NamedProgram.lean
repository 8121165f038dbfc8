import Verif.Proofs.NamedProgram
import Verif.Props.Answered

/-!
# The program of examples/named (C125)
-/

namespace Coil
open Spec Fl Floats Vw

variable {pl : Platform} {tiny : Nat → Nat → Bool} {catching charSigned fixed : Bool} {cfg : LexCfg} {reqs : List Request}
  {exceeds : Nat → Nat → Bool} {outs : List ExecOut} {s : Sys (UMap Bytes (Command NamedCode Unit)) (List (Item Bytes)) NamedCode Unit} {fuel : Nat}

/-- **C125.** Whatever is entered, the commands do what is told, from the items of the beginning on. -/
theorem C125_run (hp : Proper cfg) (hex : ∀ b, 0 < b → exceeds 1 b = false) (hl : pl.long64 = true)
    (h : observed (namedFunctions pl tiny) (mapOps fixed charSigned exceeds) (UMap.create (djb2 charSigned) 1) catching fuel
      (some (fitting cfg)) namedStart (fixedProgram namedTable reqs) = .ok (s, outs)) :
    Annals (NamedAccount pl tiny) catching (delims cfg) firstItems reqs outs s.user := by
  obtain ⟨_, g, rfl⟩ := (named_accounts hl).annals ((C110_run hp hex named_quiet).1 ⟨fuel, s, h, rfl⟩) rfl
  exact g

/-- **C125, partial.** When the program answers: exactly if every line fits and has no lone quote in a group, and, where `char` is signed,
`required_and_optional` is given no odd word. The full claim, that it always answers, is false: see `C125_total_false`. -/
theorem C125_total_partial (hp : Proper cfg) (hex : ∀ b, 0 < b → exceeds 1 b = false) (hl : pl.long64 = true) :
    (∃ fuel s outs, observed (namedFunctions pl tiny) (mapOps fixed charSigned exceeds) (UMap.create (djb2 charSigned) 1) catching fuel
      (some (fitting cfg)) namedStart (fixedProgram namedTable reqs) = .ok (s, outs)) ↔
    ∀ r ∈ reqs, Enterable (delims cfg) r ∧ ∀ i, Enters (delims cfg) r i → ¬ NamedTrouble pl i := by
  rw [C117_iff hp hex named_quiet named_steady trivial]
  simp only [named_answerable hl]

/-- **C125.** What an argument of an enumeration can be: a number of type `int`, or one of the names in any mixture of cases; everything else is an
error. -/
theorem C125_words (v : Value) (x : Int) :
    ((enumConv pl sourceDecl).fromString v = .ok (.ok x) ↔ ∃ t, v = ⟨[t]⟩ ∧ ScopedText pl itemSources t x) ∧
    ((enumConv pl typeDecl).fromString v = .ok (.ok x) ↔ ∃ t, v = ⟨[t]⟩ ∧ ScopedText pl itemTypes t x) ∧
    ((enumConv pl saveGameDecl).fromString v = .ok (.ok x) ↔ ∃ t, v = ⟨[t]⟩ ∧ ScopedText pl saveTypes t x) ∧
    ∀ d ∈ [sourceDecl, typeDecl, saveGameDecl], ∃ r, (enumConv pl d).fromString v = .ok r := by
  refine ⟨scoped_reads rfl rfl rfl source_declarable itemSources_plain, scoped_reads rfl rfl rfl itemType_declarable itemTypes_plain,
    scoped_reads rfl rfl rfl save_declarable saveTypes_plain, fun d hd => C85_defined_partial ?_ v⟩
  simp only [List.mem_cons, List.not_mem_nil, or_false] at hd
  rcases hd with rfl | rfl | rfl <;> rfl

theorem index_range {t : Bytes} {z : Int} (h : IndexText t z) : 0 ≤ z ∧ z < 2 ^ 64 := by
  obtain ⟨_, neg, mag, _, h2, h3⟩ := h
  rw [h3]
  cases neg <;> simp at * <;> omega

/-- **C125.** Items are never changed and never go away: there are always the items of the beginning, in their order, and after them those that were
added. These come from `Debug`; their numbers and amounts are of type `std::size_t`. -/
theorem C125_items (hp : Proper cfg) (hex : ∀ b, 0 < b → exceeds 1 b = false) (hl : pl.long64 = true)
    (h : observed (namedFunctions pl tiny) (mapOps fixed charSigned exceeds) (UMap.create (djb2 charSigned) 1) catching fuel
      (some (fitting cfg)) namedStart (fixedProgram namedTable reqs) = .ok (s, outs)) :
    ∃ added, s.user = firstItems ++ added ∧ ∀ i ∈ added, i.source = 3 ∧ 0 ≤ i.id ∧ i.id < 2 ^ 64 ∧ 0 ≤ i.amount ∧ i.amount < 2 ^ 64 := by
  refine annals_kept (I := fun h => ∃ added, h = firstItems ++ added ∧
    ∀ i ∈ added, i.source = 3 ∧ 0 ≤ i.id ∧ i.id < 2 ^ 64 ∧ 0 ≤ i.amount ∧ i.amount < 2 ^ 64) (C125_run hp hex hl h) ?_ ⟨[], by simp, by simp⟩
  rintro r _ i _ h h' o ⟨added, rfl, h0⟩ ht
  cases ht with
  | @add _ s z t x k named hz ha =>
    refine ⟨added ++ [⟨z, t, x, 3, k⟩], by simp, fun i hi => ?_⟩
    rcases List.mem_append.1 hi with hi | hi
    · exact h0 i hi
    · obtain rfl := List.mem_singleton.1 hi
      have h1 := index_range hz
      obtain ⟨e1, e2, _, hx, _⟩ := ha
      have h2 : 0 ≤ x ∧ x < 2 ^ 64 := by
        cases hx with
        | absent => norm_num
        | good _ hc =>
          obtain ⟨_, _, h3⟩ := (size_reads (.inr ⟨rfl, hl⟩)).1 hc
          exact index_range h3
      exact ⟨rfl, h1.1, h1.2, h2.1, h2.2⟩
  | _ => exact ⟨added, rfl, h0⟩

/-- **C125.** The items stay as they are if nothing is entered for `inventory.add`. -/
theorem C125_same (hp : Proper cfg) (hex : ∀ b, 0 < b → exceeds 1 b = false) (hl : pl.long64 = true)
    (h : observed (namedFunctions pl tiny) (mapOps fixed charSigned exceeds) (UMap.create (djb2 charSigned) 1) catching fuel
      (some (fitting cfg)) namedStart (fixedProgram namedTable reqs) = .ok (s, outs))
    (hn : ∀ r ∈ reqs, ∀ i, Enters (delims cfg) r i → i.name ≠ lit "inventory.add") : s.user = firstItems := by
  refine annals_kept (I := fun h => h = firstItems) (C125_run hp hex hl h) ?_ rfl
  rintro r hr i hi h h' o rfl ht
  have hn := hn r hr i hi
  cases ht with
  | add => exact absurd rfl hn
  | _ => rfl

/-- **C125.** Whatever was entered before, `inventory.list` shows the items that are asked for, among all those of the beginning and those that were
added, and only them, in their order. -/
theorem C125_list (hp : Proper cfg) (hex : ∀ b, 0 < b → exceeds 1 b = false) (hl : pl.long64 = true) {named : List Named}
    (h : observed (namedFunctions pl tiny) (mapOps fixed charSigned exceeds) (UMap.create (djb2 charSigned) 1) catching fuel
      (some (fitting cfg)) namedStart (fixedProgram namedTable (reqs ++ [.input ⟨lit "inventory.list", [], named⟩])) = .ok (s, outs))
    {n : Option Bytes} {a so ty : Option Int} (ha : ListAsked pl named [] n a so ty) :
    ∃ before r shown lines, outs = before ++ [.ok r] ∧ r.errors = [] ∧ r.returnValue = none ∧ Chosen (Wanted n a so ty) s.user shown ∧
      Forall2 ItemLine shown lines ∧ r.output = tableHead ++ lines.flatten := by
  obtain ⟨h1, outs1, out, _, rfl, hr⟩ := annals_last (C125_run hp hex hl h)
  obtain ⟨f1, f2, f3, f4, hf, a1, a2, a3, a4⟩ := ha
  have hf' : f1 = [] ∧ f2 = [] ∧ f3 = [] ∧ f4 = [] := by simpa [and_assoc] using hf.symm
  obtain ⟨rfl, rfl, rfl, rfl⟩ := hf'
  rcases hr with ⟨o, ht, hs⟩ | ⟨hno, _⟩
  · generalize hi : (⟨lit "inventory.list", [], named⟩ : Input) = i at ht
    generalize s.user = u at ht ⊢
    cases ht with
    | @list _ named' n' a' so' ty' shown lines hask hc hlines =>
      cases hi
      obtain ⟨g1, g2, g3, g4, _, b1, b2, b3, b4⟩ := hask
      obtain ⟨_, rfl⟩ := asked_unique a1 b1
      obtain ⟨_, rfl⟩ := asked_unique a2 b2
      obtain ⟨_, rfl⟩ := asked_unique a3 b3
      obtain ⟨_, rfl⟩ := asked_unique a4 b4
      obtain ⟨r, rfl, r1, r2, r3⟩ := hs
      exact ⟨outs1, r, shown, lines, rfl, r1, r2, hc, hlines, r3⟩
    | noList hask he =>
      cases hi
      obtain ⟨g1, g2, g3, g4, rfl, b1, b2, b3, b4⟩ := hask
      obtain ⟨rfl, _⟩ := asked_unique a1 b1
      obtain ⟨rfl, _⟩ := asked_unique a2 b2
      obtain ⟨rfl, _⟩ := asked_unique a3 b3
      obtain ⟨rfl, _⟩ := asked_unique a4 b4
      exact absurd rfl he
    | add | noAdd | args | floats | save | noSave | missing | both => exact absurd (congrArg GInput.name hi) (by dsimp only; decide +kernel)
  · refine absurd ?_ hno
    obtain ⟨ev, _, g⟩ := list_runs (ops := idleOps NamedCode Unit) (ne := idleNested _ _ _) (f := ⟨0, .list, ()⟩) (s := idleSys h1) (tiny := tiny) pl named
    exact ⟨_, _, g⟩

/-- **C125.** An item of the beginning, or one that was added, is in every list that asks for it, whatever else was entered. -/
theorem C125_listed (hp : Proper cfg) (hex : ∀ b, 0 < b → exceeds 1 b = false) (hl : pl.long64 = true) {named : List Named}
    (h : observed (namedFunctions pl tiny) (mapOps fixed charSigned exceeds) (UMap.create (djb2 charSigned) 1) catching fuel
      (some (fitting cfg)) namedStart (fixedProgram namedTable (reqs ++ [.input ⟨lit "inventory.list", [], named⟩])) = .ok (s, outs))
    {n : Option Bytes} {a so ty : Option Int} (ha : ListAsked pl named [] n a so ty) {i : Item Bytes} (hi : i ∈ s.user) (hw : Wanted n a so ty i) :
    ∃ before r t pre post, outs = before ++ [.ok r] ∧ ItemLine i t ∧ r.output = pre ++ t ++ post := by
  obtain ⟨before, r, shown, lines, h1, _, _, h2, h3, h4⟩ := C125_list hp hex hl h ha
  obtain ⟨t, pre, post, h5, h6⟩ := lines_mem h3 (chosen_mem h2 hi hw)
  exact ⟨before, r, t, tableHead ++ pre, post, h1, h5, by rw [h4, h6]; simp⟩

/-! ## Examples -/

namespace Named125

/-- The program with these lines, on the hash map as it is. -/
abbrev entered (lines : List Bytes) : Res (Sys (UMap Bytes (Command NamedCode Unit)) (List (Item Bytes)) NamedCode Unit × List ExecOut) :=
  observed (namedFunctions linux64 (fun _ _ => true)) (mapOps false true overOne) (UMap.create (djb2 true) 1) true 5
    (some (fitting (LexCfg.default true))) namedStart (fixedProgram namedTable (lines.map .line))

/-- The answers: errors and output. -/
abbrev answers (lines : List Bytes) : Res (List (Option (List Bytes × Bytes))) :=
  (entered lines).map fun x => x.2.map fun o => o.toOption.map fun r => (r.errors, r.output)

/-- The items at the end. -/
abbrev left (lines : List Bytes) : Res (List (Item Bytes)) := (entered lines).map fun x => x.1.user

abbrev said (t : String) : Option (List Bytes × Bytes) := some ([], lit t)

abbrev wrong (ts : List String) : Option (List Bytes × Bytes) := some (ts.map lit, [])

end Named125

open Named125

/-- **C125**, a witness: `tru` and the byte 0xC3. As the optional argument it is looked at only if there is a required one. -/
theorem C125_total_false : answers [lit "required_and_optional required=tru" ++ [195]] = .ub .toLowerRange ∧
    answers [lit "required_and_optional required=1 optional=tru" ++ [195]] = .ub .toLowerRange ∧
    answers [lit "required_and_optional optional=tru" ++ [195]] = .ok [wrong ["Missing named argument 'required'"]] := by
  refine ⟨?_, ?_, ?_⟩ <;> decide +kernel

/-- Lines of the example (NamedExample.cpp 188-198). -/
example : answers (["inventory.list name = if", "inventory.list min_amount=2 source=reward", "inventory.add 8 pistol",
      "inventory.add 9 dollar type=Currency amount=10", "inventory.add 10 key2 type=Key", "inventory.list source=debug"].map lit) =
    .ok [said "ID\tName\tAmount\tSource\tType\n--\t----\t------\t------\t----\n5\trifle\t1\tLoot\tWeapon\n6\tknife\t2\tReward\tWeapon\n",
      said "ID\tName\tAmount\tSource\tType\n--\t----\t------\t------\t----\n1\tgems\t40\tReward\tCurrency\n6\tknife\t2\tReward\tWeapon\n",
      said "", said "", said "",
      said "ID\tName\tAmount\tSource\tType\n--\t----\t------\t------\t----\n8\tpistol\t1\tDebug\tWeapon\n9\tdollar\t10\tDebug\tCurrency\n10\tkey2\t1\tDebug\tKey\n"] := by
  decide +kernel

/-- Other lines: what is wrong is reported and adds nothing; a type that has no name is shown as nothing. -/
example : answers (["inventory.add 8 x amount=none type=Sword", "inventory.add x y", "inventory.add 8 odd type=77", "inventory.list source=3",
      "inventory.list min_amount=-1", "save_game type=disk delay=0.5", "print_args a=1 b=(2 3)", "print_floats a=1 b=x"].map lit) =
    .ok [wrong ["Unable to convert 'none' to type 'unsigned long'", "Unable to convert 'Sword' to type 'Type': Possible values are ['None', 'Key', 'Weapon', 'Currency']"],
      wrong ["Unable to convert 'x' to type 'unsigned long'"], said "",
      said "ID\tName\tAmount\tSource\tType\n--\t----\t------\t------\t----\n8\todd\t1\tDebug\t\n",
      wrong ["Unable to convert '-1' to type 'unsigned long'"], said "Saving game with type Disk and delay 0.500000 ms\n",
      said "a: 1\nb: 2 3\n", said "a: 1.000000\n"] := by
  decide +kernel

/-- The items at the end. -/
example : left (["inventory.add 8 pistol", "inventory.add 8 pistol amount=x", "inventory.add 8 pistol type=key"].map lit) =
    .ok (namedStart ++ [⟨8, lit "pistol", 1, 3, 2⟩, ⟨8, lit "pistol", 1, 3, 1⟩]) := by
  decide +kernel

/-- The hypotheses of `C125_listed` hold: a list of the items with at least two of them, asked for with a name in which there is an `e`. -/
example : ListAsked linux64 [⟨lit "name", ⟨[lit "e"]⟩⟩, ⟨lit "min_amount", ⟨[lit "2"]⟩⟩] [] (some (lit "e")) (some 2) none none ∧
    Wanted (some (lit "e")) (some 2) none none ⟨6, lit "knife", 2, 2, 2⟩ ∧ (⟨6, lit "knife", 2, 2, 2⟩ : Item Bytes) ∈ namedStart := by
  refine ⟨⟨[], [], [], [], rfl, .good ⟨[], [_], rfl, by simp⟩ rfl, .good ⟨[_], [], rfl, by decide⟩ rfl, .absent (by unfold NotNamed; decide) rfl,
    .absent (by unfold NotNamed; decide) rfl⟩, ⟨?_, ?_, by simp, by simp⟩, by decide⟩
  · rintro n ⟨⟩
    exact ⟨lit "knif", [], rfl⟩
  · rintro n ⟨⟩
    decide

end Coil
