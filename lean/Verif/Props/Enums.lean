import Verif.Proofs.Flags
import Verif.Props.Access
import Verif.Props.Conv
import Verif.Props.Lexer

/-!
# Enumerations and flags (C85, C86)

The serializer for enumerations and the flags variable of the examples.
-/

namespace Coil
open Spec

namespace Demo

/-- `PlayerAbilitySystem::Ability` (EnumsExample.cpp 17-23). -/
def ability : EnumDecl := ⟨lit "Ability", .int, true, [(lit "None", 0), (lit "SpeedBoost", 1), (lit "IncreasedHealth", 2)]⟩

/-- `PlayerAbilitySystem::ResetMode` (EnumsExample.cpp 25-31); GCC and Clang choose `unsigned int`. -/
def resetMode : EnumDecl := ⟨lit "ResetMode", .uint, false, [(lit "Never", 0), (lit "AfterDelay", 1), (lit "AfterDeath", 2)]⟩

/-- Two names for one value, names that differ by case only, a value that is too large. -/
def odd : EnumDecl := ⟨lit "Odd", .int, true,
  [(lit "First", 5), (lit "Second", 5), (lit "LOW", 3), (lit "low", 2), (lit "Big", 1000), (lit "Small", -7)]⟩

/-- `EntityDebugDrawFlags` (FlagsExample.cpp 12-18). -/
def drawFlags : EnumDecl := ⟨lit "EntityDebugDrawFlags", .int, true,
  [(lit "DrawBoundingBox", 1), (lit "DrawOrigin", 2), (lit "DrawWireframe", 4), (lit "DrawName", 8)]⟩

/-- A flag that is too large for a name. -/
def farFlags : EnumDecl := ⟨lit "Far", .int, true, [(lit "Near", 1), (lit "Far", 256)]⟩

end Demo

variable {pl : Platform} {d : EnumDecl}

theorem identifier_sameWord {s n : Bytes} (h : SameWord s n) (hn : Identifier n) : Identifier s := by
  have one : ∀ c e, Alike c e → IdentChar e → IdentChar c ∧ (¬ (48 ≤ e.toNat ∧ e.toNat ≤ 57) → ¬ (48 ≤ c.toNat ∧ c.toNat ≤ 57)) := by
    intro c e h he
    unfold Alike SameLetter at h
    unfold IdentChar at *
    rcases h with (rfl | h) | (rfl | h) <;> refine ⟨?_, ?_⟩ <;> (try intro _) <;> (try assumption) <;> omega
  obtain ⟨h1, c, t, rfl, h3⟩ := hn
  unfold SameWord at h
  cases h with
  | @cons a _ as _ hab hrest =>
    have hh := one _ _ hab (h1 c (by simp))
    refine ⟨?_, a, as, rfl, hh.2 h3⟩
    have tail : ∀ {as t : Bytes}, Forall2 Alike as t → (∀ x ∈ t, IdentChar x) → ∀ x ∈ as, IdentChar x := by
      intro as t h
      induction h with
      | nil => intro _ x hx; simp at hx
      | cons h' _ ih =>
        intro ht x hx
        rcases List.mem_cons.1 hx with rfl | hx
        · exact (one _ _ h' (ht _ (by simp))).1
        · exact ih (fun y hy => ht y (by simp [hy])) x hx
    intro x hx
    rcases List.mem_cons.1 hx with rfl | hx
    · exact hh.1
    · exact tail hrest (fun y hy => h1 y (by simp [hy])) x hx

/-! ## C85 -/

theorem asName_iff {s : Bytes} {x : Int} (hn : d.underlying.fromString pl s = none) :
    enumCast s (d.entries pl) = some x ↔ AsName pl d s x := by
  have h0 : ∀ z, ¬ AsNumber pl d.underlying s z := fun z h => by
    rw [asNumber_iff, hn] at h
    cases h
  rw [enumCast_some (entries_sorted pl d)]
  simp only [mem_entries, AsName]
  exact ⟨fun h => ⟨h0, h⟩, fun h => h.2⟩

/-- **C85.** An argument of enumeration type is a number that is a value of the enumeration, or a name, in any case. -/
theorem C85_accepts_iff (v : Value) (x : Int) :
    (enumConv pl d).fromString v = .ok (.ok x) ↔
      ∃ s, v.subvalues = [s] ∧ (AsNumber pl d.underlying s x ∧ ValueOf d x ∨ AsName pl d s x) := by
  by_cases hl : v.subvalues.length = 1
  · obtain ⟨l⟩ := v
    match l, hl with
    | [s], _ =>
      rw [enumConv_single]
      simp only [List.cons.injEq, and_true, exists_eq_left']
      cases hn : d.underlying.fromString pl s with
      | some z =>
        have hz : AsNumber pl d.underlying s z := asNumber_iff.2 hn
        have hnot : ¬ AsName pl d s x := fun h => h.1 z hz
        simp only [hnot, or_false]
        cases hc : d.cast z with
        | ok y =>
          obtain ⟨rfl, hv⟩ := cast_ok.1 hc
          simp only [Res.ok.injEq, Except.ok.injEq]
          constructor
          · rintro rfl
            exact ⟨hz, hv⟩
          · exact fun h => asNumber_unique hz h.1
        | ub w =>
          have hv := (cast_ub.1 hc).2
          simp only [reduceCtorEq, false_iff]
          rintro ⟨h1, h2⟩
          rw [asNumber_unique h1 hz] at h2
          exact hv h2
        | diverge =>
          unfold EnumDecl.cast at hc
          split at hc <;> cases hc
      | none =>
        have h0 : ¬ AsNumber pl d.underlying s x := fun h => by
          rw [asNumber_iff, hn] at h
          cases h
        simp only [h0, false_and, false_or, ← asName_iff hn, enumByName]
        cases enumCast s (d.entries pl) <;> simp
  · rw [enumConv_other pl d hl]
    simp only [Res.ok.injEq, reduceCtorEq, false_iff]
    rintro ⟨s, h, _⟩
    exact hl (by simp [h])

/-- The texts of the reasons have no NUL. -/
theorem possibleValues_eq (hd : Declarable pl d) :
    lit "Possible values are [" ++ cstr (flatten ((d.entries pl).map (·.1)) (lit "'") (lit ", ")) ++ lit "]" =
      possibleValues ((d.entries pl).map (·.1)) ∧ NulFree (possibleValues ((d.entries pl).map (·.1))) := by
  have hn : NulFree ((lit ", ").intercalate (((d.entries pl).map (·.1)).map fun n => lit "'" ++ n ++ lit "'")) := by
    refine nulFree_intercalate (by unfold NulFree; decide +kernel) fun n hn => ?_
    simp only [List.map_map, List.mem_map, Function.comp_apply] at hn
    obtain ⟨⟨m, x⟩, h1, rfl⟩ := hn
    have := identifier_nulFree (hd.ident _ (primary_mem (mem_entries.1 h1).1))
    unfold NulFree at *
    simp only [List.mem_append, not_or]
    exact ⟨⟨by decide +kernel, this⟩, by decide +kernel⟩
  rw [flatten_eq, cstr_of_nulFree hn]
  refine ⟨rfl, ?_⟩
  unfold possibleValues
  unfold NulFree at *
  simp only [List.mem_append, not_or]
  exact ⟨⟨by decide +kernel, hn⟩, by decide +kernel⟩

/-- **C85.** Everything else is rejected with an error that lists the names that work. -/
theorem C85_rejects (hd : Declarable pl d) (ht : NulFree d.typeName) (v : Value) (m : Bytes) :
    (enumConv pl d).fromString v = .ok (.error m) ↔
      (v.subvalues.length ≠ 1 ∧
        m = cannotConvertBecause (cstr (joined v.subvalues)) d.typeName (wrongSubvalues 1 v.subvalues.length)) ∨
      ∃ s es, v.subvalues = [s] ∧ (∀ z, ¬ AsNumber pl d.underlying s z) ∧ (∀ n x, Known pl d n x → ¬ SameWord s n) ∧
        KnownList pl d es ∧ m = cannotConvertBecause (cstr s) d.typeName (possibleValues (es.map (·.1))) := by
  have huniq : ∀ es, KnownList pl d es → es = d.entries pl := by
    intro es h
    have hp : es.Perm (d.entries pl) := by
      rw [List.perm_ext_iff_of_nodup]
      · rintro ⟨n, x⟩
        rw [h.all, mem_entries]
      · exact h.sorted.imp fun h e => by rw [e] at h; omega
      · exact (entries_sorted pl d).imp fun h e => by rw [e] at h; omega
    exact hp.eq_of_pairwise (le := fun a b : Bytes × Int => a.2 < b.2) (fun a b _ _ h1 h2 => by omega) h.sorted
      (entries_sorted pl d)
  by_cases hl : v.subvalues.length = 1
  · obtain ⟨l⟩ := v
    match l, hl with
    | [s], _ =>
      rw [enumConv_single]
      simp only [List.length_singleton, ne_eq, not_true_eq_false, false_and, false_or, List.cons.injEq, and_true]
      cases hn : d.underlying.fromString pl s with
      | some z =>
        have hz : AsNumber pl d.underlying s z := asNumber_iff.2 hn
        constructor
        · dsimp only
          cases d.cast z <;> simp
        · rintro ⟨s', es, rfl, h, _⟩
          exact absurd hz (h z)
      | none =>
        have h0 : ∀ z, ¬ AsNumber pl d.underlying s z := fun z h => by
          rw [asNumber_iff, hn] at h
          cases h
        simp only [enumByName]
        obtain ⟨h1, h2⟩ := possibleValues_eq hd
        cases hc : enumCast s (d.entries pl) with
        | some x =>
          simp only [Res.ok.injEq, reduceCtorEq, false_iff]
          rintro ⟨s', es, rfl, _, h, _⟩
          obtain ⟨n, h3, h4, _⟩ := (enumCast_some (entries_sorted pl d)).1 hc
          exact h n x (mem_entries.1 h3) h4
        | none =>
          have hne : possibleValues ((d.entries pl).map (·.1)) ≠ [] := by
            unfold possibleValues
            simp [lit]
          rw [h1, genericError_cons _ _ hne, cstr_of_nulFree ht, cstr_of_nulFree h2]
          have hj : joined [s] = s := by simp [joined, List.intercalate]
          simp only [hj, Res.ok.injEq, Except.error.injEq]
          constructor
          · rintro rfl
            exact ⟨s, _, rfl, h0, fun n x hk => enumCast_none.1 hc n x (mem_entries.2 hk), entries_known pl d, rfl⟩
          · rintro ⟨s', es, rfl, _, _, hk, rfl⟩
            rw [huniq es hk]
  · rw [enumConv_other pl d hl, mismatchError_eq, cstr_of_nulFree ht]
    simp only [Res.ok.injEq, Except.error.injEq]
    constructor
    · rintro rfl
      exact .inl ⟨hl, rfl⟩
    · rintro (⟨_, rfl⟩ | ⟨s, _, h, _⟩)
      · rfl
      · exact absurd (by simp [h]) hl

/-- **C85.** The conversion is undefined exactly for numbers that are no values of the enumeration. -/
theorem C85_ub_iff (v : Value) (w : UB) :
    (enumConv pl d).fromString v = .ub w ↔
      w = .badEnum ∧ ∃ s z, v.subvalues = [s] ∧ AsNumber pl d.underlying s z ∧ ¬ ValueOf d z := by
  by_cases hl : v.subvalues.length = 1
  · obtain ⟨l⟩ := v
    match l, hl with
    | [s], _ =>
      rw [enumConv_single]
      simp only [List.cons.injEq, and_true]
      cases hn : d.underlying.fromString pl s with
      | some z =>
        have hz : AsNumber pl d.underlying s z := asNumber_iff.2 hn
        have hr : (∃ s' z', s = s' ∧ AsNumber pl d.underlying s' z' ∧ ¬ ValueOf d z') ↔ ¬ ValueOf d z := by
          constructor
          · rintro ⟨_, z', rfl, h1, h2⟩
            rwa [asNumber_unique hz h1]
          · exact fun h => ⟨s, z, rfl, hz, h⟩
        rw [hr, ← cast_ub]
        dsimp only
        cases d.cast z <;> simp
      | none =>
        simp only [reduceCtorEq, false_iff]
        rintro ⟨_, s', z, rfl, h, _⟩
        rw [asNumber_iff, hn] at h
        cases h
  · rw [enumConv_other pl d hl]
    simp only [reduceCtorEq, false_iff]
    rintro ⟨_, s, _, h, _⟩
    exact hl (by simp [h])

/-- **C85.** With a fixed underlying type - `enum class`, or a type after the name - the conversion is always defined. -/
theorem C85_defined_partial (hf : d.fixed = true) (v : Value) : ∃ r, (enumConv pl d).fromString v = .ok r := by
  cases h : (enumConv pl d).fromString v with
  | ok r => exact ⟨r, rfl⟩
  | ub w =>
    obtain ⟨_, _, _, _, _, hv⟩ := (C85_ub_iff v w).1 h
    exact absurd (.inl hf) hv
  | diverge =>
    by_cases hl : v.subvalues.length = 1
    · obtain ⟨l⟩ := v
      match l, hl with
      | [s], _ =>
        rw [enumConv_single] at h
        unfold EnumDecl.cast at h
        simp only [hf, true_or, if_true] at h
        split at h <;> cases h
    · rw [enumConv_other pl d hl] at h
      cases h

/-- **C85, negation.** `abilities.set_ability SpeedBoost 100` of the example is undefined. -/
theorem C85_defined_false : Declarable Demo.pl Demo.resetMode ∧
    (enumConv Demo.pl Demo.resetMode).fromString ⟨[lit "100"]⟩ = .ub .badEnum := by
  refine ⟨⟨?_, by decide +kernel, ?_⟩, by decide +kernel⟩
  · simp only [Demo.resetMode, List.mem_cons, List.not_mem_nil, or_false, forall_eq_or_imp, forall_eq, Identifier]
    refine ⟨⟨?_, _, _, rfl, ?_⟩, ⟨?_, _, _, rfl, ?_⟩, ?_, _, _, rfl, ?_⟩
    all_goals (try unfold IdentChar)
    all_goals decide +kernel
  · unfold InRange
    decide +kernel

/-- **C85.** A name reads as its value, in any mixture of cases, if it is the first of its value, the value is between -128
and 128, and no other constant has the same letters. -/
theorem C85_names_partial (hd : Declarable pl d) {n s : Bytes} {x : Int} (hp : Primary d n x) (h1 : -128 ≤ x) (h2 : x ≤ 128)
    (huniq : ∀ c ∈ d.constants, SameWord n c.1 → c.1 = n) (hs : SameWord s n) :
    (enumConv pl d).fromString ⟨[s]⟩ = .ok (.ok x) := by
  have hmem := primary_mem hp
  refine (C85_accepts_iff _ _).2 ⟨s, rfl, .inr ⟨fun z => identifier_not_number (identifier_sameWord hs (hd.ident _ hmem)) z, n,
    ⟨hp, hd.range _ hmem, h1, h2⟩, hs, fun m y hk hm => ?_⟩⟩
  have hm' := primary_mem hk.1
  have he := huniq _ hm' (sameWord_trans (sameWord_symm hs) hm)
  simp only at he
  subst he
  have : ∀ {l : List (Bytes × Int)}, (l.map (·.1)).Nodup → (m, x) ∈ l → (m, y) ∈ l → x = y := by
    intro l
    induction l with
    | nil => intro _ h; simp at h
    | cons c l ih =>
      intro hn ha hb
      simp only [List.map_cons, List.nodup_cons, List.mem_map, not_exists, not_and] at hn
      rcases List.mem_cons.1 ha with rfl | ha <;> rcases List.mem_cons.1 hb with hb | hb
      · exact (Prod.mk.inj hb).2.symm
      · exact absurd rfl (hn.1 (m, y) hb)
      · rw [← hb] at hn
        exact absurd rfl (hn.1 (m, x) ha)
      · exact ih hn.2 ha hb
  rw [this hd.distinct hmem hm']
  exact Int.le_refl _

/-- **C85, negation.** Not every constant can be entered by its name, though the program compiles: a second name of a value
and a large value are rejected, and of two names that differ by case only the one with the smaller value is taken. -/
theorem C85_names_false : Demo.odd.compiles Demo.pl = true ∧
    (lit "Second", 5) ∈ Demo.odd.constants ∧
    (enumConv Demo.pl Demo.odd).fromString ⟨[lit "Second"]⟩ = .ok (.error
      (lit "Unable to convert 'Second' to type 'Odd': Possible values are ['Small', 'low', 'LOW', 'First']")) ∧
    (lit "Big", 1000) ∈ Demo.odd.constants ∧
    (enumConv Demo.pl Demo.odd).fromString ⟨[lit "Big"]⟩ = .ok (.error
      (lit "Unable to convert 'Big' to type 'Odd': Possible values are ['Small', 'low', 'LOW', 'First']")) ∧
    (lit "LOW", 3) ∈ Demo.odd.constants ∧
    (enumConv Demo.pl Demo.odd).fromString ⟨[lit "LOW"]⟩ = .ok (.ok 2) := by
  refine ⟨?_, ?_, ?_, ?_, ?_, ?_, ?_⟩ <;> decide +kernel

/-- **C85.** A value is written as its name, or as an empty text if it has none that works. -/
theorem C85_print (x : Int) :
    (∃ n, Known pl d n x ∧ (enumConv pl d).toString x = n) ∨
      ((¬ ∃ n, Known pl d n x) ∧ (enumConv pl d).toString x = []) := by
  by_cases h : ∃ n, Known pl d n x
  · obtain ⟨n, hn⟩ := h
    exact .inl ⟨n, hn, enumName_some (entries_sorted pl d) (mem_entries.2 hn)⟩
  · refine .inr ⟨h, enumName_none fun n hn => h ⟨n, mem_entries.1 hn⟩⟩

/-- **C85.** What is written for a value with a name of its own is read as that value. -/
theorem C85_roundtrip_partial (hd : Declarable pl d) {n : Bytes} {x : Int} (hk : Known pl d n x)
    (huniq : ∀ c ∈ d.constants, SameWord n c.1 → c.1 = n) :
    (enumConv pl d).fromString ⟨[(enumConv pl d).toString x]⟩ = .ok (.ok x) := by
  have : (enumConv pl d).toString x = n := enumName_some (entries_sorted pl d) (mem_entries.2 hk)
  rw [this]
  exact C85_names_partial hd hk.1 hk.2.2.1 hk.2.2.2 huniq (sameWord_refl n)

/-- **C85, negation.** The value 100 of the scoped enumeration is accepted, written as an empty text, and that is rejected. -/
theorem C85_roundtrip_false :
    (enumConv Demo.pl Demo.ability).fromString ⟨[lit "100"]⟩ = .ok (.ok 100) ∧
    (enumConv Demo.pl Demo.ability).toString 100 = [] ∧
    (enumConv Demo.pl Demo.ability).fromString ⟨[[]]⟩ = .ok (.error
      (lit "Unable to convert '' to type 'Ability': Possible values are ['None', 'SpeedBoost', 'IncreasedHealth']")) := by
  refine ⟨?_, ?_, ?_⟩ <;> decide +kernel

example : (enumConv Demo.pl Demo.ability).fromString ⟨[lit "sPEEDbOOST"]⟩ = .ok (.ok 1) ∧
    (enumConv Demo.pl Demo.ability).toString 1 = lit "SpeedBoost" ∧
    (enumConv Demo.pl Demo.ability).fromString ⟨[lit "2"]⟩ = .ok (.ok 2) ∧
    (enumConv Demo.pl Demo.resetMode).fromString ⟨[lit "3"]⟩ = .ok (.ok 3) ∧
    (enumConv Demo.pl Demo.resetMode).fromString ⟨[lit "4"]⟩ = .ub .badEnum ∧
    (enumConv Demo.pl Demo.ability).fromString ⟨[lit "NoRecoil"]⟩ = .ok (.error
      (lit "Unable to convert 'NoRecoil' to type 'Ability': Possible values are ['None', 'SpeedBoost', 'IncreasedHealth']")) ∧
    (enumConv Demo.pl Demo.ability).fromString ⟨[lit "None", lit "1"]⟩ = .ok (.error
      (lit "Unable to convert 'None 1' to type 'Ability': Expected 1 subvalues, got 2")) := by
  refine ⟨?_, ?_, ?_, ?_, ?_, ?_, ?_⟩ <;> decide +kernel

end Coil
