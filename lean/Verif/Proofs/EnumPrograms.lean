import Verif.Spec.EnumPrograms
import Verif.Proofs.BasicExample
import Verif.Props.Flags

/-!
# The programs of examples/enums and examples/flags: lemmas
-/

namespace Coil
open Spec

variable {pl : Platform} {u : IntType} {d : EnumDecl}

/-! ## Plain constants -/

theorem plain_primary (hp : PlainConstants d.constants) {n : Bytes} {x : Int} (h : (n, x) ∈ d.constants) : Primary d n x := by
  obtain ⟨pre, post, he⟩ := List.append_of_mem h
  refine ⟨pre, post, he, fun c hc hx => ?_⟩
  have := hp.values
  rw [he, List.map_append, List.nodup_append] at this
  exact this.2.2 c.2 (List.mem_map_of_mem hc) x (by simp) hx

theorem plain_known (hd : Declarable pl d) (hp : PlainConstants d.constants) {n : Bytes} {x : Int} : Spec.Known pl d n x ↔ (n, x) ∈ d.constants := by
  constructor
  · exact fun h => primary_mem h.1
  · exact fun h => ⟨plain_primary hp h, hd.range _ h, (hp.small _ h).1, (hp.small _ h).2⟩

theorem plain_named (hd : Declarable pl d) (hp : PlainConstants d.constants) {s : Bytes} {x : Int} : AsName pl d s x ↔ Names d.constants s x := by
  constructor
  · rintro ⟨_, n, hk, hs, _⟩
    exact ⟨n, (plain_known hd hp).1 hk, hs⟩
  · rintro ⟨n, hm, hs⟩
    refine ⟨fun z => identifier_not_number (identifier_sameWord hs (hd.ident _ hm)) z, n, (plain_known hd hp).2 hm, hs, fun m y hk hm' => ?_⟩
    have := hp.apart _ hm _ ((plain_known hd hp).1 hk) (sameWord_trans (sameWord_symm hs) hm')
    cases this
    exact Int.le_refl _

theorem plain_accepts (hd : Declarable pl d) (hp : PlainConstants d.constants) {v : Value} {x : Int} :
    (enumConv pl d).fromString v = .ok (.ok x) ↔ ∃ s, v = ⟨[s]⟩ ∧ (AsNumber pl d.underlying s x ∧ ValueOf d x ∨ Names d.constants s x) := by
  rw [C85_accepts_iff]
  constructor
  · rintro ⟨s, hv, h⟩
    rw [plain_named hd hp] at h
    obtain ⟨l⟩ := v
    dsimp only at hv
    subst hv
    exact ⟨s, rfl, h⟩
  · rintro ⟨s, rfl, h⟩
    exact ⟨s, rfl, by rwa [plain_named hd hp]⟩

theorem plain_shows (hd : Declarable pl d) (hp : PlainConstants d.constants) (x : Int) : Shown d.constants x ((enumConv pl d).toString x) := by
  rcases C85_print (pl := pl) (d := d) x with ⟨n, hk, hn⟩ | ⟨hk, hn⟩
  · rw [hn]
    exact .inl ((plain_known hd hp).1 hk)
  · rw [hn]
    exact .inr ⟨rfl, fun n h => hk ⟨n, (plain_known hd hp).2 h⟩⟩

theorem enumConv_ends (v : Value) : (enumConv pl d).fromString v ≠ .diverge := by
  intro h
  by_cases hl : v.subvalues.length = 1
  · obtain ⟨l⟩ := v
    match l, hl with
    | [s], _ =>
      rw [enumConv_single] at h
      split at h
      · rename_i z _
        have hc : d.cast z ≠ .diverge := by
          unfold EnumDecl.cast
          split <;> exact fun h => by cases h
        split at h
        · cases h
        · cases h
        · contradiction
      · cases h
  · rw [enumConv_other pl d hl] at h
    cases h

/-! ## The enumerations of the examples -/

theorem sameWord_dec {cs : List (Bytes × Int)} (h : ∀ c ∈ cs, ∀ e ∈ cs, cmpEqual c.1 e.1 = true → c = e) :
    ∀ c ∈ cs, ∀ e ∈ cs, SameWord c.1 e.1 → c = e := fun c hc e he hw => h c hc e he ((cmpEqual_iff _ _).2 hw)

theorem abilities_plain : PlainConstants abilities := ⟨by decide +kernel, by decide +kernel, sameWord_dec (by decide +kernel)⟩
theorem resetModes_plain : PlainConstants resetModes := ⟨by decide +kernel, by decide +kernel, sameWord_dec (by decide +kernel)⟩
theorem variableTypes_plain : PlainConstants variableTypes := ⟨by decide +kernel, by decide +kernel, sameWord_dec (by decide +kernel)⟩
theorem flagNames_plain : PlainConstants flagNames := ⟨by decide +kernel, by decide +kernel, sameWord_dec (by decide +kernel)⟩

theorem small_inRange {z : Int} (h0 : 0 ≤ z) (h1 : z ≤ 127) : InRange pl u z := by
  have := lo_nonpos pl u
  unfold InRange
  omega

/-- Whether a text is an identifier, computed. -/
def identifierB (s : Bytes) : Bool :=
  s.all (fun c => (65 ≤ c.toNat && c.toNat ≤ 90) || (97 ≤ c.toNat && c.toNat ≤ 122) || (48 ≤ c.toNat && c.toNat ≤ 57) || c.toNat == 95 || 128 ≤ c.toNat) &&
  match s with
  | [] => false
  | c :: _ => !(48 ≤ c.toNat && c.toNat ≤ 57)

theorem identifier_of {s : Bytes} (h : identifierB s = true) : Identifier s := by
  unfold identifierB at h
  rw [Bool.and_eq_true, List.all_eq_true] at h
  obtain ⟨h1, h2⟩ := h
  refine ⟨fun c hc => ?_, ?_⟩
  · have := h1 c hc
    simp only [Bool.or_eq_true, Bool.and_eq_true, decide_eq_true_eq, beq_iff_eq] at this
    unfold IdentChar
    omega
  · cases s with
    | nil => simp at h2
    | cons c t =>
      refine ⟨c, t, rfl, ?_⟩
      simp at h2
      omega

theorem declarable_of {cs : List (Bytes × Int)} (hc : d.constants = cs) (h1 : ∀ c ∈ cs, identifierB c.1 = true) (h2 : (cs.map (·.1)).Nodup)
    (h3 : ∀ c ∈ cs, 0 ≤ c.2 ∧ c.2 ≤ 127) : Declarable pl d := by
  subst hc
  exact ⟨fun c hc => identifier_of (h1 c hc), h2, fun c hc => small_inRange (h3 c hc).1 (h3 c hc).2⟩

theorem ability_declarable : Declarable pl abilityDecl := declarable_of (cs := abilities) rfl (by decide +kernel) (by decide +kernel) (by decide +kernel)
theorem mode_declarable : Declarable pl (resetModeDecl u) := declarable_of (cs := resetModes) rfl (by decide +kernel) (by decide +kernel) (by decide +kernel)
theorem type_declarable : Declarable pl variableTypeDecl := declarable_of (cs := variableTypes) rfl (by decide +kernel) (by decide +kernel) (by decide +kernel)
theorem draw_declarable : Declarable pl drawDecl := declarable_of (cs := flagNames) rfl (by decide +kernel) (by decide +kernel) (by decide +kernel)

theorem asNumber_int {s : Bytes} {x : Int} : AsNumber pl .int s x ↔ IntText pl s x := by
  unfold AsNumber
  rw [intText_reads]
  constructor
  · rintro ⟨t, ht, h⟩
    cases ht
    exact h
  · exact fun h => ⟨s, rfl, h⟩

theorem scoped_reads {cs : List (Bytes × Int)} (hc : d.constants = cs) (hu : d.underlying = .int) (hf : d.fixed = true) (hd : Declarable pl d)
    (hp : PlainConstants cs) {v : Value} {x : Int} : (enumConv pl d).fromString v = .ok (.ok x) ↔ ∃ s, v = ⟨[s]⟩ ∧ ScopedText pl cs s x := by
  subst hc
  rw [plain_accepts hd hp]
  unfold ScopedText
  constructor
  · rintro ⟨s, rfl, h | h⟩
    · rw [hu] at h
      exact ⟨s, rfl, .inl (asNumber_int.1 h.1)⟩
    · exact ⟨s, rfl, .inr h⟩
  · rintro ⟨s, rfl, h | h⟩
    · refine ⟨s, rfl, .inl ⟨?_, .inl hf⟩⟩
      rw [hu]
      exact asNumber_int.2 h
    · exact ⟨s, rfl, .inr h⟩

theorem ability_reads {v : Value} {x : Int} : (enumConv pl abilityDecl).fromString v = .ok (.ok x) ↔ ∃ s, v = ⟨[s]⟩ ∧ ScopedText pl abilities s x :=
  scoped_reads rfl rfl rfl ability_declarable abilities_plain

theorem type_reads {v : Value} {x : Int} : (enumConv pl variableTypeDecl).fromString v = .ok (.ok x) ↔ ∃ s, v = ⟨[s]⟩ ∧ ScopedText pl variableTypes s x :=
  scoped_reads rfl rfl rfl type_declarable variableTypes_plain

theorem draw_reads {v : Value} {x : Int} : (enumConv pl drawDecl).fromString v = .ok (.ok x) ↔ ∃ s, v = ⟨[s]⟩ ∧ ScopedText pl flagNames s x :=
  scoped_reads rfl rfl rfl draw_declarable flagNames_plain

/-- The values of `ResetMode`: the constants need two bits. -/
theorem mode_valueOf {x : Int} : ValueOf (resetModeDecl u) x ↔ 0 ≤ x ∧ x ≤ 3 := by
  have hmem : ∀ c ∈ (resetModeDecl u).constants, 0 ≤ c.2 ∧ c.2 ≤ 2 := by
    show ∀ c ∈ resetModes, 0 ≤ c.2 ∧ c.2 ≤ 2
    decide +kernel
  have htwo : (lit "AfterDeath", 2) ∈ (resetModeDecl u).constants := by simp [resetModeDecl]
  constructor
  · rintro (h | h)
    · simp [resetModeDecl] at h
    · have h1 := h 2 fun c hc => by have := hmem c hc; omega
      rcases h1 with ⟨h1, ⟨⟨c, hc, hneg⟩, _⟩ | h2⟩
      · have := hmem c hc
        omega
      · omega
  · rintro ⟨h0, h3⟩
    refine .inr fun m hm => ⟨?_, .inr h0⟩
    have h2 := (hm _ htwo).2
    dsimp only at h2
    have : 2 ≤ m := by
      apply Classical.byContradiction
      intro hn
      have : m = 0 ∨ m = 1 := by omega
      rcases this with rfl | rfl
      · simp at h2
      · simp at h2
    have : 2 ^ 2 ≤ 2 ^ m := Nat.pow_le_pow_right (by omega) this
    omega

theorem mode_reads {v : Value} {x : Int} : (enumConv pl (resetModeDecl u)).fromString v = .ok (.ok x) ↔ ∃ s, v = ⟨[s]⟩ ∧ ModeText pl u s x := by
  rw [plain_accepts mode_declarable resetModes_plain]
  simp only [mode_valueOf]
  exact Iff.rfl

theorem mode_converts (v : Value) : (∃ r, (enumConv pl (resetModeDecl u)).fromString v = .ok r) ↔
    ¬ ∃ t z, v = ⟨[t]⟩ ∧ AsNumber pl u t z ∧ ¬ (0 ≤ z ∧ z ≤ 3) := by
  have key : ∀ w, (enumConv pl (resetModeDecl u)).fromString v = .ub w ↔ w = .badEnum ∧ ∃ t z, v = ⟨[t]⟩ ∧ AsNumber pl u t z ∧ ¬ (0 ≤ z ∧ z ≤ 3) := by
    intro w
    rw [C85_ub_iff]
    simp only [mode_valueOf]
    constructor
    · rintro ⟨h0, s, z, hv, h⟩
      obtain ⟨l⟩ := v
      dsimp only at hv
      subst hv
      exact ⟨h0, s, z, rfl, h⟩
    · rintro ⟨h0, s, z, rfl, h⟩
      exact ⟨h0, s, z, rfl, h⟩
  constructor
  · rintro ⟨r, hr⟩ h
    rw [(key .badEnum).2 ⟨rfl, h⟩] at hr
    cases hr
  · intro h
    cases hc : (enumConv pl (resetModeDecl u)).fromString v with
    | ok r => exact ⟨r, rfl⟩
    | ub w => exact absurd ((key w).1 hc).2 h
    | diverge => exact absurd hc (enumConv_ends v)

/-! ## The program of examples/enums -/

theorem enum_quiet : AllQuiet (enumFunctions pl u) := by
  intro c xs
  cases c with
  | setAbility => exact .get fun _ => .set .ret
  | getAbility | getResetMode | readType => exact .get fun _ => .ret
  | writeType => exact .get fun _ => .set (.get fun _ => .ret)

theorem enum_set : Table.functions enumTable (lit "abilities.set_ability") = some [(.setAbility, ())] := by decide +kernel
theorem enum_ability : Table.functions enumTable (lit "abilities.get_ability") = some [(.getAbility, ())] := by decide +kernel
theorem enum_mode : Table.functions enumTable (lit "abilities.get_reset_mode") = some [(.getResetMode, ())] := by decide +kernel
theorem enum_type : Table.functions enumTable (lit "variable_type") = some [(.readType, ()), (.writeType, ())] := by decide +kernel

theorem abilityAfter_ability (h : List Choice) (a m : Int) : abilityAfter (h ++ [.ability a m]) = (a, m) ∧ typeAfter (h ++ [.ability a m]) = typeAfter h := by
  simp [abilityAfter, typeAfter, List.filterMap_append, Choice.ability?, Choice.type?]

theorem abilityAfter_type (h : List Choice) (x : Int) : abilityAfter (h ++ [.type x]) = abilityAfter h ∧ typeAfter (h ++ [.type x]) = x := by
  simp [abilityAfter, typeAfter, List.filterMap_append, Choice.ability?, Choice.type?]

theorem enum_telltale : Telltale (enumFunctions pl u) enumTable (EnumTold pl u) EnumKeeps where
  known := by
    intro h h' i r o t
    cases t with
    | choose ha hm =>
      refine ⟨by dsimp only; decide +kernel, _, _, enum_set, firstTaking_single rfl, ?_⟩
      simp only [enumFunctions, conversionErrors, ability_reads.2 ⟨_, rfl, ha⟩, mode_reads.2 ⟨_, rfl, hm⟩]
    | ability => exact ⟨by dsimp only; decide +kernel, _, _, enum_ability, firstTaking_single rfl, rfl⟩
    | mode => exact ⟨by dsimp only; decide +kernel, _, _, enum_mode, firstTaking_single rfl, rfl⟩
    | type => exact ⟨by dsimp only; decide +kernel, _, _, enum_type, ⟨[], [_], rfl, rfl, by simp⟩, rfl⟩
    | assign hx =>
      refine ⟨by dsimp only; decide +kernel, _, _, enum_type, ⟨[_], [], rfl, rfl, by simp [enumFunctions]⟩, ?_⟩
      simp only [enumFunctions, conversionErrors, type_reads.2 ⟨_, rfl, hx⟩]
  does := by
    rintro w w' h ⟨nm, args, named⟩ fs ⟨c, v⟩ xs es e ⟨k1, k2⟩ hfs hf hx hs
    have hmem := firstTaking_member hf
    have hm := functions_mem hfs
    simp only [enumTable, List.mem_cons, List.not_mem_nil, or_false, Prod.mk.injEq] at hm
    dsimp only at hf hx hs
    rcases hm with ⟨rfl, rfl⟩ | ⟨rfl, rfl⟩ | ⟨rfl, rfl⟩ | ⟨rfl, rfl⟩ <;>
      simp only [List.mem_cons, List.not_mem_nil, or_false, Prod.mk.injEq] at hmem
    · obtain ⟨rfl, _⟩ := hmem
      match args, hx with
      | [a, b], hx =>
        obtain ⟨x, y, _⟩ := xs
        obtain ⟨s, rfl, h1⟩ := ability_reads.1 hx.1
        obtain ⟨t, rfl, h2⟩ := mode_reads.1 hx.2.1
        have hs1 := says_get hs
        have hs2 := says_set hs1
        obtain ⟨rfl, rfl, rfl⟩ := says_ret hs2
        refine ⟨(), h ++ [.ability x y], rfl, rfl, ⟨?_, ?_⟩, .choose h1 h2⟩
        · rw [(abilityAfter_ability h x y).1]
        · rw [(abilityAfter_ability h x y).2]
          exact k2
    · obtain ⟨rfl, _⟩ := hmem
      match args, hx with
      | [], hx =>
        have hs1 := says_get hs
        obtain ⟨rfl, rfl, rfl⟩ := says_ret hs1
        refine ⟨_, h, rfl, rfl, ⟨k1, k2⟩, .ability ?_⟩
        rw [← k1]
        exact plain_shows (d := abilityDecl) ability_declarable abilities_plain _
    · obtain ⟨rfl, _⟩ := hmem
      match args, hx with
      | [], hx =>
        have hs1 := says_get hs
        obtain ⟨rfl, rfl, rfl⟩ := says_ret hs1
        refine ⟨_, h, rfl, rfl, ⟨k1, k2⟩, .mode ?_⟩
        rw [← k1]
        exact plain_shows (d := resetModeDecl u) mode_declarable resetModes_plain _
    · rcases hmem with ⟨rfl, _⟩ | ⟨rfl, _⟩
      · match args, hx with
        | [], hx =>
          have hs1 := says_get hs
          obtain ⟨rfl, rfl, rfl⟩ := says_ret hs1
          refine ⟨_, h, rfl, rfl, ⟨k1, k2⟩, .type ?_⟩
          rw [← k2]
          exact plain_shows (d := variableTypeDecl) type_declarable variableTypes_plain _
      · match args, hx with
        | [a], hx =>
          obtain ⟨x, _⟩ := xs
          obtain ⟨s, rfl, h1⟩ := type_reads.1 hx.1
          have hs1 := says_get hs
          have hs2 := says_set hs1
          have hs3 := says_get hs2
          obtain ⟨rfl, rfl, rfl⟩ := says_ret hs3
          refine ⟨_, h ++ [.type x], rfl, rfl, ⟨?_, ?_⟩, .assign h1 ?_⟩
          · rw [(abilityAfter_type h x).1]
            exact k1
          · rw [(abilityAfter_type h x).2]
            rfl
          · exact plain_shows (d := variableTypeDecl) type_declarable variableTypes_plain _

theorem enum_says (c : EnumCode) (xs : Args (enumFunctions pl u c).params) (l : List Named) (w : EnumWorld) :
    ∃ es e w', Says () l [] ((enumFunctions pl u c).body xs) w es e w' := by
  cases c with
  | setAbility => exact ⟨_, _, _, .get (.set .ret)⟩
  | getAbility | getResetMode | readType => exact ⟨_, _, _, .get .ret⟩
  | writeType => exact ⟨_, _, _, .get (.set (.get .ret))⟩

theorem enum_steady : Steady (enumFunctions pl u) enumTable (fun _ => True) where
  same := by
    rintro _ ⟨c, x⟩ xs l w v es e w' _ _ _ _ _
    exact enum_says c xs l v
  stays := by intros; trivial

theorem enum_answerable (i : Input) : Answerable (enumFunctions pl u) enumTable (fun _ => True) i ↔ ¬ EnumTrouble pl u i := by
  constructor
  · rintro h ⟨hn, a, t, z, ha, hz, hr⟩
    obtain ⟨h1, _⟩ := h _ (.setAbility, ()) (by rw [hn]; decide +kernel) (by rw [hn]; exact enum_set) (by rw [ha]; exact firstTaking_single rfl)
    rw [ha] at h1
    exact (mode_converts ⟨[t]⟩).1 h1.2.1 ⟨t, z, rfl, hz, hr⟩
  · rintro hn fs ⟨c, x⟩ _ hfs hf
    have hmem := firstTaking_member hf
    have hlen := firstTaking_length hf
    have hm := functions_mem hfs
    obtain ⟨nm, args, named⟩ := i
    dsimp only at hlen hm ⊢
    refine ⟨?_, fun xs _ w _ => enum_says c xs named w⟩
    cases c with
    | setAbility =>
      match args, hlen with
      | [a, b], _ =>
        refine ⟨C85_defined_partial rfl a, (mode_converts b).2 ?_, trivial⟩
        rintro ⟨t, z, rfl, hz, hr⟩
        refine hn ⟨?_, a, t, z, rfl, hz, hr⟩
        simp only [enumTable, List.mem_cons, List.not_mem_nil, or_false, Prod.mk.injEq] at hm
        rcases hm with ⟨rfl, rfl⟩ | ⟨rfl, rfl⟩ | ⟨rfl, rfl⟩ | ⟨rfl, rfl⟩ <;> first | rfl | simp at hmem
    | getAbility | getResetMode | readType =>
      match args, hlen with
      | [], _ => exact trivial
    | writeType =>
      match args, hlen with
      | [a], _ => exact ⟨C85_defined_partial rfl a, trivial⟩

/-! ## The program of examples/flags -/

theorem drawLoop_quiet (pl : Platform) : ∀ l, Quiet (drawLoop pl l)
  | [] => .ret
  | (x, t) :: rest => by
    refine .get fun w => ?_
    split
    · exact .logline (drawLoop_quiet pl rest)
    · exact drawLoop_quiet pl rest

/-- The argument of the setter. -/
def givenFlags (xs : Args (flagsFunctions pl .write).params) : List Int := (show Args [⟨List Int, vecConv (enumConv pl drawDecl)⟩] from xs).1

theorem write_body (xs : Args (flagsFunctions pl .write).params) : (flagsFunctions pl .write).body xs =
    .get fun _ => .set (flagsLoop pl .int (givenFlags xs) 0) (.get fun w' => .ret (flagsName pl drawDecl w')) := by
  show (Prog.ofRes (drawDecl.cast (flagsLoop pl drawDecl.underlying (givenFlags xs) 0))).bind (fun x =>
    .get fun w => .set (drawRef.write x w) (.get fun w' => .ret (flagsName pl drawDecl (drawRef.read w')))) = _
  rw [cast_ok.2 ⟨rfl, .inl rfl⟩]
  rfl

theorem flags_quiet : AllQuiet (flagsFunctions pl) := by
  intro c xs
  cases c with
  | read => exact .get fun _ => .ret
  | write =>
    rw [write_body]
    exact .get fun _ => .set (.get fun _ => .ret)
  | draw => exact drawLoop_quiet pl _

theorem flags_flags : Table.functions flagsTable (lit "entity.flags") = some [(.read, ()), (.write, ())] := by decide +kernel
theorem flags_draw : Table.functions flagsTable (lit "entity.draw") = some [(.draw, ())] := by decide +kernel

/-- The lines of the parts whose flags are set. -/
theorem says_draw {l : List Named} {parts : List (Int × Bytes)} {past es : List CtxEvent} {w w' : Int} {e : End Unit}
    (h : Says () l past (drawLoop pl parts) w es e w') : e = .ret () ∧ w' = w ∧ errorsOf es = [] ∧
      outputOf es = (parts.map fun p => if IntType.int.and pl w p.1 = p.1 then p.2 ++ [10] else []).flatten := by
  induction parts generalizing past es with
  | nil => obtain ⟨rfl, rfl, rfl⟩ := says_ret h; exact ⟨rfl, rfl, rfl, rfl⟩
  | cons p rest ih =>
    obtain ⟨x, t⟩ := p
    have h0 := says_get h
    simp only [List.map_cons, List.flatten_cons]
    split at h0
    · rename_i hx
      obtain ⟨es', rfl, h'⟩ := says_logline h0
      obtain ⟨h1, h2, h3, h4⟩ := ih h'
      refine ⟨h1, h2, h3, ?_⟩
      rw [outputOf_logline, h4, if_pos hx, newline_text]
    · rename_i hx
      obtain ⟨h1, h2, h3, h4⟩ := ih h0
      refine ⟨h1, h2, h3, ?_⟩
      rw [h4, if_neg hx]
      rfl

theorem draw_says (pl : Platform) (l : List Named) (w : Int) : ∀ (parts : List (Int × Bytes)) (past : List CtxEvent),
    ∃ es, Says () l past (drawLoop pl parts) w es (.ret ()) w
  | [], _ => ⟨_, .ret⟩
  | (x, t) :: rest, past => by
    by_cases hx : IntType.int.and pl w x = x
    · obtain ⟨es, h⟩ := draw_says pl l w rest (past ++ [.logline t])
      refine ⟨.logline t :: es, .get ?_⟩
      rw [if_pos hx]
      exact .logline h
    · obtain ⟨es, h⟩ := draw_says pl l w rest past
      refine ⟨es, .get ?_⟩
      rw [if_neg hx]
      exact h

/-- `(flags & x) == x` for a power of two. -/
theorem and_eq_pow {z : Int} {i : Nat} (hi : i < IntType.int.digits pl) : IntType.int.and pl z (2 ^ i : Nat) = (2 ^ i : Nat) ↔ Bit z i := by
  rw [← and_pow pl .int hi]
  constructor
  · intro h
    rw [h]
    have := Nat.pow_pos (n := i) (show 0 < 2 by omega)
    omega
  · intro h
    have hb : Bit z i := (and_pow pl .int hi).1 h
    refine bit_ext pl .int (ofBits_inRange pl .int _) ?_ fun k hk => ?_
    · rw [inRange_iff]
      have h1 := Nat.pow_lt_pow_right (a := 2) (by omega) hi
      have h2 := Nat.pow_pos (n := i) (show 0 < 2 by omega)
      exact ⟨⟨by omega, by omega⟩, fun _ => by omega⟩
    · unfold IntType.and
      rw [bit_ofBits pl .int _ hk, BitVec.getLsbD_and, Bool.and_eq_true, bit_toBits pl .int z hk, bit_toBits pl .int _ hk, bit_pow]
      constructor
      · exact fun h => h.2
      · rintro rfl
        exact ⟨hb, rfl⟩

theorem int_digits : IntType.int.digits pl = 31 := rfl

theorem draw_bits {w : Int} : (drawParts.map fun p => if IntType.int.and pl w p.1 = p.1 then p.2 ++ [10] else []).flatten =
    drawText (fun k => decide (w / 2 ^ k % 2 = 1)) := by
  have h0 : IntType.int.and pl w 1 = 1 ↔ Bit w 0 := and_eq_pow (pl := pl) (i := 0) (by rw [int_digits]; omega)
  have h1 : IntType.int.and pl w 2 = 2 ↔ Bit w 1 := and_eq_pow (pl := pl) (i := 1) (by rw [int_digits]; omega)
  have h2 : IntType.int.and pl w 4 = 4 ↔ Bit w 2 := and_eq_pow (pl := pl) (i := 2) (by rw [int_digits]; omega)
  have h3 : IntType.int.and pl w 8 = 8 ↔ Bit w 3 := and_eq_pow (pl := pl) (i := 3) (by rw [int_digits]; omega)
  have t0 : lit "Drawing bounding box" ++ [10] = lit "Drawing bounding box\n" := by decide +kernel
  have t1 : lit "Drawing origin" ++ [10] = lit "Drawing origin\n" := by decide +kernel
  have t2 : lit "Drawing wireframe" ++ [10] = lit "Drawing wireframe\n" := by decide +kernel
  have t3 : lit "Drawing name" ++ [10] = lit "Drawing name\n" := by decide +kernel
  unfold Bit at h0 h1 h2 h3
  simp only [drawParts, drawText, List.map_cons, List.map_nil, List.flatten_cons, List.flatten_nil, h0, h1, h2, h3, t0, t1, t2, t3, decide_eq_true_eq,
    List.append_nil, List.append_assoc]

/-- The variable has the bits of the flags that were given last. -/
def FlagsKeeps (pl : Platform) (w : Int) (h : List (List Int)) : Prop := Union pl .int (flagsAfter h) w

theorem flags_start : FlagsKeeps pl (flagsStart pl) [] := by
  have h1 : InRange pl .int 1 := small_inRange (by omega) (by omega)
  have h8 : InRange pl .int 8 := small_inRange (by omega) (by omega)
  refine ⟨or_inRange pl .int 1 8, fun k => ?_⟩
  unfold flagsStart
  rw [or_bit pl .int h1 h8]
  simp [flagsAfter]

theorem forall2_imp {α β : Type} {R S : α → β → Prop} (h : ∀ a b, R a b → S a b) {l : List α} {m : List β} (hl : Forall2 R l m) : Forall2 S l m := by
  induction hl with
  | nil => exact .nil
  | cons h1 _ ih => exact .cons (h _ _ h1) ih

theorem draw_part {p : Bytes} {x : Int} : (enumConv pl drawDecl).fromString ⟨[p]⟩ = .ok (.ok x) ↔ ScopedText pl flagNames p x := by
  rw [draw_reads]
  constructor
  · rintro ⟨s, hs, h⟩
    cases hs
    exact h
  · exact fun h => ⟨p, rfl, h⟩

theorem list_reads {v : Value} {xs : List Int} :
    (vecConv (enumConv pl drawDecl)).fromString v = .ok (.ok xs) ↔ Forall2 (fun p x => ScopedText pl flagNames p x) v.subvalues xs := by
  rw [C17_vector_ok_iff _ rfl v xs]
  exact ⟨forall2_imp fun a b => draw_part.1, forall2_imp fun a b => draw_part.2⟩

theorem scoped_inRange {p : Bytes} {x : Int} (h : ScopedText pl flagNames p x) : InRange pl .int x := by
  rcases h with h | ⟨n, hn, _⟩
  · exact h.2
  · have : ∀ c ∈ flagNames, 0 ≤ c.2 ∧ c.2 ≤ 127 := by decide +kernel
    exact small_inRange (this _ hn).1 (this _ hn).2

theorem given_inRange {ps : List Bytes} {xs : List Int} (h : Forall2 (fun p x => ScopedText pl flagNames p x) ps xs) : ∀ x ∈ xs, InRange pl .int x := by
  induction h with
  | nil => intro x hx; simp at hx
  | cons h _ ih =>
    intro x hx
    rcases List.mem_cons.1 hx with rfl | hx
    · exact scoped_inRange h
    · exact ih x hx

theorem flagsAfter_append (h : List (List Int)) (xs : List Int) : flagsAfter (h ++ [xs]) = xs := by simp [flagsAfter]

theorem vector_defined {α : Type} {c : Conv α} (hc : c.byRef = false) (h : ∀ s, ∃ r, c.fromString ⟨[s]⟩ = .ok r) (v : Value) : ∃ r, (vecConv c).fromString v = .ok r := by
  have loop : ∀ (l : List Bytes) (n : Bytes) (acc : List α), ∃ r, vecLoop c n v l acc = .ok r := by
    intro l n
    induction l with
    | nil => exact fun acc => ⟨_, rfl⟩
    | cons s l ih =>
      intro acc
      obtain ⟨r, hr⟩ := h s
      simp only [vecLoop, Conv.onTemporary, hc, hr]
      cases r with
      | error e => exact ⟨_, rfl⟩
      | ok x => exact ih _
  exact loop _ _ _

theorem flags_telltale : Telltale (flagsFunctions pl) flagsTable (FlagsTold pl) (FlagsKeeps pl) where
  known := by
    intro h h' i r o t
    cases t with
    | read => exact ⟨by dsimp only; decide +kernel, _, _, flags_flags, ⟨[], [_], rfl, rfl, by simp⟩, rfl⟩
    | write hx =>
      refine ⟨by dsimp only; decide +kernel, _, _, flags_flags, ⟨[_], [], rfl, rfl, by simp [flagsFunctions]⟩, ?_⟩
      simp only [flagsFunctions, conversionErrors, list_reads.2 hx]
    | draw => exact ⟨by dsimp only; decide +kernel, _, _, flags_draw, firstTaking_single rfl, rfl⟩
  does := by
    rintro w w' h ⟨nm, args, named⟩ fs ⟨c, v⟩ xs es e hk hfs hf hx hs
    have hmem := firstTaking_member hf
    have hm := functions_mem hfs
    simp only [flagsTable, List.mem_cons, List.not_mem_nil, or_false, Prod.mk.injEq] at hm
    dsimp only at hf hx hs
    rcases hm with ⟨rfl, rfl⟩ | ⟨rfl, rfl⟩ <;>
      simp only [List.mem_cons, List.not_mem_nil, or_false, Prod.mk.injEq] at hmem
    · rcases hmem with ⟨rfl, _⟩ | ⟨rfl, _⟩
      · match args, hx with
        | [], hx =>
          have hs1 := says_get hs
          obtain ⟨rfl, rfl, rfl⟩ := says_ret hs1
          exact ⟨_, h, rfl, rfl, hk, .read hk (flagText_of (d := drawDecl) draw_declarable hk.1)⟩
      · match args, hx with
        | [a], hx =>
          have h1 : Forall2 (fun p x => ScopedText pl flagNames p x) a.subvalues (givenFlags xs) := list_reads.1 hx.1
          have hu := flagsLoop_union pl .int (given_inRange h1)
          rw [write_body] at hs
          have hs1 := says_get hs
          have hs2 := says_set hs1
          have hs3 := says_get hs2
          obtain ⟨rfl, rfl, rfl⟩ := says_ret hs3
          refine ⟨_, h ++ [givenFlags xs], rfl, rfl, ?_, .write h1 hu (flagText_of (d := drawDecl) draw_declarable hu.1)⟩
          unfold FlagsKeeps
          rw [flagsAfter_append]
          exact hu
    · obtain ⟨rfl, _⟩ := hmem
      match args, hx with
      | [], hx =>
        obtain ⟨rfl, rfl, h3, h4⟩ := says_draw hs
        refine ⟨(), h, rfl, h3, hk, ?_⟩
        rw [h4, draw_bits]
        refine .draw fun k => ?_
        rw [decide_eq_true_eq]
        exact hk.2 k

theorem flags_says (c : FlagsCode) (xs : Args (flagsFunctions pl c).params) (l : List Named) (w : Int) :
    ∃ es e w', Says () l [] ((flagsFunctions pl c).body xs) w es e w' := by
  cases c with
  | read => exact ⟨_, _, _, .get .ret⟩
  | write =>
    rw [write_body]
    exact ⟨_, _, _, .get (.set (.get .ret))⟩
  | draw => obtain ⟨es, h⟩ := draw_says pl l w drawParts []; exact ⟨_, _, _, h⟩

theorem flags_steady : Steady (flagsFunctions pl) flagsTable (fun _ => True) where
  same := by
    rintro _ ⟨c, x⟩ xs l w v es e w' _ _ _ _ _
    exact flags_says c xs l v
  stays := by intros; trivial

theorem flags_answerable (i : Input) : Answerable (flagsFunctions pl) flagsTable (fun _ => True) i := by
  rintro fs ⟨c, x⟩ _ hfs hf
  have hlen := firstTaking_length hf
  obtain ⟨nm, args, named⟩ := i
  dsimp only at hlen ⊢
  refine ⟨?_, fun xs _ w _ => flags_says c xs named w⟩
  cases c with
  | read | draw =>
    match args, hlen with
    | [], _ => exact trivial
  | write =>
    match args, hlen with
    | [a], _ => exact ⟨vector_defined rfl (fun s => C85_defined_partial rfl _) a, trivial⟩

end Coil
