import Verif.Spec.Typed
import Verif.Props.Conv
import Verif.Props.Exec

/-!
# Written arguments convert to what they mean
-/

namespace Coil
open Spec

theorem sameLetter_ascii {s w : Bytes} (h : Forall2 SameLetter s w) (hw : ∀ c ∈ w, c < 128) : ∀ c ∈ s, c < 128 := by
  induction h with
  | nil => simp
  | cons hd _ ih =>
    intro c hc
    rcases List.mem_cons.1 hc with rfl | hc
    · rcases hd with rfl | ⟨h1, h2, h3⟩
      · exact hw _ (by simp)
      · rw [UInt8.lt_iff_toNat_lt]
        simp
        omega
    · exact ih (fun c h => hw c (by simp [h])) c hc

theorem boolWord_ascii {s : Bytes} {b : Bool} (h : BoolWord s b) : ∀ c ∈ s, c < 128 := by
  cases h with
  | one => decide
  | zero => decide
  | true h => exact sameLetter_ascii h (by decide)
  | false h => exact sameLetter_ascii h (by decide)

theorem owned_conv (pl : Platform) {a : PTy} (ha : a.Owned) : (a.conv pl).byRef = false := by
  cases a with
  | raw => exact ha.elim
  | _ => rfl

theorem reads_converts (pl : Platform) (a : PTy) (ha : a.Usable) : ∀ (v : Value) (x : a.T), Reads pl a v x →
    (a.conv pl).fromString v = .ok (.ok x) := by
  induction a with
  | int t =>
    rintro ⟨l⟩ z ⟨s, rfl, hn, hr, hs⟩
    by_cases ht : IsSignedParse t
    · exact (C12_signed_iff ht).2 ⟨hn, hr⟩
    · exact (C13_unsigned_partial ht (hs.resolve_left ht)).2 ⟨hn, hr⟩
  | bool =>
    rintro ⟨l⟩ b ⟨s, rfl, hb⟩
    exact (C14_bool_iff_partial (.inr (boolWord_ascii hb)) b).2 hb
  | text =>
    intro v s h
    exact (C16_string_in v s).2 h
  | raw =>
    rintro v x rfl
    rfl
  | vec a ih =>
    intro v xs h
    refine (C17_vector_ok_iff _ (owned_conv pl ha.1) v xs).2 ?_
    simp only [Reads] at h
    revert h
    generalize v.subvalues = l
    intro h
    induction h with
    | nil => exact .nil
    | cons hd _ ih' => exact .cons (ih ha.2 _ _ hd) ih'
  | opt a ih =>
    intro v o h
    cases o with
    | none =>
      have hv : v.subvalues.length ≤ 1 := by
        rcases h with h | h <;> simp [h]
      exact (C18_optional_partial _ (owned_conv pl ha.1) hv _).2 (.inl ⟨rfl, h⟩)
    | some x =>
      obtain ⟨s, h1, h2, h3⟩ := h
      exact (C18_optional_partial _ (owned_conv pl ha.1) (by simp [h1]) _).2 (.inr ⟨s, x, h1, h2, ih ha.2 _ _ h3, rfl⟩)

theorem supplied_convertTo {pl : Platform} {ps : List Param} {vs : List Value} {xs : Args ps} (h : Supplied pl ps vs xs) :
    ConvertTo ps vs xs := by
  induction h with
  | nil => exact trivial
  | cons ha hr _ ih => exact ⟨reads_converts _ _ ha _ _ hr, ih⟩

theorem convertTo_unique {ps : List Param} {vs : List Value} {xs ys : Args ps} (h : ConvertTo ps vs xs)
    (h' : ConvertTo ps vs ys) : xs = ys := by
  induction ps generalizing vs with
  | nil => rfl
  | cons p ps ih =>
    cases vs with
    | nil => exact h.elim
    | cons v vs =>
      obtain ⟨x, xs⟩ := xs
      obtain ⟨y, ys⟩ := ys
      obtain ⟨h1, h2⟩ := h
      obtain ⟨h1', h2'⟩ := h'
      rw [h1] at h1'
      simp only [Res.ok.injEq, Except.ok.injEq] at h1'
      rw [h1', ih h2 h2']

theorem reads_print (pl : Platform) {a : PTy} (ha : a.IsScalar) {x : a.T} (hx : a.Fits pl x) :
    Reads pl a ⟨[(a.conv pl).toString x]⟩ x := by
  cases a with
  | int t =>
    have h := C11_int_roundtrip pl t hx
    refine ⟨_, rfl, ?_⟩
    by_cases ht : IsSignedParse t
    · obtain ⟨h1, h2⟩ := (C12_signed_iff ht).1 h
      exact ⟨h1, h2, .inl ht⟩
    · have hm : (45 : Byte) ∉ t.toString x := by
        have h0 : 0 ≤ x := by
          have := hx.1
          rwa [unsigned_lo pl ht] at this
        rw [toString_unsigned ht h0]
        intro h
        have := (decimal_digits (natDec_decimal _)).2.1 _ h
        revert this
        decide
      obtain ⟨h1, h2⟩ := (C13_unsigned_partial ht hm).1 h
      exact ⟨h1, h2, .inr hm⟩
  | bool =>
    refine ⟨_, rfl, ?_⟩
    have hx : ∀ b : Bool, ∀ c ∈ (if b then lit "true" else lit "false"), c < 128 := by decide
    exact (C14_bool_iff_partial (.inr (hx x)) x).1 (C14_bool_roundtrip pl x)
  | text => rfl
  | raw => exact ha.elim
  | vec a => exact ha.elim
  | opt a => exact ha.elim

theorem int_print_no_quote {pl : Platform} {t : IntType} {z : Int} (cs : Bool) :
    ∀ c ∈ ((PTy.int t).conv pl).toString z, c ∉ (delims (LexCfg.default cs)).quotes := by
  have hd : ∀ n, ∀ c ∈ natDec n, c ∉ (delims (LexCfg.default cs)).quotes := by
    intro n c hc
    have := (decimal_digits (natDec_decimal n)).2.1 c hc
    have key : ∀ c : Byte, c ∈ (delims (LexCfg.default cs)).quotes → c = 34 ∨ c = 39 := by
      intro c
      cases cs <;> simp [delims, LexCfg.default] <;> decide +revert
    intro hq
    rcases key c hq with rfl | rfl <;> revert this <;> decide
  have hi : ∀ z, ∀ c ∈ intDec z, c ∉ (delims (LexCfg.default cs)).quotes := by
    intro z c hc
    cases z with
    | ofNat n => exact hd n c hc
    | negSucc n =>
      rcases List.mem_cons.1 hc with rfl | hc
      · cases cs <;> decide
      · exact hd _ c hc
  intro c hc
  change c ∈ t.toString z at hc
  cases t <;> first | exact hi _ c hc | exact hd _ c hc

theorem print_nonempty (pl : Platform) {d : Delims} {a : PTy} {x : a.T} (hx : a.Clean pl d x) (ha : a ≠ .text) :
    (a.conv pl).toString x ≠ [] := by
  have hd : ∀ n, natDec n ≠ [] := fun n => (decimal_digits (natDec_decimal n)).1
  have hi : ∀ z, intDec z ≠ [] := by
    intro z
    cases z with
    | ofNat n => exact hd n
    | negSucc n => simp [intDec]
  cases a with
  | int t =>
    change t.toString x ≠ []
    cases t <;> first | exact hi _ | exact hd _
  | bool =>
    have : ∀ b : Bool, (if b then lit "true" else lit "false") ≠ [] := by decide
    exact this x
  | text => exact absurd rfl ha
  | raw => exact hx.elim
  | vec a => exact hx.elim
  | opt a => exact hx.elim

theorem int_print_no_paren {pl : Platform} {t : IntType} {z : Int} (cs : Bool) :
    ∀ c ∈ ((PTy.int t).conv pl).toString z, c ∉ (delims (LexCfg.default cs)).parens := by
  have hd : ∀ n, ∀ c ∈ natDec n, c ∉ (delims (LexCfg.default cs)).parens := by
    intro n c hc
    have := (decimal_digits (natDec_decimal n)).2.1 c hc
    have key : ∀ c : Byte, c ∈ (delims (LexCfg.default cs)).parens → isDigit c = false := by
      intro c
      cases cs <;> decide +revert
    intro hq
    rw [key c hq] at this
    cases this
  have hi : ∀ z, ∀ c ∈ intDec z, c ∉ (delims (LexCfg.default cs)).parens := by
    intro z c hc
    cases z with
    | ofNat n => exact hd n c hc
    | negSucc n =>
      rcases List.mem_cons.1 hc with rfl | hc
      · cases cs <;> decide
      · exact hd _ c hc
  intro c hc
  change c ∈ t.toString z at hc
  cases t <;> first | exact hi _ c hc | exact hd _ c hc

theorem bool_print_clean {pl : Platform} {b : Bool} (cs : Bool) :
    ∀ c ∈ (PTy.bool.conv pl).toString b, c ∉ (delims (LexCfg.default cs)).quotes ∧ c ∉ (delims (LexCfg.default cs)).parens := by
  change ∀ c ∈ (if b then lit "true" else lit "false"), _
  cases cs <;> cases b <;> decide

/-- Clean values print as texts that mean them and can be written anywhere. -/
theorem clean_print {pl : Platform} (cs : Bool) {a : PTy} {x : a.T} (hx : a.Clean pl (delims (LexCfg.default cs)) x) :
    Reads pl a ⟨[(a.conv pl).toString x]⟩ x ∧
    ∀ c ∈ (a.conv pl).toString x, c ∉ (delims (LexCfg.default cs)).quotes ∧ c ∉ (delims (LexCfg.default cs)).parens := by
  cases a with
  | int t =>
    exact ⟨reads_print pl (a := .int t) trivial hx,
      fun c hc => ⟨int_print_no_quote cs c hc, int_print_no_paren cs c hc⟩⟩
  | bool => exact ⟨reads_print pl (a := .bool) trivial trivial, bool_print_clean cs⟩
  | text => exact ⟨rfl, hx⟩
  | raw => exact hx.elim
  | vec a => exact hx.elim
  | opt a => exact hx.elim

theorem spellable_one {d : Delims} {t : Bytes} (h : ∀ c ∈ t, c ∉ d.quotes) : Spellable d ⟨[t]⟩ := by
  refine ⟨?_, by simp⟩
  intro w hw
  simp only [List.mem_singleton] at hw
  subst hw
  exact h

theorem writable_reads {pl : Platform} (cs : Bool) {a : PTy} {x : a.T}
    (hx : a.Writable pl (delims (LexCfg.default cs)) x) :
    ∃ v, Reads pl a v x ∧ Spellable (delims (LexCfg.default cs)) v := by
  cases a with
  | int t => exact ⟨_, reads_print pl (a := .int t) trivial hx, spellable_one (int_print_no_quote cs)⟩
  | bool =>
    exact ⟨_, reads_print pl (a := .bool) trivial trivial, spellable_one fun c hc => (bool_print_clean cs c hc).1⟩
  | text => exact ⟨⟨[x]⟩, rfl, spellable_one hx⟩
  | raw => exact ⟨x, rfl, hx⟩
  | vec a =>
    refine ⟨⟨x.map (a.conv pl).toString⟩, ?_, ?_, ?_⟩
    · change Forall2 _ (x.map (a.conv pl).toString) x
      have hx' : ∀ y ∈ x, a.Clean pl (delims (LexCfg.default cs)) y := hx
      clear hx
      induction x with
      | nil => exact .nil
      | cons y ys ih => exact .cons (clean_print cs (hx' y (by simp))).1 (ih fun z hz => hx' z (by simp [hz]))
    · intro w hw c hc
      obtain ⟨y, hy, rfl⟩ := List.mem_map.1 hw
      exact ((clean_print cs (hx y hy)).2 c hc).1
    · intro _ w hw c hc
      obtain ⟨y, hy, rfl⟩ := List.mem_map.1 hw
      exact ((clean_print cs (hx y hy)).2 c hc).2
  | opt a =>
    cases x with
    | none => exact ⟨⟨[]⟩, .inl rfl, by simp [Spellable]⟩
    | some x =>
      by_cases ha : a = .text
      · subst ha
        exact ⟨⟨[x]⟩, ⟨x, rfl, hx.1, rfl⟩, spellable_one hx.2⟩
      · have hc : a.Clean pl (delims (LexCfg.default cs)) x := by
          cases a with
          | text => exact absurd rfl ha
          | _ => exact hx
        exact ⟨_, ⟨_, rfl, print_nonempty pl hc ha, (clean_print cs hc).1⟩,
          spellable_one fun c h => ((clean_print cs hc).2 c h).1⟩

theorem writableArgs_supplied {pl : Platform} (cs : Bool) {tys : List PTy} (ht : ∀ a ∈ tys, a.Usable) {xs : Args (tys.map (PTy.param pl))}
    (hx : WritableArgs pl (delims (LexCfg.default cs)) tys xs) :
    ∃ vs, Supplied pl (tys.map (PTy.param pl)) vs xs ∧ ∀ v ∈ vs, Spellable (delims (LexCfg.default cs)) v := by
  induction tys with
  | nil => exact ⟨[], .nil, by simp⟩
  | cons a tys ih =>
    obtain ⟨x, xs⟩ := xs
    obtain ⟨h1, h2⟩ := hx
    obtain ⟨v, g1, g2⟩ := writable_reads cs h1
    obtain ⟨vs, g3, g4⟩ := ih (fun b hb => ht b (by simp [hb])) h2
    refine ⟨v :: vs, .cons (ht a (by simp)) g1 g3, ?_⟩
    intro w hw
    rcases List.mem_cons.1 hw with rfl | hw
    · exact g2
    · exact g4 w hw

end Coil
