import Verif.Props.Float

/-! # Reading back what was printed -/

namespace Coil.Floats
open Spec Fl

variable {F : Fmt} {tiny : Nat → Nat → Bool} {neg : Bool}

/-- The greatest number of the format, written with six digits, is not greater than itself. -/
def TopRoundsDown (F : Fmt) : Prop :=
  ∃ (D : Nat) (X : Int), 10 ^ 5 ≤ D ∧ D < 10 ^ 6 ∧ (D : ℚ) * 10 ^ (X - 5) ≤ mag (2 ^ F.prec - 1) F.emax ∧
    mag (2 ^ F.prec - 1) F.emax < (D + 1 / 2) * 10 ^ (X - 5)

theorem top_of (D a b : Nat) (h5 : 10 ^ 5 ≤ D) (h6 : D < 10 ^ 6) (ha : F.emax = a) (h1 : D * 10 ^ b ≤ (2 ^ F.prec - 1) * 2 ^ a)
    (h2 : (2 ^ F.prec - 1) * 2 ^ a * 2 < (2 * D + 1) * 10 ^ b) : TopRoundsDown F := by
  refine ⟨D, b + 5, h5, h6, ?_, ?_⟩
  · rw [add_sub_cancel_right, ha]
    unfold mag
    rw [zpow_natCast, zpow_natCast]
    exact_mod_cast h1
  · rw [add_sub_cancel_right, ha]
    unfold mag
    rw [zpow_natCast, zpow_natCast]
    have h2' : (((2 ^ F.prec - 1 : Nat) : ℚ)) * 2 ^ a * 2 < (2 * D + 1) * 10 ^ b := by exact_mod_cast h2
    linarith

theorem top_single : TopRoundsDown .single :=
  top_of 340282 104 33 (by norm_num) (by norm_num) rfl (by decide +kernel) (by decide +kernel)

theorem top_double : TopRoundsDown .double :=
  top_of 179769 971 303 (by norm_num) (by norm_num) rfl (by decide +kernel) (by decide +kernel)

theorem top_extended : TopRoundsDown .extended :=
  top_of 118973 16320 4927 (by norm_num) (by norm_num) rfl (by decide +kernel) (by decide +kernel)

theorem isFloat_le {m : Nat} {e : Int} (h : IsFloat F (.fin neg m e)) : mag m e ≤ mag (2 ^ F.prec - 1) F.emax := by
  obtain ⟨⟨h1, h2, h3⟩, h4⟩ := h
  unfold mag
  have hm : m ≤ 2 ^ F.prec - 1 := by omega
  have hm' : (m : ℚ) ≤ ((2 ^ F.prec - 1 : Nat) : ℚ) := by exact_mod_cast hm
  have he : (2 : ℚ) ^ e ≤ 2 ^ F.emax := zpow_le_zpow_right₀ (by norm_num) h4
  have hu : (0 : ℚ) < 2 ^ e := by positivity
  have h0 : (0 : ℚ) ≤ ((2 ^ F.prec - 1 : Nat) : ℚ) := by positivity
  exact mul_le_mul hm' he hu.le h0

theorem toString_zero {name : Bytes} {x : Fl} (h : almostZero x = true) :
    (floatConv name (lib F tiny)).toString x = lit "0" := by
  show floatToString (lib F tiny) _ = _
  unfold floatToString
  exact if_pos h

theorem toString_print {name : Bytes} {x : Fl} (h : almostZero x = false) :
    (floatConv name (lib F tiny)).toString x = printG x := by
  show floatToString (lib F tiny) _ = _
  unfold floatToString
  exact if_neg (fun hc => by change almostZero x = true at hc; rw [h] at hc; cases hc)

/-- The text of a number that is not almost zero, what it denotes and how it reads. -/
theorem trip (hF : Fmt.Proper F) (hp : 21 ≤ F.prec) (hl : leastNormal F ≤ 10 ^ (-6 : Int)) (ht : TopRoundsDown F) (name : Bytes)
    {m : Nat} {e : Int} (hx : IsFloat F (.fin neg m e)) (hz : almostZero (.fin neg m e) = false) :
    ∃ (D : Nat) (X : Int) (m' : Nat) (e' : Int),
      (floatConv name (lib F tiny)).toString (.fin neg m e) = signText neg ++ layoutG (natDec D) X ∧
      10 ^ 5 ≤ D ∧ D < 10 ^ 6 ∧ (10 : ℚ) ^ (-6 : Int) ≤ D * 10 ^ (X - 5) ∧
      |(D : ℚ) * 10 ^ (X - 5) - mag m e| ≤ 5 / 10 ^ 6 * mag m e ∧
      Nearest F (D * 10 ^ (X - 5)) m' e' ∧ e' ≤ F.emax ∧ |mag m' e' - D * 10 ^ (X - 5)| * 2 ^ F.prec ≤ D * 10 ^ (X - 5) ∧
      (floatConv name (lib F tiny)).fromString ⟨[signText neg ++ layoutG (natDec D) X]⟩ = .ok (.ok (.fin neg m' e')) ∧
      printG (.fin neg m' e') = signText neg ++ layoutG (natDec D) X := by
  have hb : mag bound.1 bound.2 ≤ mag m e := by
    rw [← not_lt, ← almostZero_iff (neg := neg), hz]
    simp
  have hm : 0 < m := by
    rcases Nat.eq_zero_or_pos m with h | h
    · subst h
      rw [bound_mag] at hb
      norm_num [mag] at hb
    · exact h
  obtain ⟨D, X, htext, h5, h6, k, k1, k2, herr, hX⟩ := printG_six (neg := neg) (e := e) hm
  have hge := six_ge hb h5 h6 k2 herr hX
  obtain ⟨D0, X0, t5, t6, t1, t2⟩ := ht
  have hle := six_top t5 t6 (lt_of_le_of_lt (isFloat_le hx) t2) h6 k1 herr hX
  have hpos : (0 : ℚ) < D * 10 ^ (X - 5) := lt_of_lt_of_le (by norm_num) hge
  obtain ⟨m', e', hN⟩ := nearest_exists hF hpos.le
  have he' := nearest_fits hF hN (le_trans hle t1)
  have hnorm := le_trans hl hge
  have hne := nearest_error hF hN hnorm
  have hpow : (2097152 : ℚ) ≤ 2 ^ F.prec := by
    calc (2097152 : ℚ) = 2 ^ 21 := by norm_num
      _ ≤ 2 ^ F.prec := pow_le_pow_right₀ (by norm_num) hp
  have hsmall : |mag m' e' - D * 10 ^ (X - 5)| * 2000000 < D * 10 ^ (X - 5) := by
    rcases (abs_nonneg (mag m' e' - D * 10 ^ (X - 5))).eq_or_lt with h0 | h0
    · rw [← h0, zero_mul]
      exact hpos
    · nlinarith
  have hm' : 0 < m' := by
    rcases Nat.eq_zero_or_pos m' with h | h
    · subst h
      rw [show mag 0 e' = 0 by simp [mag], zero_sub, abs_neg, abs_of_pos hpos] at hsmall
      linarith
    · exact h
  refine ⟨D, X, m', e', ?_, h5, h6, hge, six_error k1 herr, hN, he', hne, ?_, printG_near hm' h5 h6 hsmall⟩
  · rw [toString_print hz, htext]
  · exact C68_accept hF name (floatText_signed (layoutG_word h5 h6)) hN he' (.inl hnorm)

theorem word_zero : FloatWord (lit "0") (.number 0) := by
  have := FloatWord.decimal (.whole ((digits_iff base10).2 (⟨by decide, rfl⟩ : (∀ c ∈ lit "0", isDigit c = true) ∧ digitsValue 10 (lit "0") = 0))
    (by decide)) (.none (lower := 101) (upper := 69))
  simpa using this

theorem read_zero (hF : Fmt.Proper F) (name : Bytes) :
    (floatConv name (lib F tiny)).fromString ⟨[lit "0"]⟩ = .ok (.ok (.fin false 0 F.emin)) := by
  have hN := roundFmt_nearest hF (n := 0) (d := 1) (by norm_num)
  have hr : roundFmt F 0 1 = (0, F.emin) := by simp [roundFmt]
  rw [hr] at hN
  have ht : FloatText (lit "0") false (.number ((0 : Nat) / (1 : Nat))) := by
    have := floatText_signed (neg := false) word_zero
    simpa [signText] using this
  exact C68_accept hF name ht hN hF.2 (.inr (by simp [mag]))

theorem zero_almostZero (e : Int) : almostZero (.fin neg 0 e) = true := by
  rw [almostZero_iff, bound_mag]
  norm_num [mag]

theorem read_inf (name : Bytes) : (floatConv name (lib F tiny)).fromString ⟨[signText neg ++ lit "inf"]⟩ = .ok (.ok (.inf neg)) := by
  refine (C68_special name).1 (floatText_signed (.inf ?_))
  exact .cons (.inl rfl) (.cons (.inl rfl) (.cons (.inl rfl) .nil))

theorem read_nan (name : Bytes) : (floatConv name (lib F tiny)).fromString ⟨[signText neg ++ lit "nan"]⟩ = .ok (.ok (.nan neg)) := by
  refine (C68_special name).2 (floatText_signed (.nan ?_))
  exact .cons (.inl rfl) (.cons (.inl rfl) (.cons (.inl rfl) .nil))

/-- A value of one of the three formats that prints as something is stable if its text reads as a number that is not almost zero. -/
theorem stable_of (hF : Fmt.Proper F) (hp : 21 ≤ F.prec) (hl : leastNormal F ≤ 10 ^ (-6 : Int)) (ht : TopRoundsDown F) (name : Bytes)
    {x : Fl} (hx : IsFloat F x)
    (hb : ∀ (D : Nat) (X : Int) (m : Nat) (e : Int) (neg : Bool), 10 ^ 5 ≤ D → D < 10 ^ 6 → (10 : ℚ) ^ (-6 : Int) ≤ D * 10 ^ (X - 5) →
      Nearest F (D * 10 ^ (X - 5)) m e → |mag m e - D * 10 ^ (X - 5)| * 2 ^ F.prec ≤ D * 10 ^ (X - 5) →
      (floatConv name (lib F tiny)).toString x = signText neg ++ layoutG (natDec D) X → mag bound.1 bound.2 ≤ mag m e) :
    ∃ y, (floatConv name (lib F tiny)).fromString ⟨[(floatConv name (lib F tiny)).toString x]⟩ = .ok (.ok y) ∧ IsFloat F y ∧
      (floatConv name (lib F tiny)).toString y = (floatConv name (lib F tiny)).toString x := by
  cases x with
  | inf neg =>
    refine ⟨.inf neg, ?_, trivial, rfl⟩
    rw [toString_print rfl]
    exact read_inf name
  | nan neg =>
    refine ⟨.nan neg, ?_, trivial, rfl⟩
    rw [toString_print rfl]
    exact read_nan name
  | fin neg m e =>
    cases hz : almostZero (.fin neg m e) with
    | true =>
      rw [toString_zero hz]
      refine ⟨_, read_zero hF name, ⟨⟨Nat.two_pow_pos _, le_refl _, .inr rfl⟩, hF.2⟩, ?_⟩
      exact toString_zero (zero_almostZero _)
    | false =>
      obtain ⟨D, X, m', e', h1, h5, h6, h2, h3, h4, h7, h8, h9, h10⟩ := trip (tiny := tiny) hF hp hl ht name hx hz
      rw [h1]
      refine ⟨_, h9, ⟨h4.stored, h7⟩, ?_⟩
      rw [toString_print, h10]
      rw [← Bool.not_eq_true, almostZero_iff, not_lt]
      exact hb D X m' e' neg h5 h6 h2 h4 h8 h1

theorem least_le (h : F.emin + ((F.prec : Int) - 1) ≤ -20) : leastNormal F ≤ 10 ^ (-6 : Int) := by
  unfold leastNormal
  refine le_trans (zpow_le_zpow_right₀ (by norm_num) h) ?_
  norm_num

end Coil.Floats
