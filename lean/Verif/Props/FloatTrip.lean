import Verif.Proofs.FloatStable

/-!
# Results that become arguments
-/

namespace Coil.Floats
open Spec Fl

variable {F : Fmt} {tiny : Nat → Nat → Bool} {neg : Bool}

/-! ## C69: accuracy -/

/-- **C69.** The text of a finite value denotes a number that differs from the value by at most five millionths of it; values below one millionth
become `0`. -/
theorem C69_accuracy (name : Bytes) (m : Nat) (e : Int) :
    (mag m e < 1 / 10 ^ 6 ∧ (floatConv name (lib F tiny)).toString (.fin neg m e) = lit "0") ∨
    ∃ q, ReadsNumber ((floatConv name (lib F tiny)).toString (.fin neg m e)) q ∧ |q - finVal neg m e| ≤ 5 / 10 ^ 6 * mag m e := by
  cases hz : almostZero (.fin neg m e) with
  | true =>
    refine .inl ⟨?_, toString_zero hz⟩
    refine lt_of_lt_of_le (almostZero_iff.1 hz) ?_
    rw [bound_mag]
    norm_num
  | false =>
    refine .inr ?_
    have hm : 0 < m := by
      rcases Nat.eq_zero_or_pos m with h | h
      · subst h
        rw [zero_almostZero] at hz
        cases hz
      · exact h
    obtain ⟨D, X, htext, h5, h6, k, k1, k2, herr, hX⟩ := printG_six (neg := neg) (e := e) hm
    rw [toString_print hz, htext]
    refine ⟨_, ⟨neg, _, floatText_signed (layoutG_word h5 h6), rfl⟩, ?_⟩
    have := six_error k1 herr
    unfold finVal
    cases neg
    · exact this
    · rw [if_pos rfl, if_pos rfl, neg_sub_neg, abs_sub_comm]
      exact this

/-- **C69.** The texts of infinities and NaNs. -/
theorem C69_special (name : Bytes) :
    (floatConv name (lib F tiny)).toString (.inf neg) = (if neg then lit "-inf" else lit "inf") ∧
    (floatConv name (lib F tiny)).toString (.nan neg) = (if neg then lit "-nan" else lit "nan") := by
  rw [toString_print rfl, toString_print rfl]
  cases neg <;> exact ⟨rfl, rfl⟩

/-- **C69.** The text of a finite value is accepted as an argument of the same type, and the argument differs from the value by at most six
millionths of it, or is zero for a value below one millionth. -/
theorem C69_roundtrip (hF : F = .single ∨ F = .double ∨ F = .extended) (name : Bytes) {m : Nat} {e : Int}
    (hx : IsFloat F (.fin neg m e)) :
    ∃ n m' e', (floatConv name (lib F tiny)).fromString ⟨[(floatConv name (lib F tiny)).toString (.fin neg m e)]⟩ =
        .ok (.ok (.fin n m' e')) ∧ IsFloat F (.fin n m' e') ∧
      ((n = neg ∧ |mag m' e' - mag m e| ≤ 6 / 10 ^ 6 * mag m e) ∨ (mag m e < 1 / 10 ^ 6 ∧ mag m' e' = 0)) := by
  obtain ⟨hP, hp, hl, ht⟩ : Fmt.Proper F ∧ 21 ≤ F.prec ∧ leastNormal F ≤ 10 ^ (-6 : Int) ∧ TopRoundsDown F := by
    rcases hF with rfl | rfl | rfl
    · exact ⟨proper_single, by decide, least_le (by decide), top_single⟩
    · exact ⟨proper_double, by decide, least_le (by decide), top_double⟩
    · exact ⟨proper_extended, by decide, least_le (by decide), top_extended⟩
  cases hz : almostZero (.fin neg m e) with
  | true =>
    rw [toString_zero hz]
    refine ⟨_, _, _, read_zero hP name, ⟨⟨Nat.two_pow_pos _, le_refl _, .inr rfl⟩, hP.2⟩, .inr ⟨?_, by simp [mag]⟩⟩
    refine lt_of_lt_of_le (almostZero_iff.1 hz) ?_
    rw [bound_mag]
    norm_num
  | false =>
    obtain ⟨D, X, m', e', h1, h5, h6, h2, h3, h4, h7, h8, h9, h10⟩ := trip (tiny := tiny) hP hp hl ht name hx hz
    rw [h1]
    refine ⟨_, _, _, h9, ⟨h4.stored, h7⟩, .inl ⟨rfl, ?_⟩⟩
    have hpow : (2097152 : ℚ) ≤ 2 ^ F.prec := by
      calc (2097152 : ℚ) = 2 ^ 21 := by norm_num
        _ ≤ 2 ^ F.prec := pow_le_pow_right₀ (by norm_num) hp
    have hv := mag_nonneg m e
    generalize (D : ℚ) * 10 ^ (X - 5) = q at *
    have hn := abs_nonneg (mag m' e' - q)
    have h8' : |mag m' e' - q| * 2097152 ≤ q := le_trans (mul_le_mul_of_nonneg_left hpow hn) h8
    have hsplit : |mag m' e' - mag m e| ≤ |mag m' e' - q| + |q - mag m e| := abs_sub_le _ _ _
    have hq : q ≤ mag m e + 5 / 10 ^ 6 * mag m e := by
      have := (abs_le.1 h3).2
      linarith
    norm_num at *
    linarith

/-- **C69.** The value itself is not preserved: 1234567 becomes 1234570. -/
theorem C69_exact_false : ∃ x y, IsFloat .double x ∧
    (floatConv (lit "double") (lib .double tiny)).fromString ⟨[(floatConv (lit "double") (lib .double tiny)).toString x]⟩ = .ok (.ok y) ∧
    x ≠ y := by
  refine ⟨.fin false (1234567 * 2 ^ 32) (-32), .fin false (1234570 * 2 ^ 32) (-32), ?_, ?_, by decide⟩
  · refine ⟨⟨?_, ?_, .inl ?_⟩, ?_⟩ <;> decide +kernel
  · have hs : (floatConv (lit "double") (lib .double tiny)).toString (.fin false (1234567 * 2 ^ 32) (-32)) = lit "1.23457e+06" := by
      rw [toString_print (by decide +kernel)]
      decide +kernel
    rw [hs]
    have hw : FloatWord (lit "1.23457" ++ lit "e+06") (.number ((123457 : Nat) * 10 ^ (6 - ((5 : Nat) : Int)))) :=
      .decimal (.point (a := lit "1") (f := lit "23457") ((digits_iff base10).2 ⟨by decide, by decide⟩) (by decide))
        (.some (c := 101) (sg := [43]) (ds := lit "06") (v := 6) (neg := false) (.inl rfl) .plus
          (decimal_iff.2 ⟨(digits_iff base10).2 ⟨by decide, by decide⟩, by decide⟩))
    have hN := roundFmt_nearest proper_double (n := 1234570) (d := 1) (by norm_num)
    have hr : roundFmt .double 1234570 1 = (1234570 * 2 ^ 32, -32) := by decide +kernel
    rw [hr] at hN
    have hq : ((123457 : Nat) : ℚ) * 10 ^ (6 - ((5 : Nat) : Int)) = ((1234570 : Nat) : ℚ) / ((1 : Nat) : ℚ) := by norm_num
    rw [hq] at hw
    have hmag : ((1234570 : Nat) : ℚ) / ((1 : Nat) : ℚ) = mag (1234570 * 2 ^ 32) (-32) := by
      unfold mag
      norm_num
    have := C68_accept (tiny := tiny) proper_double (lit "double") (floatText_signed (neg := false) hw) hN (by decide) (Or.inr hmag)
    rw [show signText false ++ (lit "1.23457" ++ lit "e+06") = lit "1.23457e+06" by decide +kernel] at this
    exact this

/-! ## C70: stability -/

/-- **C70.** The text of every value of `double` and `long double` is accepted, and the argument has the same text again: texts of results are
stable. -/
theorem C70_stable (hF : F = .double ∨ F = .extended) (name : Bytes) {x : Fl} (hx : IsFloat F x) :
    ∃ y, (floatConv name (lib F tiny)).fromString ⟨[(floatConv name (lib F tiny)).toString x]⟩ = .ok (.ok y) ∧ IsFloat F y ∧
      (floatConv name (lib F tiny)).toString y = (floatConv name (lib F tiny)).toString x := by
  obtain ⟨hP, hp, hl, ht, hb⟩ : Fmt.Proper F ∧ 21 ≤ F.prec ∧ leastNormal F ≤ 10 ^ (-6 : Int) ∧ TopRoundsDown F ∧
      Member F (mag bound.1 bound.2) := by
    rcases hF with rfl | rfl
    · exact ⟨proper_double, by decide, least_le (by decide), top_double, ⟨_, _, by decide +kernel, by decide +kernel, rfl⟩⟩
    · exact ⟨proper_extended, by decide, least_le (by decide), top_extended, ⟨_, _, by decide +kernel, by decide +kernel, rfl⟩⟩
  refine stable_of hP hp hl ht name hx ?_
  intro D X m e neg _ _ hq hN _ _
  refine nearest_ge hN hb (le_trans ?_ hq)
  rw [bound_mag]
  norm_num

/-- **C70.** For `float` this holds but for the text `1e-06`. -/
theorem C70_single_partial (name : Bytes) {x : Fl} (hx : IsFloat .single x)
    (h1 : (floatConv name (lib .single tiny)).toString x ≠ lit "1e-06") (h2 : (floatConv name (lib .single tiny)).toString x ≠ lit "-1e-06") :
    ∃ y, (floatConv name (lib .single tiny)).fromString ⟨[(floatConv name (lib .single tiny)).toString x]⟩ = .ok (.ok y) ∧
      IsFloat .single y ∧ (floatConv name (lib .single tiny)).toString y = (floatConv name (lib .single tiny)).toString x := by
  refine stable_of proper_single (by decide) (least_le (by decide)) top_single name hx ?_
  intro D X m e neg h5 h6 hq hN herr htext
  have h5' : (100000 : ℚ) ≤ D := by exact_mod_cast h5
  have h6' : (D : ℚ) < 1000000 := by exact_mod_cast h6
  have hX : -6 ≤ X := by
    by_contra hc
    have hle : (10 : ℚ) ^ (X - 5) ≤ 10 ^ (-12 : Int) := zpow_le_zpow_right₀ (by norm_num) (by omega)
    have hpos : (0 : ℚ) < 10 ^ (X - 5) := by positivity
    norm_num at hq hle
    nlinarith
  have hbig : (100001 : ℚ) * 10 ^ (-11 : Int) ≤ D * 10 ^ (X - 5) := by
    rcases lt_or_ge (-6) X with h | h
    · have hle : (10 : ℚ) ^ (-10 : Int) ≤ 10 ^ (X - 5) := zpow_le_zpow_right₀ (by norm_num) (by omega)
      norm_num at hle ⊢
      nlinarith
    · have hX' : X = -6 := by omega
      subst hX'
      have hne : D ≠ 100000 := by
        rintro rfl
        have hl : layoutG (natDec 100000) (-6) = lit "1e-06" := by decide +kernel
        rw [hl] at htext
        cases neg
        · exact h1 htext
        · exact h2 htext
      have : (100001 : ℚ) ≤ D := by
        have : 100001 ≤ D := by omega
        exact_mod_cast this
      norm_num
      linarith
  generalize (D : ℚ) * 10 ^ (X - 5) = q at *
  have hpow : (2 : ℚ) ^ Fmt.single.prec = 16777216 := by
    show (2 : ℚ) ^ 24 = _
    norm_num
  rw [hpow] at herr
  have := neg_abs_le (mag m e - q)
  rw [bound_mag]
  norm_num at hbig ⊢
  linarith

/-- **C70.** It fails for `float`: the least value above one millionth has the text `1e-06`, which reads as a value just below one millionth
with the text `0`. -/
theorem C70_single_false : ∃ x y, IsFloat .single x ∧
    (floatConv (lit "float") (lib .single tiny)).toString x = lit "1e-06" ∧
    (floatConv (lit "float") (lib .single tiny)).fromString ⟨[lit "1e-06"]⟩ = .ok (.ok y) ∧
    (floatConv (lit "float") (lib .single tiny)).toString y = lit "0" := by
  refine ⟨.fin false 8796094 (-43), .fin false 8796093 (-43), ?_, ?_, ?_, ?_⟩
  · refine ⟨⟨?_, ?_, .inl ?_⟩, ?_⟩ <;> decide +kernel
  · rw [toString_print (by decide +kernel)]
    decide +kernel
  · have hw : FloatWord (lit "1" ++ lit "e-06") (.number ((1 : Nat) * 10 ^ (-6 - ((0 : Nat) : Int)))) :=
      .decimal (.whole ((digits_iff base10).2 ⟨by decide, by decide⟩) (by decide))
        (.some (c := 101) (sg := [45]) (ds := lit "06") (v := 6) (neg := true) (.inl rfl) .minus
          (decimal_iff.2 ⟨(digits_iff base10).2 ⟨by decide, by decide⟩, by decide⟩))
    have hN := roundFmt_nearest proper_single (n := 1) (d := 1000000) (by norm_num)
    have hr : roundFmt .single 1 1000000 = (8796093, -43) := by decide +kernel
    rw [hr] at hN
    have hq : ((1 : Nat) : ℚ) * 10 ^ (-6 - ((0 : Nat) : Int)) = ((1 : Nat) : ℚ) / ((1000000 : Nat) : ℚ) := by norm_num
    rw [hq] at hw
    refine C68_accept proper_single _ (floatText_signed (neg := false) hw) hN (by decide) (.inl ?_)
    refine le_trans (least_le (by decide)) ?_
    norm_num
  · exact toString_zero (by decide +kernel)

/-- The text of a `double` close to a third, and of the greatest `double`, and back. -/
example : (floatConv (lit "double") (lib .double (fun _ _ => true))).toString (.fin true 6004799503160661 (-54)) = lit "-0.333333" := by
  decide +kernel

example : (floatConv (lit "double") (lib .double (fun _ _ => true))).toString (.fin false (2 ^ 53 - 1) 971) = lit "1.79769e+308" := by
  decide +kernel

example : (floatConv (lit "double") (lib .double (fun _ _ => true))).fromString ⟨[lit "1.79769e+308"]⟩ =
    .ok (.ok (.fin false 9007183547761326 971)) := by decide +kernel

example : IsFloat .double (.fin true 6004799503160661 (-54)) := by
  refine ⟨⟨?_, ?_, .inl ?_⟩, ?_⟩ <;> decide

/-- The greatest `float` and what its text reads as. -/
example : (floatConv (lit "float") (lib .single (fun _ _ => true))).toString (.fin false (2 ^ 24 - 1) 104) = lit "3.40282e+38" := by
  decide +kernel

end Coil.Floats
