import Verif.Model.Angle
import Verif.Proofs.Window

/-!
# Texts and values of angles
-/

namespace Coil
open Spec Floats Fl

variable {F : Fmt} {neg : Bool} {nan : Fl → Fl → Bool}

/-! ## Texts of numbers have no `r` -/

theorem digits_lacks {b : Nat} {digit : Byte → Bool} (hb : Base b digit) {c : Byte} (h0 : digit c = false) {ds : Bytes} {m : Nat}
    (h : Digits b ds m) : c ∉ ds := by
  intro hm
  have := ((digits_iff hb).1 h).1 _ hm
  rw [h0] at this
  cases this

theorem mantissa_lacks {b : Nat} {digit : Byte → Bool} (hb : Base b digit) {c : Byte} (h0 : digit c = false) (hc : c ≠ 46) {a : Bytes} {m k : Nat}
    (h : Mantissa b a m k) : c ∉ a := by
  cases h with
  | whole h _ => exact digits_lacks hb h0 h
  | point h _ =>
    have := digits_lacks hb h0 h
    simp only [List.mem_append, not_or] at this
    simp only [List.mem_append, List.mem_cons, not_or]
    exact ⟨this.1, hc, this.2⟩

theorem exponent_lacks {l u c : Byte} (hl : c ≠ l) (hu : c ≠ u) (h0 : isDigit c = false) (hp : c ≠ 43) (hm : c ≠ 45) {x : Bytes} {z : Int}
    (h : Exponent l u x z) : c ∉ x := by
  cases h with
  | none => exact List.not_mem_nil
  | some hc hs hd =>
    have := digits_lacks base10 h0 (decimal_iff.1 hd).1
    simp only [List.mem_cons, List.mem_append, not_or]
    refine ⟨?_, ?_, this⟩
    · rcases hc with rfl | rfl <;> assumption
    · cases hs <;> simp [hp, hm]

/-- No text of a number has an `r`. -/
theorem number_no_r {t : Bytes} {q : ℚ} (h : ReadsNumber t q) : (114 : Byte) ∉ t := by
  obtain ⟨neg, p, ⟨ws, sg, w, rfl, h1, h2, h3⟩, _⟩ := h
  simp only [List.mem_append, not_or]
  refine ⟨?_, ?_, ?_⟩
  · intro h
    have := h1 _ h
    revert this
    unfold CSpace
    decide
  · cases h2 <;> decide
  · cases h3 with
    | decimal hm hx =>
      simp only [List.mem_append, not_or]
      exact ⟨mantissa_lacks base10 (by decide) (by decide) hm,
        exponent_lacks (by decide) (by decide) (by decide) (by decide) (by decide) hx⟩
    | hex hc hm hx =>
      simp only [List.mem_cons, List.mem_append, not_or]
      refine ⟨by decide, ?_, mantissa_lacks base16 (by decide) (by decide) hm,
        exponent_lacks (by decide) (by decide) (by decide) (by decide) (by decide) hx⟩
      rcases hc with rfl | rfl <;> decide

/-! ## The split -/

theorem angleSplit_r (b : Bytes) : angleSplit (b ++ [114]) = (b, true) := by simp [angleSplit]

theorem angleSplit_d (b : Bytes) : angleSplit (b ++ [100]) = (b, false) := by simp [angleSplit]

theorem angleSplit_none {t : Bytes} (hr : t.getLast? ≠ some 114) (hd : t.getLast? ≠ some 100) : angleSplit t = (t, false) := by
  simp [angleSplit, hr, hd]

/-! ## The text of an angle -/

/-- The text of a finite number names a number that agrees with it to six digits. -/
theorem printG_accuracy {x : Fl} (hx : Finite F x) : ∃ r, ReadsNumber (printG x) r ∧ |r - val x| ≤ 5 / 10 ^ 6 * |val x| := by
  obtain ⟨neg, m, e, rfl, _⟩ := hx
  rw [val_fin, abs_finVal]
  rcases Nat.eq_zero_or_pos m with rfl | hm
  · refine ⟨if neg then -0 else 0, ⟨neg, 0, ?_, rfl⟩, ?_⟩
    · show FloatText (signText neg ++ [48]) neg (.number 0)
      exact floatText_signed word_zero
    · cases neg <;> simp [finVal, mag]
  · obtain ⟨D, X, htext, h5, h6, k, k1, k2, herr, hX⟩ := printG_six (neg := neg) (e := e) hm
    rw [htext]
    refine ⟨_, ⟨neg, _, floatText_signed (layoutG_word h5 h6), rfl⟩, ?_⟩
    have := six_error k1 herr
    unfold finVal
    cases neg
    · exact this
    · rw [if_pos rfl, if_pos rfl, neg_sub_neg, abs_sub_comm]
      exact this

/-- The text of a whole number of up to six digits, except zero. -/
theorem printG_whole {x : Fl} (hx : Finite F x) {z : Int} (hv : val x = z) (hz : z.natAbs ≤ 999999) (h0 : z ≠ 0) : printG x = intDec z := by
  have := toString_whole (tiny := fun _ _ => true) [] hx hv hz
  rwa [toString_print] at this
  obtain ⟨neg, m, e, rfl, _⟩ := hx
  rw [Bool.eq_false_iff, ne_eq, almostZero_iff, bound_mag, not_lt, ← abs_finVal neg, ← val_fin, hv]
  have : (1 : ℚ) ≤ |(z : ℚ)| := by exact_mod_cast Int.one_le_abs h0
  refine le_trans ?_ this
  norm_num

/-! ## Radians -/

theorem degreesPerRadian_eq : degreesPerRadian nan = .fin false 15019744 (-18) := by
  have h1 : ofNat .single 180 = .fin false 11796480 (-16) := by decide +kernel
  have h2 : piF = .fin false 13176795 (-22) := by decide +kernel
  rw [degreesPerRadian, h1, h2]
  show roundTo .single false _ = _
  decide +kernel

theorem degreesPerRadian_finite : Finite .single (degreesPerRadian nan) ∧ val (degreesPerRadian nan) = 15019744 / 262144 := by
  rw [degreesPerRadian_eq]
  refine ⟨⟨_, _, _, rfl, ?_⟩, ?_⟩
  · show Stored .single 15019744 (-18) ∧ (-18 : Int) ≤ Fmt.single.emax
    unfold Stored
    decide
  · rw [val_fin, finVal_sign]
    unfold mag
    norm_num

/-- An angle in radians, read and turned into degrees. -/
theorem radians_near {tiny : Nat → Nat → Bool} {t : Bytes} {q : ℚ} (ht : ReadsNumber t q) (h0 : q = 0 ∨ leastNormal .single ≤ |q|)
    (hb : 58 * |q| ≤ greatest .single) :
    ∃ x, (singleConv tiny).fromString ⟨[t]⟩ = .ok (.ok x) ∧ Finite .single (mul .single nan x (degreesPerRadian nan)) ∧
      ∀ p : ℚ, 314159265358979 / 10 ^ 14 ≤ p → p ≤ 314159265358980 / 10 ^ 14 →
        |val (mul .single nan x (degreesPerRadian nan)) - q * 180 / p| ≤ 2 / 10 ^ 7 * |q * 180 / p| := by
  have hq0 := abs_nonneg q
  obtain ⟨x, x1, x2, x3, _⟩ := read_error (tiny := tiny) proper_single (lit "float") ht
    (h0.elim (fun h => .inr (by rw [h, abs_zero]; exact ⟨0, Fmt.single.emin, Nat.two_pow_pos _, le_refl _, by simp [mag]⟩)) .inl)
    (by linarith)
  rw [roundoff_single] at x3
  obtain ⟨d1, d2⟩ := degreesPerRadian_finite (nan := nan)
  have hxa : |val x| ≤ (1 + 1 / 16777216) * |q| := by
    have := abs_sub_abs_le_abs_sub (val x) q
    linarith
  have hxb : (1 - 1 / 16777216) * |q| ≤ |val x| := by
    have := abs_sub_abs_le_abs_sub q (val x)
    rw [abs_sub_comm] at this
    linarith
  have hprod : |val x * val (degreesPerRadian nan)| = |val x| * (15019744 / 262144) := by
    rw [abs_mul, d2, abs_of_pos (by norm_num : (0 : ℚ) < 15019744 / 262144)]
  obtain ⟨m1, m2, _, _⟩ := mul_fin (nan := nan) proper_single x2 d1 (by rw [hprod]; linarith)
  have m2 := m2 (by
    rcases h0 with rfl | h0
    · refine .inr ⟨0, Fmt.single.emin, Nat.two_pow_pos _, le_refl _, ?_⟩
      rw [abs_zero, mul_zero] at hxa
      rw [hprod, le_antisymm hxa (abs_nonneg _)]
      simp [mag]
    · refine .inl ?_
      rw [hprod]
      linarith)
  refine ⟨x, x1, m1, fun p hp1 hp2 => ?_⟩
  generalize val (mul .single nan x (degreesPerRadian nan)) = y at *
  rw [hprod, roundoff_single, d2] at m2
  have hp : 0 < p := lt_of_lt_of_le (by norm_num) hp1
  have hc1 : 15019744 / 262144 ≤ 180 / p := by
    rw [le_div_iff₀ hp]
    linarith
  have hc2 : 180 / p ≤ 5729577952 / 100000000 := by
    rw [div_le_iff₀ hp]
    linarith
  rw [mul_div_assoc]
  generalize 180 / p = c at *
  have hc0 : 0 < c := lt_of_lt_of_le (by norm_num) hc1
  rw [abs_mul q c, abs_of_pos hc0]
  have e1 : |y - q * c| ≤ |y - val x * (15019744 / 262144)| + |val x * (15019744 / 262144) - q * (15019744 / 262144)| +
      |q * (15019744 / 262144) - q * c| := by
    refine (abs_sub_le _ (q * (15019744 / 262144)) _).trans (add_le_add (abs_sub_le _ _ _) le_rfl)
  have e2 : |val x * (15019744 / 262144) - q * (15019744 / 262144)| = |val x - q| * (15019744 / 262144) := by
    rw [← sub_mul, abs_mul, abs_of_pos (by norm_num : (0 : ℚ) < 15019744 / 262144)]
  have e3 : |q * (15019744 / 262144) - q * c| = |q| * (c - 15019744 / 262144) := by
    rw [← mul_sub, abs_mul, abs_sub_comm (15019744 / 262144) c, abs_of_nonneg (by linarith : 0 ≤ c - 15019744 / 262144)]
  have e4 : |q| * (15019744 / 262144) ≤ |q| * c := mul_le_mul_of_nonneg_left hc1 hq0
  have e5 : |q| * c ≤ |q| * (5729577952 / 100000000) := mul_le_mul_of_nonneg_left hc2 hq0
  rw [e2, e3] at e1
  have e6 : |val x - q| * (15019744 / 262144) ≤ 1 / 16777216 * |q| * (15019744 / 262144) := mul_le_mul_of_nonneg_right x3 (by norm_num)
  linarith

end Coil
