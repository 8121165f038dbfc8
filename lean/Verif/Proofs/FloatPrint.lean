import Verif.Proofs.FloatText

/-! # Printing floating-point numbers -/

namespace Coil.Floats
open Spec Fl

/-! ## Decimal logarithms -/

theorem natDecAux_length {fuel n : Nat} (h : n < fuel) :
    0 < (natDecAux fuel n).length ∧ n < 10 ^ (natDecAux fuel n).length ∧ (0 < n → 10 ^ ((natDecAux fuel n).length - 1) ≤ n) := by
  induction fuel generalizing n with
  | zero => omega
  | succ fuel ih =>
    rw [natDecAux]
    split
    · simp; omega
    · obtain ⟨h1, h2, h3⟩ := ih (n := n / 10) (by omega)
      simp only [List.length_append, List.length_cons, List.length_nil, Nat.zero_add]
      have h3' := h3 (by omega)
      generalize (natDecAux fuel (n / 10)).length = l at *
      obtain ⟨j, rfl⟩ : ∃ j, l = j + 1 := ⟨l - 1, by omega⟩
      refine ⟨by omega, ?_, fun _ => ?_⟩
      · rw [Nat.pow_succ]; omega
      · simp only [Nat.add_sub_cancel] at h3' ⊢
        rw [Nat.pow_succ]; omega

theorem natDec_length (n : Nat) :
    0 < (natDec n).length ∧ n < 10 ^ (natDec n).length ∧ (0 < n → 10 ^ ((natDec n).length - 1) ≤ n) :=
  natDecAux_length (by omega)

theorem ilog10_spec {n d : Nat} (hn : 0 < n) (hd : 0 < d) :
    (10 : ℚ) ^ ilog10 n d ≤ (n : ℚ) / d ∧ (n : ℚ) / d < 10 ^ (ilog10 n d + 1) := by
  have hd' : (0 : ℚ) < d := by exact_mod_cast hd
  have hn' : (0 : ℚ) < n := by exact_mod_cast hn
  unfold ilog10
  split
  · rename_i h
    obtain ⟨h1, h2, h3⟩ := natDec_length (n / d)
    have h3' := h3 (Nat.div_pos h hd)
    generalize (natDec (n / d)).length = l at *
    obtain ⟨j, rfl⟩ : ∃ j, l = j + 1 := ⟨l - 1, by omega⟩
    simp only [Nat.add_sub_cancel] at h3'
    rw [show (((j + 1 : Nat) : Int) - 1) = (j : Int) by omega, show ((j : Int) + 1) = ((j + 1 : Nat) : Int) by omega, zpow_natCast,
      zpow_natCast]
    refine ⟨?_, ?_⟩
    · rw [le_div_iff₀ hd']
      have := (Nat.le_div_iff_mul_le hd).1 h3'
      exact_mod_cast this
    · rw [div_lt_iff₀ hd']
      have := (Nat.div_lt_iff_lt_mul hd).1 h2
      exact_mod_cast this
  · rename_i h
    obtain ⟨h1, h2, h3⟩ := natDec_length ((d - 1) / n)
    have h3' := h3 (Nat.div_pos (by omega) hn)
    generalize (natDec ((d - 1) / n)).length = l at *
    obtain ⟨j, rfl⟩ : ∃ j, l = j + 1 := ⟨l - 1, by omega⟩
    simp only [Nat.add_sub_cancel] at h3'
    rw [show (-((j + 1 : Nat) : Int) + 1) = -(j : Int) by omega, zpow_neg, zpow_neg, zpow_natCast, zpow_natCast]
    refine ⟨?_, ?_⟩
    · rw [inv_le_comm₀ (by positivity) (by positivity), inv_div, div_le_iff₀ hn']
      have := (Nat.div_lt_iff_lt_mul hn).1 h2
      have : d ≤ 10 ^ (j + 1) * n := by omega
      exact_mod_cast this
    · rw [lt_inv_comm₀ (by positivity) (by positivity), inv_div, lt_div_iff₀ hn']
      have := (Nat.le_div_iff_mul_le hn).1 h3'
      have : 10 ^ j * n < d := by omega
      exact_mod_cast this

theorem log10_unique {x : ℚ} {j k : Int} (h1 : (10 : ℚ) ^ j ≤ x) (h2 : x < 10 ^ (j + 1)) (h3 : (10 : ℚ) ^ k ≤ x)
    (h4 : x < 10 ^ (k + 1)) : j = k := by
  have a := (zpow_lt_zpow_iff_right₀ (a := (10 : ℚ)) (by norm_num)).1 (lt_of_le_of_lt h1 h4)
  have b := (zpow_lt_zpow_iff_right₀ (a := (10 : ℚ)) (by norm_num)).1 (lt_of_le_of_lt h3 h2)
  omega

/-! ## Six digits -/

theorem roundDiv_unique {n d k : Nat} (hd : 0 < d) (h : |(n : ℚ) / d - k| < 1 / 2) : roundDiv n d = k := by
  have h1 := roundDiv_near (n := n) hd
  rw [abs_le] at h1
  rw [abs_lt] at h
  have a : (roundDiv n d : ℚ) < k + 1 := by linarith
  have b : (k : ℚ) < roundDiv n d + 1 := by linarith
  have a' : roundDiv n d < k + 1 := by exact_mod_cast a
  have b' : k < roundDiv n d + 1 := by exact_mod_cast b
  omega

/-- What the six digits of a number are. -/
theorem sixDigits_spec {n d : Nat} (hn : 0 < n) (hd : 0 < d) :
    10 ^ 5 ≤ (sixDigits n d).1 ∧ (sixDigits n d).1 < 10 ^ 6 ∧
    ∃ k : Int, (10 : ℚ) ^ k ≤ (n : ℚ) / d ∧ (n : ℚ) / d < 10 ^ (k + 1) ∧
      |((sixDigits n d).1 : ℚ) * 10 ^ ((sixDigits n d).2 - 5) - (n : ℚ) / d| ≤ 1 / 2 * 10 ^ (k - 5) ∧
      ((sixDigits n d).2 = k ∨ (sixDigits n d).2 = k + 1 ∧ (sixDigits n d).1 = 10 ^ 5) := by
  have ten : (10 : ℚ) ≠ 0 := by norm_num
  obtain ⟨h1, h2⟩ := ilog10_spec hn hd
  unfold sixDigits
  simp only
  generalize ilog10 n d = k at *
  have hu : (0 : ℚ) < 10 ^ (k - 5) := by positivity
  have hs := scale_val (b := 10) (n := n) (e := k - 5) (by norm_num) hd
  have hp := scale_pos (b := 10) (n := n) (e := k - 5) (by norm_num) hd
  push_cast at hs
  have hr := roundDiv_near (n := (scale 10 n d (k - 5)).1) hp
  rw [hs] at hr
  generalize roundDiv (scale 10 n d (k - 5)).1 (scale 10 n d (k - 5)).2 = m at *
  have e5 : (10 : ℚ) ^ k = 100000 * 10 ^ (k - 5) := by
    rw [show (100000 : ℚ) = 10 ^ (5 : Int) by norm_num, ← zpow_add₀ ten]
    congr 1
    ring
  have e6 : (10 : ℚ) ^ (k + 1) = 1000000 * 10 ^ (k - 5) := by
    rw [show (1000000 : ℚ) = 10 ^ (6 : Int) by norm_num, ← zpow_add₀ ten]
    congr 1
    ring
  have hb : |(m : ℚ) * 10 ^ (k - 5) - (n : ℚ) / d| ≤ 1 / 2 * 10 ^ (k - 5) := by
    have : (m : ℚ) * 10 ^ (k - 5) - (n : ℚ) / d = ((m : ℚ) - (n : ℚ) / d / 10 ^ (k - 5)) * 10 ^ (k - 5) := by
      field_simp
    rw [this, abs_mul, abs_of_pos hu]
    exact mul_le_mul_of_nonneg_right hr hu.le
  rw [abs_le] at hr
  have hlo : (100000 : ℚ) ≤ (n : ℚ) / d / 10 ^ (k - 5) := by rw [le_div_iff₀ hu]; linarith
  have hhi : (n : ℚ) / d / 10 ^ (k - 5) < 1000000 := by rw [div_lt_iff₀ hu]; linarith
  have m1 : 100000 ≤ m := by
    have : (100000 : ℚ) < m + 1 := by linarith
    have : 100000 < m + 1 := by exact_mod_cast this
    omega
  have m2 : m ≤ 1000000 := by
    have : (m : ℚ) < 1000000 + 1 := by linarith
    have : m < 1000000 + 1 := by exact_mod_cast this
    omega
  split
  · rename_i h
    refine ⟨le_refl _, by norm_num, k, h1, h2, ?_, .inr ⟨rfl, rfl⟩⟩
    simp only
    rw [show k + 1 - 5 = (k - 5) + 1 by ring, zpow_add₀ ten]
    have : ((10 ^ 5 : Nat) : ℚ) * (10 ^ (k - 5) * 10 ^ (1 : Int)) = (m : ℚ) * 10 ^ (k - 5) := by
      rw [h]
      push_cast
      ring
    rw [this]
    exact hb
  · rename_i h
    refine ⟨by simp only; omega, by simp only; omega, k, h1, h2, hb, .inl rfl⟩

/-- Numbers close enough to a number of six digits have these digits. -/
theorem sixDigits_near {n d D : Nat} {X : Int} (hn : 0 < n) (hd : 0 < d) (h5 : 10 ^ 5 ≤ D) (h6 : D < 10 ^ 6)
    (h : |(n : ℚ) / d - D * 10 ^ (X - 5)| * 2000000 < D * 10 ^ (X - 5)) : sixDigits n d = (D, X) := by
  have ten : (10 : ℚ) ≠ 0 := by norm_num
  obtain ⟨h1, h2⟩ := ilog10_spec hn hd
  have hu : (0 : ℚ) < 10 ^ (X - 5) := by positivity
  have h5' : (100000 : ℚ) ≤ D := by exact_mod_cast h5
  have h6' : (D : ℚ) + 1 ≤ 1000000 := by exact_mod_cast h6
  have e5 : (10 : ℚ) ^ X = 100000 * 10 ^ (X - 5) := by
    rw [show (100000 : ℚ) = 10 ^ (5 : Int) by norm_num, ← zpow_add₀ ten]
    congr 1
    ring
  have e6 : (10 : ℚ) ^ (X + 1) = 1000000 * 10 ^ (X - 5) := by
    rw [show (1000000 : ℚ) = 10 ^ (6 : Int) by norm_num, ← zpow_add₀ ten]
    congr 1
    ring
  have hx : |(n : ℚ) / d / 10 ^ (X - 5) - D| * 2000000 < D := by
    have e : (n : ℚ) / d / 10 ^ (X - 5) - D = ((n : ℚ) / d - D * 10 ^ (X - 5)) / 10 ^ (X - 5) := by field_simp
    rw [e, abs_div, abs_of_pos hu, div_mul_eq_mul_div, div_lt_iff₀ hu]
    exact h
  have hxx : (n : ℚ) / d = (n : ℚ) / d / 10 ^ (X - 5) * 10 ^ (X - 5) := by field_simp
  generalize hxe : (n : ℚ) / d / 10 ^ (X - 5) = x at *
  have hx' : |x - D| < 1 / 2 := by linarith
  have hxa := abs_lt.1 hx'
  rcases le_or_gt ((10 : ℚ) ^ X) ((n : ℚ) / d) with hX | hX
  · have hk : ilog10 n d = X := by
      refine log10_unique h1 h2 hX ?_
      rw [hxx, e6]
      exact mul_lt_mul_of_pos_right (by linarith) hu
    unfold sixDigits
    simp only [hk]
    have hs := scale_val (b := 10) (n := n) (e := X - 5) (by norm_num) hd
    have hp := scale_pos (b := 10) (n := n) (e := X - 5) (by norm_num) hd
    push_cast at hs
    rw [hxe] at hs
    rw [roundDiv_unique hp (k := D) (by rw [hs]; exact hx'), if_neg (by omega)]
  · have hD : D = 10 ^ 5 := by
      by_contra hne
      have : 100001 ≤ D := by omega
      have : (100001 : ℚ) ≤ D := by exact_mod_cast this
      rw [hxx, e5] at hX
      have := lt_of_mul_lt_mul_right hX hu.le
      linarith
    have hD' : (D : ℚ) = 100000 := by rw [hD]; norm_num
    have e6' : (10 : ℚ) ^ (X - 5) = 10 * 10 ^ (X - 1 - 5) := by
      rw [show X - 5 = 1 + (X - 1 - 5) by ring, zpow_add₀ ten, zpow_one]
    have hk : ilog10 n d = X - 1 := by
      refine log10_unique h1 h2 ?_ (by rw [show X - 1 + 1 = X by ring]; exact hX)
      have : (10 : ℚ) ^ (X - 1) = 10000 * 10 ^ (X - 5) := by
        rw [show (10000 : ℚ) = 10 ^ (4 : Int) by norm_num, ← zpow_add₀ ten]
        congr 1
        ring
      rw [this, hxx]
      exact mul_le_mul_of_nonneg_right (by linarith) hu.le
    unfold sixDigits
    simp only [hk]
    have hs := scale_val (b := 10) (n := n) (e := X - 1 - 5) (by norm_num) hd
    have hp := scale_pos (b := 10) (n := n) (e := X - 1 - 5) (by norm_num) hd
    push_cast at hs
    have hu' : (0 : ℚ) < 10 ^ (X - 1 - 5) := by positivity
    have hs' : (n : ℚ) / d / 10 ^ (X - 1 - 5) = 10 * x := by
      rw [hxx, e6']
      field_simp
    rw [hs'] at hs
    rw [roundDiv_unique hp (k := 10 ^ 6) (by
      rw [hs]
      have : (10 * x - ((10 ^ 6 : Nat) : ℚ)) = 10 * (x - D) := by rw [hD']; push_cast; ring
      rw [this, abs_mul, abs_of_pos (by norm_num : (0 : ℚ) < 10)]
      rw [hD'] at hx ⊢
      linarith), if_pos rfl]
    simp [hD]

/-! ## Trailing zeros -/

theorem strip_zeros (ds : Bytes) : ∃ z, ds = strip ds ++ List.replicate z 48 := by
  unfold strip
  induction hn : ds.length generalizing ds with
  | zero => rw [List.length_eq_zero_iff.1 hn]; exact ⟨0, rfl⟩
  | succ n ih =>
    obtain ⟨l, c, rfl⟩ : ∃ l c, ds = l ++ [c] := by
      have hne : ds ≠ [] := by rintro rfl; simp at hn
      exact ⟨ds.dropLast, ds.getLast hne, (List.dropLast_append_getLast hne).symm⟩
    by_cases hc : c = 48
    · obtain ⟨z, hz⟩ := ih l (by simpa using hn)
      refine ⟨z + 1, ?_⟩
      rw [List.reverse_append, List.reverse_singleton, List.singleton_append, List.dropWhile_cons, if_pos (by simp [hc]),
        List.replicate_succ', ← List.append_assoc, ← hz, hc]
    · refine ⟨0, ?_⟩
      rw [List.reverse_append, List.reverse_singleton, List.singleton_append, List.dropWhile_cons, if_neg (by simp [hc])]
      simp

theorem digitsValue_zeros (a : Bytes) (z : Nat) : digitsValue 10 (a ++ List.replicate z 48) = digitsValue 10 a * 10 ^ z := by
  induction z with
  | zero => simp
  | succ z ih =>
    rw [List.replicate_succ', ← List.append_assoc, digitsValue_snoc, ih, Nat.pow_succ]
    have : digitVal 48 = 0 := by decide
    rw [this, Nat.add_zero, Nat.mul_assoc]

/-- The text of digits with a point reads as these digits. -/
theorem fraction_mantissa {a f : Bytes} (ha : a ≠ []) (hd : ∀ c ∈ a ++ f, isDigit c = true) :
    ∃ m k, Mantissa 10 (a ++ fraction f) m k ∧ (m : ℚ) * 10 ^ (-(k : Int)) = digitsValue 10 (a ++ f) * 10 ^ (-(f.length : Int)) := by
  have ten : (10 : ℚ) ≠ 0 := by norm_num
  obtain ⟨z, hz⟩ := strip_zeros f
  have hlen : f.length = (strip f).length + z := by
    have := congrArg List.length hz
    simpa using this
  have hval : digitsValue 10 (a ++ f) = digitsValue 10 (a ++ strip f) * 10 ^ z := by
    rw [← digitsValue_zeros, List.append_assoc, ← hz]
  have hds : ∀ c ∈ a ++ strip f, isDigit c = true := by
    intro c hc
    refine hd c ?_
    rcases List.mem_append.1 hc with h | h
    · exact List.mem_append_left _ h
    · refine List.mem_append_right _ ?_
      rw [hz]
      exact List.mem_append_left _ h
  have heq : ∀ k : Nat, k = (strip f).length → ((digitsValue 10 (a ++ strip f) : Nat) : ℚ) * 10 ^ (-(k : Int)) =
      digitsValue 10 (a ++ f) * 10 ^ (-(f.length : Int)) := by
    intro k hk
    have hsplit : (10 : ℚ) ^ (-(k : Int)) = 10 ^ z * 10 ^ (-(f.length : Int)) := by
      rw [← zpow_natCast (10 : ℚ) z, ← zpow_add₀ ten]
      congr 1
      rw [hlen, hk]
      push_cast
      ring
    rw [hval, hsplit]
    push_cast
    ring
  unfold fraction
  split
  · rename_i h
    rw [h] at heq hds
    rw [List.append_nil] at heq hds ⊢
    exact ⟨_, 0, .whole ((digits_iff base10).2 ⟨hds, rfl⟩) ha, heq 0 rfl⟩
  · exact ⟨_, (strip f).length, .point ((digits_iff base10).2 ⟨hds, rfl⟩) (by simp [ha]), heq _ rfl⟩

/-- The text of six digits and an exponent reads as the number they denote. -/
theorem layoutG_word {D : Nat} {X : Int} (h5 : 10 ^ 5 ≤ D) (h6 : D < 10 ^ 6) :
    FloatWord (layoutG (natDec D) X) (.number (D * 10 ^ (X - 5))) := by
  have ten : (10 : ℚ) ≠ 0 := by norm_num
  obtain ⟨hdig, hne⟩ := decimal_iff.1 (natDec_decimal D)
  obtain ⟨hall, hval⟩ := (digits_iff base10).1 hdig
  have hlen : (natDec D).length = 6 := by
    obtain ⟨h1, h2, h3⟩ := natDec_length D
    have h3' := h3 (by omega)
    have a : 5 < (natDec D).length := (Nat.pow_lt_pow_iff_right (a := 10) (by norm_num)).1 (by omega)
    have b : (natDec D).length - 1 < 6 := (Nat.pow_lt_pow_iff_right (a := 10) (by norm_num)).1 (by omega)
    omega
  generalize natDec D = ds at *
  unfold layoutG
  split
  · rename_i hr
    split
    · rename_i h0
      have hne' : ds.take (X.toNat + 1) ≠ [] := by
        intro h
        have := congrArg List.length h
        rw [List.length_take, hlen, List.length_nil] at this
        omega
      obtain ⟨m, k, hm, hv⟩ := fraction_mantissa (f := ds.drop (X.toNat + 1)) hne' (by rw [List.take_append_drop]; exact hall)
      rw [List.take_append_drop, hval, List.length_drop, hlen] at hv
      have := FloatWord.decimal hm (.none (lower := 101) (upper := 69))
      rw [List.append_nil, zero_sub, hv] at this
      rw [show X - 5 = -((6 - (X.toNat + 1) : Nat) : Int) by omega]
      exact this
    · rename_i h0
      obtain ⟨m, k, hm, hv⟩ := fraction_mantissa (a := [48]) (f := List.replicate ((-X).toNat - 1) 48 ++ ds) (by simp) (by
        intro c hc
        rcases List.mem_append.1 hc with h | h
        · rw [List.mem_singleton.1 h]; decide
        · rcases List.mem_append.1 h with h | h
          · rw [List.eq_of_mem_replicate h]; decide
          · exact hall c h)
      have hz : ∀ z : Nat, digitsValue 10 (48 :: (List.replicate z 48 ++ ds)) = digitsValue 10 ds := by
        intro z
        induction z with
        | zero => simp [digitsValue, digitVal]
        | succ z ih =>
          rw [← ih]
          simp [digitsValue, digitVal, List.replicate_succ]
      rw [List.singleton_append, hz, hval, List.length_append, List.length_replicate, hlen] at hv
      have := FloatWord.decimal hm (.none (lower := 101) (upper := 69))
      rw [List.append_nil, zero_sub, hv] at this
      rw [show X - 5 = -(((-X).toNat - 1 + 6 : Nat) : Int) by omega]
      exact this
  · have hne' : ds.take 1 ≠ [] := by
      intro h
      have := congrArg List.length h
      rw [List.length_take, hlen, List.length_nil] at this
      omega
    obtain ⟨m, k, hm, hv⟩ := fraction_mantissa (f := ds.drop 1) hne' (by rw [List.take_append_drop]; exact hall)
    rw [List.take_append_drop, hval, List.length_drop, hlen] at hv
    have hexp : ∃ t v, Decimal t v ∧ v = X.natAbs ∧ (if X.natAbs < 10 then 48 :: natDec X.natAbs else natDec X.natAbs) = t := by
      split
      · refine ⟨_, _, decimal_iff.2 ⟨(digits_iff base10).2 ⟨?_, rfl⟩, by simp⟩, ?_, rfl⟩
        · intro c hc
          rcases List.mem_cons.1 hc with h | h
          · rw [h]; decide
          · exact ((digits_iff base10).1 (decimal_iff.1 (natDec_decimal _)).1).1 c h
        · have := ((digits_iff base10).1 (decimal_iff.1 (natDec_decimal X.natAbs)).1).2
          conv_rhs => rw [← this]
          simp [digitsValue, digitVal]
      · exact ⟨_, _, natDec_decimal _, rfl, rfl⟩
    obtain ⟨t, v, ht, hv', hte⟩ := hexp
    simp only [hte]
    obtain ⟨neg, hsg, hX⟩ : ∃ neg, Sign [if X < 0 then 45 else 43] neg ∧ (if neg then -(v : Int) else v) = X := by
      by_cases h : X < 0
      · refine ⟨true, ?_, ?_⟩
        · rw [if_pos h]; exact .minus
        · simp; omega
      · refine ⟨false, ?_, ?_⟩
        · rw [if_neg h]; exact .plus
        · simp; omega
    have := FloatWord.decimal hm (.some (lower := 101) (upper := 69) (.inl rfl) hsg ht)
    rw [hX] at this
    have hq : (m : ℚ) * 10 ^ (X - (k : Int)) = D * 10 ^ (X - 5) := by
      rw [sub_eq_add_neg, zpow_add₀ ten, mul_left_comm, hv, sub_eq_add_neg, zpow_add₀ ten]
      push_cast
      ring
    rw [hq] at this
    simpa [List.append_assoc] using this

end Coil.Floats
