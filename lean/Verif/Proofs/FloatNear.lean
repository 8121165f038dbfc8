import Verif.Proofs.FloatRound

/-! # The nearest number of a format -/

namespace Coil.Floats
open Spec Fl

variable {F : Fmt}

theorem mag_nonneg (m : Nat) (e : Int) : 0 ≤ mag m e := by unfold mag; positivity

theorem mag_lt_iff {m m' : Nat} {e : Int} : mag m e < mag m' e ↔ m < m' := by
  unfold mag
  have hu : (0 : ℚ) < 2 ^ e := by positivity
  rw [mul_lt_mul_iff_left₀ hu]
  exact_mod_cast Iff.rfl

theorem stored_member {m : Nat} {e : Int} (h : Stored F m e) : Member F (mag m e) := ⟨m, e, h.1, h.2.1, rfl⟩

/-- The power of two after the greatest mantissa belongs to the format. -/
theorem member_top (hF : Fmt.Proper F) {e : Int} (he : F.emin ≤ e) {m : Nat} (hm : m ≤ 2 ^ F.prec) : Member F (mag m e) := by
  rcases Nat.lt_or_eq_of_le hm with h | h
  · exact ⟨m, e, h, he, rfl⟩
  · have := hF.1
    refine ⟨2 ^ (F.prec - 1), e + 1, Nat.pow_lt_pow_right (by norm_num) (by omega), by omega, ?_⟩
    rw [← mag_double, h, ← Nat.pow_succ', show (F.prec - 1).succ = F.prec by omega]

theorem stored_not_lt (hF : Fmt.Proper F) {m m' : Nat} {e e' : Int} (h : Stored F m e) (h' : Stored F m' e')
    (hv : mag m e = mag m' e') : ¬ e < e' := by
  intro hlt
  have two : (2 : ℚ) ≠ 0 := by norm_num
  have h1 : 2 ^ (F.prec - 1) ≤ m' := by
    rcases h'.2.2 with h1 | h1
    · exact h1
    · have := h.2.1; omega
  have hm : (m : ℚ) < 2 ^ (F.prec : Int) := by rw [zpow_natCast]; exact_mod_cast h.1
  have hm' : (2 : ℚ) ^ ((F.prec - 1 : Nat) : Int) ≤ m' := by rw [zpow_natCast]; exact_mod_cast h1
  have hu : (0 : ℚ) < 2 ^ e := by positivity
  have hu' : (0 : ℚ) < 2 ^ e' := by positivity
  have a : mag m e < 2 ^ ((F.prec : Int) + e) := by
    unfold mag; rw [zpow_add₀ two]; exact mul_lt_mul_of_pos_right hm hu
  have b : (2 : ℚ) ^ (((F.prec - 1 : Nat) : Int) + e') ≤ mag m' e' := by
    unfold mag; rw [zpow_add₀ two]; exact mul_le_mul_of_nonneg_right hm' hu'.le
  have c : (2 : ℚ) ^ ((F.prec : Int) + e) ≤ 2 ^ (((F.prec - 1 : Nat) : Int) + e') :=
    zpow_le_zpow_right₀ (by norm_num) (by have := hF.1; omega)
  rw [hv] at a
  linarith

/-- Numbers are stored in one way. -/
theorem stored_inj (hF : Fmt.Proper F) {m m' : Nat} {e e' : Int} (h : Stored F m e) (h' : Stored F m' e')
    (hv : mag m e = mag m' e') : m = m' ∧ e = e' := by
  have a := stored_not_lt hF h h' hv
  have b := stored_not_lt hF h' h hv.symm
  have he : e = e' := by omega
  subst he
  refine ⟨?_, rfl⟩
  unfold mag at hv
  have hu : (2 : ℚ) ^ e ≠ 0 := by positivity
  exact_mod_cast mul_right_cancel₀ hu hv

/-- Two different nearest numbers would both be even, but they are neighbours. -/
theorem nearest_not_lt (hF : Fmt.Proper F) {q : ℚ} {m m' : Nat} {e e' : Int} (h : Nearest F q m e) (h' : Nearest F q m' e') :
    ¬ mag m e < mag m' e' := by
  intro hlt
  have hmem := stored_member h.stored
  have hmem' := stored_member h'.stored
  have heq : |mag m e - q| = |mag m' e' - q| := le_antisymm (h.near _ hmem') (h'.near _ hmem)
  have hev := h.even _ hmem' hlt.ne' heq.symm
  have hev' := h'.even _ hmem hlt.ne heq
  have hsucc : Member F (mag (m + 1) e) := member_top hF h.stored.2.1 h.stored.1
  have hgt : mag m e < mag (m + 1) e := mag_lt_iff.2 (by omega)
  -- `q` is the middle
  have hmid : mag m e + mag m' e' = 2 * q := by
    rcases abs_eq_abs.1 heq with h1 | h1
    · linarith
    · linarith
  have hsucc_le : ¬ mag (m + 1) e < mag m' e' := by
    intro hc
    have := h.near _ hsucc
    rw [abs_of_nonpos (a := mag m e - q) (by linarith)] at this
    rcases abs_cases (mag (m + 1) e - q) with ⟨h1, _⟩ | ⟨h1, _⟩ <;> rw [h1] at this <;> linarith
  rcases Nat.lt_or_eq_of_le h.stored.1 with hp | hp
  · -- the next number has the same exponent
    have hst : Stored F (m + 1) e := by
      refine ⟨hp, h.stored.2.1, ?_⟩
      rcases h.stored.2.2 with h1 | h1
      · exact .inl (by omega)
      · exact .inr h1
    have hee : mag m' e' = mag (m + 1) e := by
      refine le_antisymm (not_lt.1 hsucc_le) ?_
      -- nothing lies between
      by_contra hc
      rw [not_le] at hc
      rcases le_or_gt e e' with he | he
      · obtain ⟨j, hj⟩ := member_grid (m := m') he
        have hu : (0 : ℚ) < 2 ^ e := by positivity
        rw [hj] at hc hlt
        unfold mag at hc hlt
        have h1 : (j : ℚ) < ((m + 1 : Nat) : ℚ) := lt_of_mul_lt_mul_right hc hu.le
        have h2 : (m : ℚ) < j := lt_of_mul_lt_mul_right hlt hu.le
        have h1' : j < ((m + 1 : Nat) : Int) := by exact_mod_cast h1
        have h2' : (m : Int) < j := by exact_mod_cast h2
        omega
      · exact absurd hlt (by
          have h1 : 2 ^ (F.prec - 1) ≤ m := by
            rcases h.stored.2.2 with h1 | h1
            · exact h1
            · have := h'.stored.2.1; omega
          rw [not_lt]
          unfold mag
          have two : (2 : ℚ) ≠ 0 := by norm_num
          have hm : (m' : ℚ) ≤ 2 ^ (F.prec : Int) := by rw [zpow_natCast]; exact_mod_cast h'.stored.1.le
          have hm' : (2 : ℚ) ^ ((F.prec - 1 : Nat) : Int) ≤ m := by rw [zpow_natCast]; exact_mod_cast h1
          have hu : (0 : ℚ) < 2 ^ e := by positivity
          have hu' : (0 : ℚ) < 2 ^ e' := by positivity
          calc (m' : ℚ) * 2 ^ e' ≤ 2 ^ (F.prec : Int) * 2 ^ e' := mul_le_mul_of_nonneg_right hm hu'.le
            _ = 2 ^ ((F.prec : Int) + e') := by rw [zpow_add₀ two]
            _ ≤ 2 ^ (((F.prec - 1 : Nat) : Int) + e) := zpow_le_zpow_right₀ (by norm_num) (by have := hF.1; omega)
            _ = 2 ^ ((F.prec - 1 : Nat) : Int) * 2 ^ e := by rw [zpow_add₀ two]
            _ ≤ m * 2 ^ e := mul_le_mul_of_nonneg_right hm' hu.le)
    have := (stored_inj hF h'.stored hst hee).1
    omega
  · -- the mantissa is the greatest one, which is odd
    have := hF.1
    obtain ⟨j, hj⟩ : ∃ j, F.prec = j + 1 := ⟨F.prec - 1, by omega⟩
    rw [hj, Nat.pow_succ] at hp
    omega

theorem nearest_unique (hF : Fmt.Proper F) {q : ℚ} {m m' : Nat} {e e' : Int} (h : Nearest F q m e) (h' : Nearest F q m' e') :
    m = m' ∧ e = e' :=
  stored_inj hF h.stored h'.stored (le_antisymm (not_lt.1 (nearest_not_lt hF h' h)) (not_lt.1 (nearest_not_lt hF h h')))

theorem nearest_exists (hF : Fmt.Proper F) {q : ℚ} (hq : 0 ≤ q) : ∃ m e, Nearest F q m e := by
  have hd : 0 < q.den := q.den_pos
  have := roundFmt_nearest hF (n := q.num.toNat) hd
  have hn : ((q.num.toNat : Nat) : ℚ) / q.den = q := by
    have h1 : ((q.num.toNat : Nat) : Int) = q.num := Int.toNat_of_nonneg (Rat.num_nonneg.2 hq)
    have h2 : ((q.num.toNat : Nat) : ℚ) = (q.num : ℚ) := by exact_mod_cast congrArg (Int.cast (R := ℚ)) h1
    rw [h2, Rat.num_div_den]
  rw [hn] at this
  exact ⟨_, _, this⟩

/-- A number of the format is its own nearest number. -/
theorem nearest_member {q : ℚ} {m : Nat} {e : Int} (h : Nearest F q m e) (hq : Member F q) : mag m e = q := by
  have := h.near _ hq
  rw [sub_self, abs_zero] at this
  have := abs_eq_zero.1 (le_antisymm this (abs_nonneg _))
  linarith

/-- Rounding does not pass a number of the format. -/
theorem nearest_ge {q v : ℚ} {m : Nat} {e : Int} (h : Nearest F q m e) (hv : Member F v) (hle : v ≤ q) : v ≤ mag m e := by
  by_contra hc
  rw [not_le] at hc
  have := h.near _ hv
  rw [abs_of_nonpos (by linarith), abs_of_nonpos (by linarith)] at this
  linarith

theorem nearest_le {q v : ℚ} {m : Nat} {e : Int} (h : Nearest F q m e) (hv : Member F v) (hle : q ≤ v) : mag m e ≤ v := by
  by_contra hc
  rw [not_le] at hc
  have := h.near _ hv
  rw [abs_of_nonneg (by linarith), abs_of_nonneg (by linarith)] at this
  linarith

/-- The relative error of rounding. -/
theorem nearest_error (hF : Fmt.Proper F) {q : ℚ} {m : Nat} {e : Int} (h : Nearest F q m e) (hq : leastNormal F ≤ q) :
    |mag m e - q| * 2 ^ F.prec ≤ q := by
  have two : (2 : ℚ) ≠ 0 := by norm_num
  have hq0 : 0 < q := lt_of_lt_of_le (by unfold leastNormal; positivity) hq
  have hd : 0 < q.den := q.den_pos
  have hn : ((q.num.toNat : Nat) : ℚ) / q.den = q := by
    have h1 : ((q.num.toNat : Nat) : Int) = q.num := Int.toNat_of_nonneg (Rat.num_nonneg.2 hq0.le)
    have h2 : ((q.num.toNat : Nat) : ℚ) = (q.num : ℚ) := by exact_mod_cast congrArg (Int.cast (R := ℚ)) h1
    rw [h2, Rat.num_div_den]
  have hnp : 0 < q.num.toNat := by
    have := Rat.num_pos.2 hq0
    omega
  obtain ⟨k1, k2⟩ := ilog2_spec hnp hd
  generalize q.num.toNat = n at *
  generalize q.den = d at *
  rw [hn] at k1 k2
  generalize ilog2 n d = k at *
  have hk : F.emin + ((F.prec : Int) - 1) ≤ k := by
    have := lt_of_le_of_lt hq k2
    unfold leastNormal at this
    have := (zpow_lt_zpow_iff_right₀ (a := (2 : ℚ)) (by norm_num)).1 this
    omega
  obtain ⟨e0, rfl⟩ : ∃ e0, k = e0 + ((F.prec : Int) - 1) := ⟨k - ((F.prec : Int) - 1), by ring⟩
  have hu : (0 : ℚ) < 2 ^ e0 := by positivity
  have hs := scale_val (b := 2) (n := n) (e := e0) (by norm_num) hd
  have hp := scale_pos (b := 2) (n := n) (e := e0) (by norm_num) hd
  push_cast at hs
  have hr := roundDiv_near (n := (scale 2 n d e0).1) hp
  rw [hs, hn] at hr
  generalize roundDiv (scale 2 n d e0).1 (scale 2 n d e0).2 = r at *
  have hlt : q / 2 ^ e0 < 2 ^ F.prec := by
    rw [div_lt_iff₀ hu, ← zpow_natCast, ← zpow_add₀ two]
    exact lt_of_lt_of_le k2 (zpow_le_zpow_right₀ (by norm_num) (by omega))
  have hm : r ≤ 2 ^ F.prec := by
    rw [abs_le] at hr
    have : (r : ℚ) < 2 ^ F.prec + 1 := by linarith
    have : r < 2 ^ F.prec + 1 := by exact_mod_cast this
    omega
  have h1 := h.near _ (member_top hF (by omega : F.emin ≤ e0) hm)
  have h2 : |mag r e0 - q| ≤ 1 / 2 * 2 ^ e0 := by
    have : mag r e0 - q = ((r : ℚ) - q / 2 ^ e0) * 2 ^ e0 := by unfold mag; field_simp
    rw [this, abs_mul, abs_of_pos hu]
    exact mul_le_mul_of_nonneg_right hr hu.le
  have h3 : 1 / 2 * (2 : ℚ) ^ e0 * 2 ^ F.prec = 2 ^ (e0 + ((F.prec : Int) - 1)) := by
    rw [← zpow_natCast, show (1 / 2 : ℚ) = 2 ^ (-1 : Int) by norm_num, ← zpow_add₀ two, ← zpow_add₀ two]
    congr 1
    ring
  have hpp : (0 : ℚ) ≤ 2 ^ F.prec := by positivity
  calc |mag m e - q| * 2 ^ F.prec ≤ 1 / 2 * 2 ^ e0 * 2 ^ F.prec := mul_le_mul_of_nonneg_right (le_trans h1 h2) hpp
    _ = 2 ^ (e0 + ((F.prec : Int) - 1)) := h3
    _ ≤ q := k1

/-- Numbers up to the greatest one do not overflow. -/
theorem nearest_fits (hF : Fmt.Proper F) {q : ℚ} {m : Nat} {e : Int} (h : Nearest F q m e)
    (hq : q ≤ mag (2 ^ F.prec - 1) F.emax) : e ≤ F.emax := by
  by_contra hc
  have two : (2 : ℚ) ≠ 0 := by norm_num
  have hpos : 0 < 2 ^ F.prec := Nat.two_pow_pos _
  have hmem : Member F (mag (2 ^ F.prec - 1) F.emax) := ⟨_, _, by omega, hF.2, rfl⟩
  have h1 := nearest_le h hmem hq
  have h2 : 2 ^ (F.prec - 1) ≤ m := by
    rcases h.stored.2.2 with h2 | h2
    · exact h2
    · have := hF.2; omega
  have h3 : mag (2 ^ F.prec - 1) F.emax < mag (2 ^ F.prec) F.emax := mag_lt_iff.2 (by omega)
  have hm' : (2 : ℚ) ^ ((F.prec - 1 : Nat) : Int) ≤ m := by rw [zpow_natCast]; exact_mod_cast h2
  have h4 : mag (2 ^ F.prec) F.emax ≤ mag m e := by
    unfold mag
    have hu : (0 : ℚ) < 2 ^ e := by positivity
    calc ((2 ^ F.prec : Nat) : ℚ) * 2 ^ F.emax = 2 ^ ((F.prec : Int) + F.emax) := by
          rw [zpow_add₀ two, zpow_natCast]; push_cast; rfl
      _ ≤ 2 ^ (((F.prec - 1 : Nat) : Int) + e) := zpow_le_zpow_right₀ (by norm_num) (by have := hF.1; omega)
      _ = 2 ^ ((F.prec - 1 : Nat) : Int) * 2 ^ e := by rw [zpow_add₀ two]
      _ ≤ m * 2 ^ e := mul_le_mul_of_nonneg_right hm' hu.le
  linarith

/-! ## Results of a conversion -/

theorem ofFrac_fin {tiny : Nat → Nat → Bool} {neg : Bool} (hF : Fmt.Proper F) {n d m : Nat} {e : Int} (hd : 0 < d)
    (h : Nearest F ((n : ℚ) / d) m e) (he : e ≤ F.emax) :
    ofFrac F tiny neg n d = (.fin neg m e, underflows F n d m e && tiny n d) := by
  obtain ⟨h1, h2⟩ := nearest_unique hF (roundFmt_nearest hF (n := n) hd) h
  unfold ofFrac
  simp only [h1, h2]
  rw [if_neg (by omega)]

theorem ofFrac_inf {tiny : Nat → Nat → Bool} {neg : Bool} (hF : Fmt.Proper F) {n d m : Nat} {e : Int} (hd : 0 < d)
    (h : Nearest F ((n : ℚ) / d) m e) (he : F.emax < e) : ofFrac F tiny neg n d = (.inf neg, true) := by
  obtain ⟨h1, h2⟩ := nearest_unique hF (roundFmt_nearest hF (n := n) hd) h
  unfold ofFrac
  simp only [h1, h2]
  rw [if_pos (by omega)]

theorem scale_lt {b n d : Nat} {e : Int} (hb : 0 < b) (hd : 0 < d) :
    (scale b n d e).1 < (scale b n d e).2 ↔ (n : ℚ) / d < (b : ℚ) ^ e := by
  have hs := scale_val (n := n) (e := e) hb hd
  have hp := scale_pos (n := n) (e := e) hb hd
  have hp' : (0 : ℚ) < (scale b n d e).2 := by exact_mod_cast hp
  have hu : (0 : ℚ) < (b : ℚ) ^ e := by have : (0 : ℚ) < b := by exact_mod_cast hb
                                        positivity
  rw [show (scale b n d e).1 < (scale b n d e).2 ↔ ((scale b n d e).1 : ℚ) / (scale b n d e).2 < 1 by
    rw [div_lt_one hp']; exact_mod_cast Iff.rfl, hs, div_lt_one hu]

theorem scale_eq {n d m : Nat} {e : Int} (hd : 0 < d) :
    (scale 2 n d e).1 = m * (scale 2 n d e).2 ↔ (n : ℚ) / d = mag m e := by
  have hs := scale_val (b := 2) (n := n) (e := e) (by norm_num) hd
  have hp := scale_pos (b := 2) (n := n) (e := e) (by norm_num) hd
  have hp' : (0 : ℚ) < (scale 2 n d e).2 := by exact_mod_cast hp
  have hu : (0 : ℚ) < (2 : ℚ) ^ e := by positivity
  push_cast at hs
  unfold mag
  rw [show (scale 2 n d e).1 = m * (scale 2 n d e).2 ↔ ((scale 2 n d e).1 : ℚ) / (scale 2 n d e).2 = m by
    rw [div_eq_iff hp'.ne']; exact_mod_cast Iff.rfl, hs, div_eq_iff hu.ne']

theorem underflows_iff {n d m : Nat} {e : Int} (hd : 0 < d) :
    underflows F n d m e = true ↔ (n : ℚ) / d < leastNormal F ∧ (n : ℚ) / d ≠ mag m e := by
  unfold underflows leastNormal
  simp only [Bool.and_eq_true, decide_eq_true_eq]
  rw [scale_lt (by norm_num) hd, ne_eq, scale_eq hd]
  push_cast
  exact Iff.rfl

end Coil.Floats
