import Verif.Model.ErrorCommands
import Verif.Proofs.FloatSum
import Mathlib.Analysis.Real.Sqrt

/-!
# Square roots of floating-point numbers
-/

namespace Coil.Floats
open Spec Fl

variable {F : Fmt} {nan : Fl → Bool}

theorem isqrt_spec : ∀ (k n : Nat), n < 4 ^ k → isqrt k n * isqrt k n ≤ n ∧ n < (isqrt k n + 1) * (isqrt k n + 1)
  | 0, n, h => by
    have : n = 0 := by simpa using h
    subst this
    simp [isqrt]
  | k + 1, n, h => by
    obtain ⟨h1, h2⟩ := isqrt_spec k (n / 4) (by rw [Nat.div_lt_iff_lt_mul (by norm_num)]; rwa [pow_succ] at h)
    simp only [isqrt]
    generalize isqrt k (n / 4) = s at h1 h2 ⊢
    have a : 4 * (s * s) ≤ n := by
      have := Nat.div_mul_le_self n 4
      omega
    have b : n < 4 * ((s + 1) * (s + 1)) := by omega
    split
    · rename_i hc
      refine ⟨hc, ?_⟩
      nlinarith
    · rename_i hc
      exact ⟨by nlinarith, by omega⟩

/-- The whole number nearest to a root. -/
theorem root_near {n s : Nat} (h1 : s * s ≤ n) (h2 : n < (s + 1) * (s + 1)) :
    |((if n ≤ s * s + s then s else s + 1 : Nat) : ℝ) - √(n : ℝ)| ≤ 1 / 2 := by
  have hn : (0 : ℝ) ≤ n := Nat.cast_nonneg n
  have hs : (0 : ℝ) ≤ s := Nat.cast_nonneg s
  have h1' : (s : ℝ) ≤ √n := Real.le_sqrt_of_sq_le (by rw [sq]; exact_mod_cast h1)
  have h2' : √(n : ℝ) ≤ s + 1 := Real.sqrt_le_iff.2 ⟨by positivity, by rw [sq]; exact_mod_cast h2.le⟩
  split
  · rename_i h
    have h' : (n : ℝ) ≤ s * s + s := by exact_mod_cast h
    have : √(n : ℝ) ≤ s + 1 / 2 := Real.sqrt_le_iff.2 ⟨by positivity, by nlinarith⟩
    rw [abs_le]
    constructor <;> linarith
  · rename_i h
    have h' : (s : ℝ) * s + s + 1 ≤ n := by exact_mod_cast (by omega : s * s + s + 1 ≤ n)
    have : s + 1 / 2 ≤ √(n : ℝ) := Real.le_sqrt_of_sq_le (by nlinarith)
    push_cast
    rw [abs_le]
    constructor <;> linarith

/-- A whole number within one half is nearest. -/
theorem near_best {t : Nat} {y : ℝ} (h : |(t : ℝ) - y| ≤ 1 / 2) (z : Int) : |(t : ℝ) - y| ≤ |(z : ℝ) - y| := by
  by_cases hz : z = t
  · subst hz
    exact le_of_eq (by push_cast; rfl)
  · have h1 : (1 : ℝ) ≤ |(z : ℝ) - t| := by
      have : (1 : Int) ≤ |z - t| := Int.one_le_abs (sub_ne_zero.2 hz)
      exact_mod_cast this
    have h2 := abs_sub_le (z : ℝ) y t
    rw [abs_sub_comm y] at h2
    linarith

/-- A magnitude as a real number. -/
theorem mag_real (m : Nat) (e : Int) : ((mag m e : ℚ) : ℝ) = m * (2 : ℝ) ^ e := by
  unfold mag
  push_cast
  rfl

/-- A number of the format that is not small is a multiple of the unit. -/
theorem member_multiple {v : ℚ} {k : Int} (hv : Member F v) (h : (2 : ℚ) ^ (F.prec - 1) * 2 ^ k ≤ v) (hp : 1 ≤ F.prec) : ∃ z : Int, v = z * 2 ^ k := by
  obtain ⟨m, e, hm, _, rfl⟩ := hv
  have hk : k ≤ e := by
    by_contra hc
    have h1 : mag m e < 2 ^ F.prec * 2 ^ (k - 1) := by
      unfold mag
      have hm' : (m : ℚ) < 2 ^ F.prec := by exact_mod_cast hm
      have he : (2 : ℚ) ^ e ≤ 2 ^ (k - 1) := zpow_le_zpow_right₀ (by norm_num) (by omega)
      have hpos : (0 : ℚ) < 2 ^ e := by positivity
      calc (m : ℚ) * 2 ^ e < 2 ^ F.prec * 2 ^ e := by exact mul_lt_mul_of_pos_right hm' hpos
        _ ≤ _ := by exact mul_le_mul_of_nonneg_left he (by positivity)
    have h2 : (2 : ℚ) ^ F.prec * 2 ^ (k - 1) = 2 ^ (F.prec - 1) * 2 ^ k := by
      obtain ⟨p, hp⟩ := Nat.exists_eq_add_of_le' hp
      rw [hp, Nat.add_sub_cancel, pow_succ, zpow_sub₀ (by norm_num), zpow_one]
      ring
    linarith
  exact member_grid hk

/-- What the root of a positive number is. -/
theorem sqrtFin_spec (hF : Fmt.Proper F) (hlow : 2 * F.emin ≤ F.emin - 2 * F.prec) (hhigh : 0 < F.emax) {m : Nat} {e : Int}
    (hm : 0 < m) (hx : IsFloat F (.fin false m e)) :
    ∃ r k, sqrtFin F m e = .fin false r k ∧ IsFloat F (.fin false r k) ∧
      (∀ v, Member F v → |((mag r k : ℚ) : ℝ) - √((mag m e : ℚ) : ℝ)| ≤ |(v : ℝ) - √((mag m e : ℚ) : ℝ)|) ∧
      |((mag r k : ℚ) : ℝ) - √((mag m e : ℚ) : ℝ)| ≤ ((roundoff F : ℚ) : ℝ) * √((mag m e : ℚ) : ℝ) := by
  obtain ⟨⟨hm2, he1, _⟩, he2⟩ := hx
  obtain ⟨hp, _⟩ := hF
  have hlog := Nat.log2_self_le hm.ne'
  have hlog' : m < 2 ^ (Nat.log2 m + 1) := Nat.lt_log2_self
  have hl : Nat.log2 m < F.prec := (Nat.pow_lt_pow_iff_right (by norm_num : 1 < 2)).1 (lt_of_le_of_lt hlog hm2)
  simp only [sqrtFin]
  set i : Nat := 2 * F.prec - 2 - Nat.log2 m with hi
  set j : Nat := if (e - i) % 2 = 0 then i else i + 1 with hj
  have hje : (e - j) % 2 = 0 ∧ (j = i ∨ j = i + 1) := by
    rw [hj]
    split
    · rename_i h; exact ⟨h, .inl rfl⟩
    · rename_i h; exact ⟨by push_cast; omega, .inr rfl⟩
  obtain ⟨hj1, hj2⟩ := hje
  clear_value j
  obtain ⟨k, hk⟩ : ∃ k : Int, e - j = 2 * k := ⟨(e - j) / 2, by omega⟩
  rw [show (e - (j : Int)) / 2 = k by omega]
  set n := m * 2 ^ j with hn
  have hn1 : 2 ^ (F.prec - 1) * 2 ^ (F.prec - 1) ≤ n := by
    calc 2 ^ (F.prec - 1) * 2 ^ (F.prec - 1) = 2 ^ (F.prec - 1 + (F.prec - 1)) := (pow_add _ _ _).symm
      _ ≤ 2 ^ (Nat.log2 m + j) := Nat.pow_le_pow_right (by norm_num) (by omega)
      _ = 2 ^ Nat.log2 m * 2 ^ j := pow_add _ _ _
      _ ≤ n := Nat.mul_le_mul_right _ hlog
  have hn2 : n < 4 ^ F.prec := by
    calc n < 2 ^ (Nat.log2 m + 1) * 2 ^ j := Nat.mul_lt_mul_of_pos_right hlog' (by positivity)
      _ = 2 ^ (Nat.log2 m + 1 + j) := (pow_add _ _ _).symm
      _ ≤ 2 ^ (2 * F.prec) := Nat.pow_le_pow_right (by norm_num) (by omega)
      _ = 4 ^ F.prec := by rw [pow_mul]; norm_num
  obtain ⟨hs1, hs2⟩ := isqrt_spec F.prec n hn2
  set s := isqrt F.prec n with hs
  clear_value s n
  have hnear := root_near hs1 hs2
  have hs3 : s < 2 ^ F.prec := by
    by_contra hc
    have : 4 ^ F.prec = 2 ^ F.prec * 2 ^ F.prec := by rw [← mul_pow]; norm_num
    have := Nat.mul_le_mul (not_lt.1 hc) (not_lt.1 hc)
    omega
  have hs4 : 2 ^ (F.prec - 1) ≤ s := by
    by_contra hc
    have := Nat.mul_le_mul (Nat.succ_le_of_lt (not_le.1 hc)) (Nat.succ_le_of_lt (not_le.1 hc))
    simp only [Nat.succ_eq_add_one] at this
    omega
  set t : Nat := if n ≤ s * s + s then s else s + 1 with ht
  have ht1 : s ≤ t ∧ t ≤ s + 1 := by rw [ht]; split <;> omega
  clear_value t
  have hkmin : F.emin ≤ k := by omega
  have hroot : √((mag m e : ℚ) : ℝ) = √(n : ℝ) * 2 ^ k := by
    rw [mag_real, hn]
    have : (m : ℝ) * 2 ^ e = ((m * 2 ^ j : Nat) : ℝ) * ((2 : ℝ) ^ k) ^ 2 := by
      push_cast
      rw [← zpow_natCast, ← zpow_natCast, ← zpow_mul, mul_assoc, ← zpow_add₀ (by norm_num)]
      congr 2
      push_cast
      omega
    rw [this, Real.sqrt_mul (Nat.cast_nonneg _), Real.sqrt_sq (by positivity)]
  have hmem : Member F (mag t k) := member_top ⟨hp, by omega⟩ hkmin (by omega)
  have hfits : mag t k ≤ greatest F := by
    have ht2 : (t : ℚ) ≤ 2 ^ (F.prec - 1) * 2 := by
      rw [← pow_succ, Nat.sub_add_cancel (by omega)]
      exact_mod_cast (by omega : t ≤ 2 ^ F.prec)
    have ht3 : (2 : ℚ) ^ (F.prec - 1) ≤ ((2 ^ F.prec - 1 : Nat) : ℚ) := by
      have : 2 ^ (F.prec - 1) ≤ 2 ^ F.prec - 1 := by
        have := Nat.pow_lt_pow_right (a := 2) (by norm_num) (by omega : F.prec - 1 < F.prec)
        omega
      exact_mod_cast this
    have hk2 : (2 : ℚ) ^ (k + 1) ≤ 2 ^ F.emax := zpow_le_zpow_right₀ (by norm_num) (by omega)
    unfold greatest mag
    calc (t : ℚ) * 2 ^ k ≤ 2 ^ (F.prec - 1) * 2 * 2 ^ k := mul_le_mul_of_nonneg_right ht2 (by positivity)
      _ = 2 ^ (F.prec - 1) * 2 ^ (k + 1) := by rw [zpow_add₀ (by norm_num), zpow_one]; ring
      _ ≤ _ := mul_le_mul ht3 hk2 (by positivity) (by positivity)
  have hfr : ((frac 2 t k).1 : ℚ) / (frac 2 t k).2 = mag t k := by rw [frac_val]; rfl
  obtain ⟨r, k', h1, h2, h3⟩ := roundTo_nearest (F := F) (neg := false) ⟨hp, by omega⟩ (n := (frac 2 t k).1) (d := (frac 2 t k).2) (frac_pos (by norm_num))
    (by rw [hfr]; exact hfits)
  rw [hfr] at h2
  have hv := nearest_member h2 hmem
  refine ⟨r, k', h1, h3, ?_, ?_⟩
  · intro v hv'
    rw [hv, hroot, mag_real]
    have hlow' : (2 : ℝ) ^ (F.prec - 1) ≤ √(n : ℝ) := Real.le_sqrt_of_sq_le (by rw [sq]; exact_mod_cast hn1)
    by_cases hc : (2 : ℚ) ^ (F.prec - 1) * 2 ^ k ≤ v
    · obtain ⟨z, rfl⟩ := member_multiple hv' hc (by omega)
      push_cast
      rw [← sub_mul, ← sub_mul, abs_mul, abs_mul]
      refine mul_le_mul_of_nonneg_right ?_ (abs_nonneg _)
      exact near_best hnear z
    · have hc' : (v : ℝ) ≤ 2 ^ (F.prec - 1) * 2 ^ k := by
        have := (Rat.cast_le (K := ℝ)).2 (not_le.1 hc).le
        push_cast at this
        exact this
      have h4 := near_best hnear (2 ^ (F.prec - 1) : Int)
      push_cast at h4
      rw [abs_sub_comm ((2 : ℝ) ^ (F.prec - 1)), abs_of_nonneg (sub_nonneg.2 hlow')] at h4
      rw [← sub_mul, abs_mul, abs_of_pos (by positivity : (0 : ℝ) < 2 ^ k), abs_sub_comm (v : ℝ)]
      refine le_trans (mul_le_mul_of_nonneg_right h4 (by positivity)) ?_
      rw [sub_mul]
      exact le_trans (by linarith) (le_abs_self _)
  · rw [hv, hroot, mag_real]
    have hlow' : (2 : ℝ) ^ (F.prec - 1) ≤ √(n : ℝ) := Real.le_sqrt_of_sq_le (by rw [sq]; exact_mod_cast hn1)
    rw [← sub_mul, abs_mul, abs_of_pos (by positivity : (0 : ℝ) < 2 ^ k), ← mul_assoc]
    refine mul_le_mul_of_nonneg_right (hnear.trans ?_) (by positivity)
    unfold roundoff
    push_cast
    rw [div_mul_eq_mul_div, one_mul, le_div_iff₀ (by positivity)]
    have : (2 : ℝ) ^ F.prec = 2 * 2 ^ (F.prec - 1) := by
      rw [← pow_succ', Nat.sub_add_cancel (by omega)]
    rw [this]
    linarith

/-- The root of a non-negative number of type `float`, and that of a square. -/
theorem sqrt_single {x : Fl} (hx : Finite .single x) (h0 : 0 ≤ val x) :
    isNegative x = false ∧ Finite .single (sqrt .single nan x) ∧ 0 ≤ val (sqrt .single nan x) ∧
      |((val (sqrt .single nan x) : ℚ) : ℝ) - √((val x : ℚ) : ℝ)| ≤ 1 / 2 ^ 24 * √((val x : ℚ) : ℝ) ∧
      ∀ v, 0 ≤ v → Member .single v → val x = v * v → val (sqrt .single nan x) = v := by
  obtain ⟨neg, m, e, rfl, hf⟩ := hx
  rw [val_fin] at h0 ⊢
  by_cases hm : m = 0
  · subst hm
    have hv : finVal neg 0 e = 0 := by unfold finVal mag; simp
    have hs : sqrt .single nan (.fin neg 0 e) = .fin neg 0 e := by simp [sqrt]
    rw [hs, val_fin, hv]
    refine ⟨by simp [isNegative], ⟨neg, 0, e, rfl, hf⟩, le_rfl, by simp, ?_⟩
    intro v _ _ hvv
    exact (mul_self_eq_zero.1 hvv.symm).symm
  · have hpos : 0 < mag m e := by unfold mag; have := Nat.pos_of_ne_zero hm; positivity
    obtain rfl : neg = false := by
      cases neg with
      | false => rfl
      | true => simp only [finVal, if_true] at h0; linarith
    have hv : finVal false m e = mag m e := rfl
    obtain ⟨r, k, h1, h2, h3, h4⟩ := sqrtFin_spec (F := .single) proper_single (by decide) (by decide) (Nat.pos_of_ne_zero hm) hf
    have hs : sqrt .single nan (.fin false m e) = .fin false r k := by simp [sqrt, hm, h1]
    rw [hs, val_fin, hv, show finVal false r k = mag r k from rfl]
    refine ⟨rfl, ⟨_, _, _, rfl, h2⟩, mag_nonneg _ _, ?_, ?_⟩
    · have : ((roundoff .single : ℚ) : ℝ) = 1 / 2 ^ 24 := by unfold roundoff Fmt.single; push_cast; rfl
      rwa [this] at h4
    · intro v hv0 hvm hvv
      have h5 := h3 v hvm
      have h6 : √((mag m e : ℚ) : ℝ) = v := by
        rw [hvv]
        push_cast
        exact Real.sqrt_mul_self (by exact_mod_cast hv0)
      rw [h6, sub_self, abs_zero] at h5
      have := sub_eq_zero.1 (abs_eq_zero.1 (le_antisymm h5 (abs_nonneg _)))
      exact_mod_cast this

/-- A negative number. -/
theorem negative_single {x : Fl} (hx : Finite .single x) (h0 : val x < 0) : isNegative x = true := by
  obtain ⟨neg, m, e, rfl, hf⟩ := hx
  rw [val_fin] at h0
  cases neg with
  | false => exact absurd h0 (not_lt.2 (mag_nonneg m e))
  | true =>
    have : m ≠ 0 := by
      rintro rfl
      simp [finVal, mag] at h0
    simp [isNegative, this]

end Coil.Floats
