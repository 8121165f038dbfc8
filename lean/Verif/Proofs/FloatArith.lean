import Verif.Model.FloatArith
import Verif.Proofs.FloatTrip
import Verif.Spec.FloatSum

/-!
# Floating-point arithmetic
-/

namespace Coil.Floats
open Spec Fl

variable {F : Fmt} {neg : Bool} {nan : Fl → Fl → Bool}

/-- The value of a finite number, 0 otherwise. -/
def val : Fl → ℚ
  | .fin neg m e => finVal neg m e
  | _ => 0

/-- A finite number of the format. -/
def Finite (F : Fmt) (x : Fl) : Prop := ∃ neg m e, x = .fin neg m e ∧ IsFloat F x

theorem val_fin (neg : Bool) (m : Nat) (e : Int) : val (.fin neg m e) = finVal neg m e := rfl

theorem abs_finVal (neg : Bool) (m : Nat) (e : Int) : |finVal neg m e| = mag m e := by
  unfold finVal
  have := mag_nonneg m e
  cases neg
  · simp [abs_of_nonneg this]
  · simp [abs_of_nonneg this]

/-- Rounding of an exact value within the range of the format. -/
theorem roundTo_nearest (hF : Fmt.Proper F) {n d : Nat} (hd : 0 < d) (hq : (n : ℚ) / d ≤ greatest F) :
    ∃ m e, roundTo F neg (n, d) = .fin neg m e ∧ Nearest F ((n : ℚ) / d) m e ∧ IsFloat F (.fin neg m e) := by
  obtain ⟨m, e, hN⟩ := nearest_exists hF (q := (n : ℚ) / d) (by positivity)
  have he := nearest_fits hF hN hq
  refine ⟨m, e, ?_, hN, hN.stored, he⟩
  unfold roundTo
  rw [ofFrac_fin hF hd hN he]

/-- Rounding of an exact value beyond the range of the format. -/
theorem roundTo_cases (hF : Fmt.Proper F) {n d : Nat} (hd : 0 < d) :
    ∃ m e, Nearest F ((n : ℚ) / d) m e ∧ roundTo F neg (n, d) = if e ≤ F.emax then .fin neg m e else .inf neg := by
  obtain ⟨m, e, hN⟩ := nearest_exists hF (q := (n : ℚ) / d) (by positivity)
  refine ⟨m, e, hN, ?_⟩
  unfold roundTo
  by_cases he : e ≤ F.emax
  · rw [ofFrac_fin hF hd hN he, if_pos he]
  · rw [ofFrac_inf hF hd hN (by omega), if_neg he]

theorem signed_val (s : Bool) (m : Nat) (e k : Int) (h : k ≤ e) :
    ((signed s (m * 2 ^ (e - k).toNat) : Int) : ℚ) * 2 ^ k = finVal s m e := by
  have h2 : (2 : ℚ) ^ e = 2 ^ (e - k).toNat * 2 ^ k := by
    rw [← zpow_natCast, ← zpow_add₀ (by norm_num)]
    congr 1
    omega
  unfold signed finVal mag
  cases s
  · simp [h2]; ring
  · simp [h2]; ring

/-- A multiple of the least number of the format that is less than the least normal number belongs to the format. -/
theorem member_small {n : Nat} {k : Int} (hk : F.emin ≤ k) (h : (n : ℚ) * 2 ^ k < leastNormal F) : Member F ((n : ℚ) * 2 ^ k) := by
  have h2 : (2 : ℚ) ^ k = 2 ^ (k - F.emin).toNat * 2 ^ F.emin := by
    rw [← zpow_natCast, ← zpow_add₀ (by norm_num)]
    congr 1
    omega
  refine ⟨n * 2 ^ (k - F.emin).toNat, F.emin, ?_, le_refl _, ?_⟩
  · unfold leastNormal at h
    rw [h2, zpow_add₀ (by norm_num), mul_comm ((2 : ℚ) ^ F.emin), ← mul_assoc] at h
    have hp : (0 : ℚ) < 2 ^ F.emin := by positivity
    have h3 := lt_of_mul_lt_mul_right h hp.le
    have h4 : ((n * 2 ^ (k - F.emin).toNat : Nat) : ℚ) < 2 ^ F.prec := by
      push_cast
      refine lt_of_lt_of_le h3 ?_
      rw [← zpow_natCast]
      exact zpow_le_zpow_right₀ (by norm_num) (by omega)
    exact_mod_cast h4
  · unfold mag
    rw [h2]
    push_cast
    ring

/-- The sum of two numbers of the format, within its range: it is rounded with a relative error of at most `2^-prec`, and exact if the
format holds it. -/
theorem add_fin (hF : Fmt.Proper F) {a b : Fl} (ha : Finite F a) (hb : Finite F b) (hq : |val a + val b| ≤ greatest F) :
    Finite F (add F nan a b) ∧ |val (add F nan a b) - (val a + val b)| * 2 ^ F.prec ≤ |val a + val b| ∧
      (Member F |val a + val b| → val (add F nan a b) = val a + val b) := by
  obtain ⟨s, m, e, rfl, ⟨ha1, ha2, ha3⟩, ha4⟩ := ha
  obtain ⟨t, n, f, rfl, ⟨hb1, hb2, hb3⟩, hb4⟩ := hb
  simp only [add, addFin, val_fin] at *
  generalize hk : min e f = k at *
  have hk1 : k ≤ e := by omega
  have hk2 : k ≤ f := by omega
  have hk3 : F.emin ≤ k := by omega
  generalize hz : signed s (m * 2 ^ (e - k).toNat) + signed t (n * 2 ^ (f - k).toNat) = z
  have hv : finVal s m e + finVal t n f = (z : ℚ) * 2 ^ k := by
    rw [← signed_val s m e k hk1, ← signed_val t n f k hk2, ← hz]
    push_cast
    ring
  rw [hv] at hq ⊢
  have habs : |(z : ℚ) * 2 ^ k| = (z.natAbs : ℚ) * 2 ^ k := by
    rw [abs_mul, abs_of_pos (a := (2 : ℚ) ^ k) (by positivity), Nat.cast_natAbs, Int.cast_abs]
  by_cases h0 : z = 0
  · rw [if_pos h0, h0]
    refine ⟨⟨_, _, _, rfl, ⟨Nat.two_pow_pos _, le_refl _, .inr rfl⟩, hF.2⟩, ?_, fun _ => ?_⟩ <;>
      simp [val, finVal, mag]
  · rw [if_neg h0]
    have hd : 0 < (frac 2 z.natAbs k).2 := frac_pos (by norm_num)
    have hfv : ((frac 2 z.natAbs k).1 : ℚ) / (frac 2 z.natAbs k).2 = z.natAbs * 2 ^ k := by
      have := frac_val (b := 2) (n := z.natAbs) (e := k)
      push_cast at this
      exact this
    obtain ⟨m', e', hr, hN, hfl⟩ := roundTo_nearest (neg := decide (z < 0)) hF (n := (frac 2 z.natAbs k).1) hd
      (by rw [hfv, ← habs]; exact hq)
    rw [hfv] at hN
    have hsign : ∀ x : ℚ, |(if decide (z < 0) = true then -x else x) - (z : ℚ) * 2 ^ k| = |x - (z.natAbs : ℚ) * 2 ^ k| := by
      intro x
      by_cases hneg : z < 0
      · have : (z : ℚ) = -(z.natAbs : ℚ) := by
          rw [Nat.cast_natAbs, Int.cast_abs, abs_of_neg (by exact_mod_cast hneg)]
          ring
        rw [if_pos (by simpa using hneg), this]
        rw [show -x - -(z.natAbs : ℚ) * 2 ^ k = -(x - (z.natAbs : ℚ) * 2 ^ k) by ring, abs_neg]
      · have : (z : ℚ) = (z.natAbs : ℚ) := by
          rw [Nat.cast_natAbs, Int.cast_abs, abs_of_nonneg (by exact_mod_cast not_lt.1 hneg)]
        rw [if_neg (by simpa using hneg), this]
    have hvr : val (roundTo F (decide (z < 0)) (frac 2 z.natAbs k)) = if decide (z < 0) = true then -mag m' e' else mag m' e' := by
      rw [show frac 2 z.natAbs k = ((frac 2 z.natAbs k).1, (frac 2 z.natAbs k).2) from rfl, hr]
      rfl
    have hexact : Member F ((z.natAbs : ℚ) * 2 ^ k) → mag m' e' = (z.natAbs : ℚ) * 2 ^ k := fun h => nearest_member hN h
    have hr' : roundTo F (decide (z < 0)) (frac 2 z.natAbs k) = .fin (decide (z < 0)) m' e' := hr
    refine ⟨⟨_, _, _, hr', by rw [hr']; exact hfl⟩, ?_, ?_⟩
    · rw [hvr, hsign, habs]
      by_cases hl : leastNormal F ≤ (z.natAbs : ℚ) * 2 ^ k
      · exact nearest_error hF hN hl
      · rw [hexact (member_small hk3 (not_le.1 hl)), sub_self, abs_zero, zero_mul]
        positivity
    · intro hm
      rw [habs] at hm
      have := hsign (mag m' e')
      rw [hexact hm, sub_self, abs_zero, abs_eq_zero, sub_eq_zero] at this
      rw [hvr, hexact hm]
      exact this

end Coil.Floats
