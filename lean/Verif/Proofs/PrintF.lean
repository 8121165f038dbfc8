import Verif.Proofs.Angle
import Verif.Spec.NamedCommands

/-!
# `%f`
-/

namespace Coil.Floats
open Spec Fl

theorem lastDigits_length (k n : Nat) : (lastDigits k n).length = k := by
  induction k generalizing n with
  | zero => rfl
  | succ k ih => simp [lastDigits, ih]

theorem digits_last {ds : Bytes} {m : Nat} (h : Digits 10 ds m) (k n : Nat) : Digits 10 (ds ++ lastDigits k n) (m * 10 ^ k + n % 10 ^ k) := by
  induction k generalizing n with
  | zero => simpa [lastDigits, Nat.mod_one] using h
  | succ k ih =>
    have hd : DigitOf 10 (UInt8.ofNat (48 + n % 10)) (n % 10) := by
      have hlt : n % 10 < 10 := Nat.mod_lt _ (by decide)
      refine ⟨hlt, .inl ⟨hlt, ?_⟩⟩
      rw [UInt8.toNat_ofNat']
      omega
    have := Digits.snoc (ih (n / 10)) hd
    rw [List.append_assoc] at this
    have he : 10 * (m * 10 ^ k + n / 10 % 10 ^ k) + n % 10 = m * 10 ^ (k + 1) + n % 10 ^ (k + 1) := by
      rw [Nat.pow_succ', Nat.mod_mul]
      ring
    rw [← he]
    exact this

theorem lastDigits_zeros (a n : Nat) : lastDigits a (n * 10 ^ a) = List.replicate a 48 := by
  induction a generalizing n with
  | zero => rfl
  | succ a ih =>
    have h1 : n * 10 ^ (a + 1) / 10 = n * 10 ^ a := by
      rw [Nat.pow_succ, ← Nat.mul_assoc]
      exact Nat.mul_div_cancel _ (by decide)
    have h2 : n * 10 ^ (a + 1) % 10 = 0 := by
      rw [Nat.pow_succ, ← Nat.mul_assoc]
      exact Nat.mul_mod_left _ _
    rw [lastDigits, h1, h2, ih, List.replicate_succ']
    rfl

/-- The text of a whole number, except zero. -/
theorem printF_whole {neg : Bool} {m : Nat} {e : Int} {z : Int} (hv : finVal neg m e = z) (h0 : z ≠ 0) :
    printF (.fin neg m e) = intDec z ++ lit ".000000" := by
  have hmag : mag m e = (z.natAbs : ℚ) := by
    rw [← abs_finVal neg, hv, Nat.cast_natAbs, Int.cast_abs]
  have hd : 0 < (frac 2 m e).2 := frac_pos (by decide)
  have hn : roundDiv ((frac 2 m e).1 * 10 ^ 6) (frac 2 m e).2 = z.natAbs * 10 ^ 6 := by
    refine roundDiv_unique hd ?_
    have hv : ((frac 2 m e).1 : ℚ) / (frac 2 m e).2 = mag m e := by rw [frac_val]; simp [mag]
    have hscale : (((frac 2 m e).1 * 10 ^ 6 : Nat) : ℚ) / (frac 2 m e).2 = mag m e * 10 ^ 6 := by
      rw [← hv]
      push_cast
      ring
    rw [hscale, hmag, Nat.cast_mul, Nat.cast_pow, Nat.cast_ofNat, sub_self, abs_zero]
    norm_num
  have htext : printF (.fin neg m e) = signText neg ++ (natDec z.natAbs ++ lit ".000000") := by
    simp only [printF]
    rw [hn, Nat.mul_div_cancel _ (by decide), lastDigits_zeros]
    rfl
  rw [htext, ← List.append_assoc]
  congr 1
  have hneg : neg = decide (z < 0) := by
    have hpos : (0 : ℚ) < z.natAbs := by exact_mod_cast Int.natAbs_pos.2 h0
    unfold finVal at hv
    cases neg
    · rw [if_neg (by decide), hmag] at hv
      rw [hv] at hpos
      have : 0 < z := by exact_mod_cast hpos
      exact (decide_eq_false (by omega)).symm
    · rw [if_pos rfl, hmag] at hv
      have : (z : ℚ) < 0 := by linarith
      have : z < 0 := by exact_mod_cast this
      exact (decide_eq_true this).symm
  subst hneg
  cases z with
  | ofNat k => rfl
  | negSucc k =>
    rw [decide_eq_true (Int.negSucc_lt_zero k)]
    rfl

theorem printF_places (x : Fl) : SixPlaces x (printF x) := by
  cases x with
  | inf neg => cases neg <;> rfl
  | nan neg => cases neg <;> rfl
  | fin neg m e =>
    have hd : 0 < (frac 2 m e).2 := frac_pos (by decide)
    generalize hn : roundDiv ((frac 2 m e).1 * 10 ^ 6) (frac 2 m e).2 = n
    have htext : printF (.fin neg m e) = signText neg ++ (natDec (n / 10 ^ 6) ++ 46 :: lastDigits 6 n) := by
      rw [← hn]
      rfl
    have hdig : Digits 10 (natDec (n / 10 ^ 6) ++ lastDigits 6 n) n := by
      have := digits_last (decimal_iff.1 (natDec_decimal (n / 10 ^ 6))).1 6 n
      rwa [Nat.mul_comm, Nat.div_add_mod] at this
    have hw : FloatWord (natDec (n / 10 ^ 6) ++ 46 :: lastDigits 6 n) (.number (n * 10 ^ ((0 : Int) - (lastDigits 6 n).length))) := by
      have := FloatWord.decimal (Mantissa.point hdig (List.append_ne_nil_of_left_ne_nil (decimal_iff.1 (natDec_decimal (n / 10 ^ 6))).2 _)) .none
      rwa [List.append_nil] at this
    refine ⟨n / 10 ^ 6, lastDigits 6 n, _, ?_, lastDigits_length 6 n, ⟨neg, _, htext ▸ floatText_signed hw, rfl⟩, ?_, fun z => printF_whole⟩
    · rw [htext, List.append_assoc]
      rfl
    · have hnear := roundDiv_near (n := (frac 2 m e).1 * 10 ^ 6) hd
      rw [hn] at hnear
      have hv : ((frac 2 m e).1 : ℚ) / (frac 2 m e).2 = mag m e := by rw [frac_val]; simp [mag]
      have hscale : (((frac 2 m e).1 * 10 ^ 6 : Nat) : ℚ) / (frac 2 m e).2 = mag m e * 10 ^ 6 := by
        rw [← hv]
        push_cast
        ring
      rw [hscale] at hnear
      rw [lastDigits_length]
      have hz : ((10 : ℚ) ^ ((0 : Int) - (6 : Nat))) = 1 / 10 ^ 6 := by norm_num
      rw [hz]
      have key : |(n : ℚ) * (1 / 10 ^ 6) - mag m e| ≤ 5 / 10 ^ 7 := by
        rw [abs_le] at hnear ⊢
        constructor <;> [have := hnear.1; have := hnear.2] <;> linarith
      unfold finVal
      cases neg
      · exact key
      · rw [if_pos rfl, if_pos rfl, neg_sub_neg, abs_sub_comm]
        exact key

end Coil.Floats
