import Verif.Proofs.PrintF
import Verif.Proofs.Window
import Verif.Props.Float

/-!
# Reading the text of `%f` again
-/

namespace Coil.Floats
open Spec Fl

/-- Two magnitudes are never exactly a millionth apart. -/
theorem mag_apart {m m' : Nat} {e e' : Int} : mag m e - mag m' e' ≠ 1 / 10 ^ 6 := by
  intro h
  obtain ⟨k, hk⟩ : ∃ k : Nat, -(k : Int) ≤ e ∧ -(k : Int) ≤ e' := ⟨(e.natAbs + e'.natAbs), by omega, by omega⟩
  have key : ∀ (m : Nat) (e : Int), -(k : Int) ≤ e → mag m e * 2 ^ k = ((m * 2 ^ (e + k).toNat : Nat) : ℚ) := by
    intro m e he
    unfold mag
    rw [mul_assoc, ← zpow_natCast, ← zpow_add₀ (by norm_num : (2 : ℚ) ≠ 0), Nat.cast_mul, Nat.cast_pow, Nat.cast_ofNat, ← zpow_natCast,
      Int.toNat_of_nonneg (by omega)]
  have h1 : (mag m e * 2 ^ k - mag m' e' * 2 ^ k) * 10 ^ 6 = 2 ^ k := by
    rw [← sub_mul, h]
    ring
  rw [key m e hk.1, key m' e' hk.2] at h1
  generalize m * 2 ^ (e + k).toNat = a at h1
  generalize m' * 2 ^ (e' + k).toNat = b at h1
  have h2 : ((a : Int) - b) * 10 ^ 6 = 2 ^ k := by exact_mod_cast h1
  have h5 : (5 : Int) ∣ 2 ^ k := h2 ▸ Dvd.dvd.mul_left (by decide) _
  have h6 : (5 : Nat) ∣ 2 ^ k := by exact_mod_cast h5
  have h7 : ∀ k, ¬ (5 : Nat) ∣ 2 ^ k := by
    intro k
    induction k with
    | zero => decide
    | succ k ih => rw [Nat.pow_succ]; omega
  exact h7 k h6

/-- The number that is read again is printed like the number that was printed. -/
theorem places_again {m m' n : Nat} {e e' : Int} (hs : Stored F m e) (hF : Fmt.Proper F)
    (hn : roundDiv ((frac 2 m e).1 * 10 ^ 6) (frac 2 m e).2 = n) (hN : Nearest F (n / 10 ^ 6 : ℚ) m' e') :
    roundDiv ((frac 2 m' e').1 * 10 ^ 6) (frac 2 m' e').2 = n := by
  by_cases heq : mag m e = mag m' e'
  · obtain ⟨rfl, rfl⟩ := stored_inj hF hs hN.stored heq
    exact hn
  have scale : ∀ (m : Nat) (e : Int), (((frac 2 m e).1 * 10 ^ 6 : Nat) : ℚ) / (frac 2 m e).2 = mag m e * 10 ^ 6 := by
    intro m e
    have hv : ((frac 2 m e).1 : ℚ) / (frac 2 m e).2 = mag m e := by rw [frac_val]; simp [mag]
    rw [← hv]
    push_cast
    ring
  have hnear := roundDiv_near (n := (frac 2 m e).1 * 10 ^ 6) (frac_pos (n := m) (e := e) (by decide : 0 < 2))
  rw [scale, hn] at hnear
  have hd' : 0 < (frac 2 m' e').2 := frac_pos (by decide)
  refine roundDiv_unique hd' ?_
  rw [scale]
  have h1 := hN.near _ (stored_member hs)
  have hx : |mag m e - (n : ℚ) / 10 ^ 6| ≤ 5 / 10 ^ 7 := by
    rw [abs_le] at hnear ⊢
    constructor <;> linarith
  have hlt : |mag m' e' - (n : ℚ) / 10 ^ 6| < 5 / 10 ^ 7 := by
    refine lt_of_le_of_ne (h1.trans hx) fun hc => ?_
    have hd : |mag m e - (n : ℚ) / 10 ^ 6| = 5 / 10 ^ 7 := le_antisymm hx (hc ▸ h1)
    rcases abs_eq (by norm_num : (0 : ℚ) ≤ 5 / 10 ^ 7) |>.1 hc with a | a <;>
      rcases abs_eq (by norm_num : (0 : ℚ) ≤ 5 / 10 ^ 7) |>.1 hd with b | b
    · exact heq (by linarith)
    · exact mag_apart (m := m') (m' := m) (e := e') (e' := e) (by linarith)
    · exact mag_apart (m := m) (m' := m') (e := e) (e' := e') (by linarith)
    · exact heq (by linarith)
  rw [abs_lt] at hlt ⊢
  constructor <;> linarith

theorem same_letters {w : Bytes} : Forall2 SameLetter w w := by
  induction w with
  | nil => exact .nil
  | cons c w ih => exact .cons (.inl rfl) ih

theorem leastNormal_millionth : leastNormal .single ≤ 1 / 10 ^ 6 := by
  have := leastNormal_single
  norm_num [leastNormal, Fmt.single]

theorem stored_le {m : Nat} {e : Int} (hs : Stored F m e) (he : e ≤ F.emax) : mag m e ≤ greatest F := by
  unfold greatest mag
  have h1 : (m : ℚ) ≤ ((2 ^ F.prec - 1 : Nat) : ℚ) := by
    have := hs.1
    exact_mod_cast (by omega : m ≤ 2 ^ F.prec - 1)
  have h2 : (2 : ℚ) ^ e ≤ 2 ^ F.emax := zpow_le_zpow_right₀ (by norm_num) he
  exact mul_le_mul h1 h2 (by positivity) (by positivity)

/-- What is printed for a value of type `float` is accepted, and the value that is read is printed in the same way. -/
theorem printF_again {x : Fl} (hx : IsFloat .single x) :
    ∃ y, (floatConv (lit "float") (lib .single tiny)).fromString ⟨[printF x]⟩ = .ok (.ok y) ∧ IsFloat .single y ∧ printF y = printF x := by
  cases x with
  | inf neg =>
    refine ⟨.inf neg, (C68_special (lit "float")).1 ?_, trivial, rfl⟩
    have := floatText_signed (neg := neg) (.inf (s := lit "inf") same_letters)
    exact this
  | nan neg =>
    refine ⟨.nan neg, (C68_special (lit "float")).2 ?_, trivial, rfl⟩
    have := floatText_signed (neg := neg) (.nan (s := lit "nan") same_letters)
    exact this
  | fin neg m e =>
    obtain ⟨hs, he⟩ := hx
    have hd : 0 < (frac 2 m e).2 := frac_pos (by decide)
    have again := fun {m' : Nat} {e' : Int} => places_again (m' := m') (e' := e') hs proper_single rfl
    have hnear := roundDiv_near (n := (frac 2 m e).1 * 10 ^ 6) hd
    have hv : ((frac 2 m e).1 : ℚ) / (frac 2 m e).2 = mag m e := by rw [frac_val]; simp [mag]
    have hscale : (((frac 2 m e).1 * 10 ^ 6 : Nat) : ℚ) / (frac 2 m e).2 = mag m e * 10 ^ 6 := by
      rw [← hv]
      push_cast
      ring
    rw [hscale] at hnear
    have hwhole : ∀ z : Nat, mag m e = z → roundDiv ((frac 2 m e).1 * 10 ^ 6) (frac 2 m e).2 = z * 10 ^ 6 := by
      intro z hz
      refine roundDiv_unique hd ?_
      rw [hscale, hz, Nat.cast_mul, Nat.cast_pow, Nat.cast_ofNat, sub_self, abs_zero]
      norm_num
    have print : ∀ m e, printF (.fin neg m e) = signText neg ++ (natDec (roundDiv ((frac 2 m e).1 * 10 ^ 6) (frac 2 m e).2 / 10 ^ 6) ++
        46 :: lastDigits 6 (roundDiv ((frac 2 m e).1 * 10 ^ 6) (frac 2 m e).2)) := fun _ _ => rfl
    rw [print]
    generalize roundDiv ((frac 2 m e).1 * 10 ^ 6) (frac 2 m e).2 = n at *
    have hdig : Digits 10 (natDec (n / 10 ^ 6) ++ lastDigits 6 n) n := by
      have := digits_last (decimal_iff.1 (natDec_decimal (n / 10 ^ 6))).1 6 n
      rwa [Nat.mul_comm, Nat.div_add_mod] at this
    have hw : FloatWord (natDec (n / 10 ^ 6) ++ 46 :: lastDigits 6 n) (.number (n * 10 ^ ((0 : Int) - (lastDigits 6 n).length))) := by
      have := FloatWord.decimal (Mantissa.point hdig (List.append_ne_nil_of_left_ne_nil (decimal_iff.1 (natDec_decimal (n / 10 ^ 6))).2 _)) .none
      rwa [List.append_nil] at this
    have hq : (n : ℚ) * 10 ^ ((0 : Int) - (lastDigits 6 n).length) = n / 10 ^ 6 := by
      rw [lastDigits_length]
      norm_num
      ring
    rw [hq] at hw
    have h0 : (0 : ℚ) ≤ n / 10 ^ 6 := by positivity
    have hg : (n : ℚ) / 10 ^ 6 ≤ greatest .single := by
      by_cases hp : 0 ≤ e
      · have hz : mag m e = ((m * 2 ^ e.toNat : Nat) : ℚ) := by
          unfold mag
          rw [Nat.cast_mul, Nat.cast_pow, Nat.cast_ofNat, ← zpow_natCast, Int.toNat_of_nonneg hp]
        rw [hwhole _ hz, Nat.cast_mul, ← hz, Nat.cast_pow, Nat.cast_ofNat, mul_div_assoc, div_self (by norm_num), mul_one]
        exact stored_le hs he
      · have h1 : mag m e ≤ 2 ^ 24 := by
          unfold mag
          have a : (m : ℚ) ≤ 2 ^ 24 := by exact_mod_cast hs.1.le
          have b : (2 : ℚ) ^ e ≤ 1 := zpow_le_one_of_nonpos₀ (by norm_num) (by omega)
          have c : (0 : ℚ) ≤ 2 ^ e := by positivity
          nlinarith
        refine le_trans ?_ (le_trans (by norm_num : (2 : ℚ) ^ 24 + 1 ≤ 2 ^ 100) greatest_single)
        rw [abs_le] at hnear
        have := hnear.2
        linarith
    obtain ⟨m', e', hN⟩ := nearest_exists proper_single h0
    have he' := nearest_fits proper_single hN hg
    refine ⟨.fin neg m' e', C68_accept proper_single (lit "float") (floatText_signed hw) hN he' ?_, ⟨hN.stored, he'⟩, ?_⟩
    · rcases Nat.eq_zero_or_pos n with h | h
      · right
        subst h
        have : Member .single ((0 : Nat) / 10 ^ 6 : ℚ) := ⟨0, Fmt.single.emin, by decide, le_refl _, by simp [mag]⟩
        exact (nearest_member hN this).symm
      · left
        refine leastNormal_millionth.trans ?_
        have : (1 : ℚ) ≤ n := by exact_mod_cast h
        linarith
    · rw [print, again hN]

end Coil.Floats
