import Mathlib.Tactic.Linarith
import Mathlib.Tactic.Positivity
import Mathlib.Tactic.FieldSimp
import Mathlib.Tactic.NormNum
import Mathlib.Tactic.Ring
import Verif.Spec.Float

/-! # Rounding to a binary format -/

namespace Coil.Floats
open Spec Fl

/-! ## Fractions -/

theorem frac_pos {b n : Nat} {e : Int} (hb : 0 < b) : 0 < (frac b n e).2 := by
  cases e with
  | ofNat k => simp [frac]
  | negSucc k => simp only [frac]; positivity

theorem frac_val {b n : Nat} {e : Int} : ((frac b n e).1 : ℚ) / (frac b n e).2 = n * (b : ℚ) ^ e := by
  cases e with
  | ofNat k => simp [frac]
  | negSucc k =>
    simp only [frac, Int.negSucc_eq, zpow_neg]
    push_cast
    rw [div_eq_mul_inv]
    norm_cast

theorem scale_pos {b n d : Nat} {e : Int} (hb : 0 < b) (hd : 0 < d) : 0 < (scale b n d e).2 := by
  cases e with
  | ofNat k => simp only [scale]; positivity
  | negSucc k => exact hd

theorem scale_val {b n d : Nat} {e : Int} (hb : 0 < b) (hd : 0 < d) :
    ((scale b n d e).1 : ℚ) / (scale b n d e).2 = (n : ℚ) / d / (b : ℚ) ^ e := by
  have : (b : ℚ) ≠ 0 := by positivity
  have : (d : ℚ) ≠ 0 := by positivity
  cases e with
  | ofNat k =>
    simp only [scale]
    push_cast
    rw [Int.ofNat_eq_natCast, zpow_natCast]
    field_simp
  | negSucc k =>
    simp only [scale, Int.negSucc_eq, zpow_neg]
    push_cast
    rw [show ((k : Int) + 1) = ((k + 1 : Nat) : Int) by norm_cast, zpow_natCast]
    field_simp

/-! ## The nearest natural number -/

theorem cast_le {k : Int} {q : Nat} (h : k ≤ (q : Int)) : (k : ℚ) ≤ (q : ℚ) := by
  have := (Int.cast_le (R := ℚ)).2 h
  rwa [Int.cast_natCast] at this

theorem cast_lt {k : Int} {q : Nat} (h : (q : Int) < k) : (q : ℚ) + 1 ≤ (k : ℚ) := by
  have := (Int.cast_le (R := ℚ)).2 (Int.add_one_le_of_lt h)
  push_cast at this
  exact this

theorem roundDiv_cases {n d : Nat} (hd : 0 < d) :
    ((n / d : Nat) : ℚ) ≤ (n : ℚ) / d ∧ (n : ℚ) / d < ((n / d : Nat) : ℚ) + 1 ∧
      ((roundDiv n d = n / d ∧ (n : ℚ) / d - ((n / d : Nat) : ℚ) < 1 / 2) ∨
        (roundDiv n d = n / d + 1 ∧ 1 / 2 < (n : ℚ) / d - ((n / d : Nat) : ℚ)) ∨
        (roundDiv n d % 2 = 0 ∧ (roundDiv n d = n / d ∨ roundDiv n d = n / d + 1) ∧
          (n : ℚ) / d - ((n / d : Nat) : ℚ) = 1 / 2)) := by
  have hd' : (0 : ℚ) < d := by exact_mod_cast hd
  have hn : (n : ℚ) = d * ((n / d : Nat) : ℚ) + ((n % d : Nat) : ℚ) := by exact_mod_cast (Nat.div_add_mod n d).symm
  have hr : ((n % d : Nat) : ℚ) < d := by exact_mod_cast Nat.mod_lt n hd
  have hr0 : (0 : ℚ) ≤ ((n % d : Nat) : ℚ) := by positivity
  have hx : (n : ℚ) / d - ((n / d : Nat) : ℚ) = ((n % d : Nat) : ℚ) / d := by
    rw [div_sub' hd'.ne']
    congr 1
    linarith
  have h0 : 0 ≤ ((n % d : Nat) : ℚ) / d := by positivity
  have h1 : ((n % d : Nat) : ℚ) / d < 1 := by rw [div_lt_one hd']; exact hr
  refine ⟨by linarith, by linarith, ?_⟩
  rw [hx]
  unfold roundDiv
  split
  · rename_i h
    refine .inl ⟨rfl, ?_⟩
    rw [div_lt_iff₀ hd']
    have : (2 : ℚ) * ((n % d : Nat) : ℚ) < d := by exact_mod_cast h
    linarith
  · split
    · rename_i h
      refine .inr (.inl ⟨rfl, ?_⟩)
      rw [lt_div_iff₀ hd']
      have : (d : ℚ) < 2 * ((n % d : Nat) : ℚ) := by exact_mod_cast h
      linarith
    · rename_i h h'
      refine .inr (.inr ⟨?_, ?_, ?_⟩)
      · split <;> omega
      · split <;> simp
      · rw [div_eq_iff hd'.ne']
        have : (2 : ℚ) * ((n % d : Nat) : ℚ) = d := by
          have : 2 * (n % d) = d := by omega
          exact_mod_cast this
        linarith

theorem roundDiv_near {n d : Nat} (hd : 0 < d) : |(roundDiv n d : ℚ) - (n : ℚ) / d| ≤ 1 / 2 := by
  obtain ⟨h1, h2, h⟩ := roundDiv_cases (n := n) hd
  rw [abs_le]
  rcases h with ⟨h, h3⟩ | ⟨h, h3⟩ | ⟨_, h | h, h3⟩ <;> rw [h] <;> push_cast <;> constructor <;> linarith

theorem roundDiv_best {n d : Nat} (hd : 0 < d) (k : Int) : |(roundDiv n d : ℚ) - (n : ℚ) / d| ≤ |(k : ℚ) - (n : ℚ) / d| := by
  obtain ⟨h1, h2, h⟩ := roundDiv_cases (n := n) hd
  rcases le_or_gt k ((n / d : Nat) : Int) with hk | hk
  · have hk' : (k : ℚ) ≤ ((n / d : Nat) : ℚ) := cast_le hk
    have : |(k : ℚ) - (n : ℚ) / d| = (n : ℚ) / d - k := by rw [abs_of_nonpos (by linarith)]; ring
    rw [this, abs_le]
    rcases h with ⟨h, h3⟩ | ⟨h, h3⟩ | ⟨_, h | h, h3⟩ <;> rw [h] <;> push_cast <;> constructor <;> linarith
  · have hk' : ((n / d : Nat) : ℚ) + 1 ≤ (k : ℚ) := cast_lt hk
    have : |(k : ℚ) - (n : ℚ) / d| = k - (n : ℚ) / d := abs_of_nonneg (by linarith)
    rw [this, abs_le]
    rcases h with ⟨h, h3⟩ | ⟨h, h3⟩ | ⟨_, h | h, h3⟩ <;> rw [h] <;> push_cast <;> constructor <;> linarith

theorem roundDiv_tie {n d : Nat} (hd : 0 < d) {k : Int} (hk : (k : ℚ) ≠ roundDiv n d)
    (ht : |(k : ℚ) - (n : ℚ) / d| = |(roundDiv n d : ℚ) - (n : ℚ) / d|) : roundDiv n d % 2 = 0 := by
  obtain ⟨h1, h2, h⟩ := roundDiv_cases (n := n) hd
  have hk2 : k ≠ (roundDiv n d : Int) := fun h => hk (by exact_mod_cast congrArg (Int.cast (R := ℚ)) h)
  rcases h with ⟨h, h3⟩ | ⟨h, h3⟩ | ⟨he, _, h3⟩
  · exfalso
    rw [h, abs_of_nonpos (a := ((n / d : Nat) : ℚ) - _) (by linarith)] at ht
    rw [h] at hk2
    rcases Int.lt_or_gt_of_ne hk2 with hl | hl
    · have : (k : ℚ) + 1 ≤ ((n / d : Nat) : ℚ) := by
        have := cast_le (k := k + 1) hl
        push_cast at this
        exact this
      rw [abs_of_nonpos (by linarith)] at ht
      linarith
    · have : ((n / d : Nat) : ℚ) + 1 ≤ (k : ℚ) := cast_lt hl
      rw [abs_of_nonneg (by linarith)] at ht
      linarith
  · exfalso
    rw [h] at ht hk2
    push_cast at ht
    rw [abs_of_nonneg (a := ((n / d : Nat) : ℚ) + 1 - _) (by linarith)] at ht
    rcases Int.lt_or_gt_of_ne hk2 with hl | hl
    · have : (k : ℚ) ≤ ((n / d : Nat) : ℚ) := cast_le (by push_cast at hl ⊢; omega)
      rw [abs_of_nonpos (by linarith)] at ht
      linarith
    · have : ((n / d : Nat) : ℚ) + 1 + 1 ≤ (k : ℚ) := by
        have := cast_lt (q := n / d + 1) (k := k) hl
        push_cast at this
        exact this
      rw [abs_of_nonneg (by linarith)] at ht
      linarith
  · exact he

/-! ## Binary logarithms -/

theorem ilog2_spec {n d : Nat} (hn : 0 < n) (hd : 0 < d) :
    (2 : ℚ) ^ ilog2 n d ≤ (n : ℚ) / d ∧ (n : ℚ) / d < 2 ^ (ilog2 n d + 1) := by
  have hd' : (0 : ℚ) < d := by exact_mod_cast hd
  have n1 : (2 : ℚ) ^ (Nat.log2 n : Int) ≤ n := by
    rw [zpow_natCast]; exact_mod_cast Nat.log2_self_le (by omega)
  have n2 : (n : ℚ) < 2 ^ ((Nat.log2 n : Int) + 1) := by
    rw [show ((Nat.log2 n : Int) + 1) = ((Nat.log2 n + 1 : Nat) : Int) by norm_cast, zpow_natCast]
    exact_mod_cast Nat.lt_log2_self
  have d1 : (2 : ℚ) ^ (Nat.log2 d : Int) ≤ d := by
    rw [zpow_natCast]; exact_mod_cast Nat.log2_self_le (by omega)
  have d2 : (d : ℚ) < 2 ^ ((Nat.log2 d : Int) + 1) := by
    rw [show ((Nat.log2 d : Int) + 1) = ((Nat.log2 d + 1 : Nat) : Int) by norm_cast, zpow_natCast]
    exact_mod_cast Nat.lt_log2_self
  have two : (2 : ℚ) ≠ 0 := by norm_num
  unfold ilog2
  generalize (Nat.log2 n : Int) = a at *
  generalize (Nat.log2 d : Int) = b at *
  simp only
  have hs := scale_val (b := 2) (n := n) (e := a - b) (by norm_num) hd
  have hp := scale_pos (b := 2) (n := n) (e := a - b) (by norm_num) hd
  have hp' : (0 : ℚ) < (scale 2 n d (a - b)).2 := by exact_mod_cast hp
  have h2p : (0 : ℚ) < 2 ^ (a - b) := by positivity
  split
  · rename_i h
    have h1 : ((scale 2 n d (a - b)).1 : ℚ) / (scale 2 n d (a - b)).2 < 1 := by
      rw [div_lt_one hp']; exact_mod_cast h
    rw [hs] at h1
    push_cast at h1
    rw [div_lt_one h2p] at h1
    refine ⟨?_, by rw [show a - b - 1 + 1 = a - b by ring]; exact h1⟩
    rw [le_div_iff₀ hd']
    have : (2 : ℚ) ^ (a - b - 1) * 2 ^ (b + 1) = 2 ^ a := by rw [← zpow_add₀ two]; congr 1; ring
    have hpos : (0 : ℚ) < 2 ^ (a - b - 1) := by positivity
    nlinarith
  · rename_i h
    have h1 : 1 ≤ ((scale 2 n d (a - b)).1 : ℚ) / (scale 2 n d (a - b)).2 := by
      rw [one_le_div hp']; exact_mod_cast Nat.le_of_not_lt h
    rw [hs] at h1
    push_cast at h1
    rw [one_le_div h2p] at h1
    refine ⟨h1, ?_⟩
    rw [div_lt_iff₀ hd']
    have : (2 : ℚ) ^ (a - b + 1) * 2 ^ b = 2 ^ (a + 1) := by rw [← zpow_add₀ two]; congr 1; ring
    have hpos : (0 : ℚ) < 2 ^ (a - b + 1) := by positivity
    nlinarith

/-! ## Rounding to a format -/

theorem mag_double (m : Nat) (e : Int) : mag (2 * m) e = mag m (e + 1) := by
  unfold mag
  rw [zpow_add₀ (by norm_num)]
  push_cast
  ring

/-- Multiples of a power of two that stay below the next bound. -/
theorem member_grid {m : Nat} {e e' : Int} (h : e ≤ e') : ∃ k : Int, mag m e' = k * 2 ^ e := by
  refine ⟨m * 2 ^ (e' - e).toNat, ?_⟩
  unfold mag
  have : (2 : ℚ) ^ e' = 2 ^ (e' - e).toNat * 2 ^ e := by
    rw [← zpow_natCast, ← zpow_add₀ (by norm_num)]
    congr 1
    omega
  rw [this]
  push_cast
  ring

/-- A multiple of a power of two is at least as far away as the rounded multiple. -/
theorem grid_best {n d : Nat} (hd : 0 < d) (e k : Int) :
    |mag (roundDiv (scale 2 n d e).1 (scale 2 n d e).2) e - (n : ℚ) / d| ≤ |(k : ℚ) * 2 ^ e - (n : ℚ) / d| ∧
    ((k : ℚ) * 2 ^ e ≠ mag (roundDiv (scale 2 n d e).1 (scale 2 n d e).2) e →
      |(k : ℚ) * 2 ^ e - (n : ℚ) / d| = |mag (roundDiv (scale 2 n d e).1 (scale 2 n d e).2) e - (n : ℚ) / d| →
      roundDiv (scale 2 n d e).1 (scale 2 n d e).2 % 2 = 0) := by
  have hs := scale_val (b := 2) (n := n) (e := e) (by norm_num) hd
  have hp := scale_pos (b := 2) (n := n) (e := e) (by norm_num) hd
  have hu : (0 : ℚ) < 2 ^ e := by positivity
  push_cast at hs
  have hb := roundDiv_best (n := (scale 2 n d e).1) hp k
  have ht := roundDiv_tie (n := (scale 2 n d e).1) hp (k := k)
  rw [hs] at hb ht
  generalize roundDiv (scale 2 n d e).1 (scale 2 n d e).2 = r at hb ht ⊢
  have key : ∀ y : ℚ, |y * 2 ^ e - (n : ℚ) / d| = |y - (n : ℚ) / d / 2 ^ e| * 2 ^ e := by
    intro y
    rw [← abs_of_pos hu, ← abs_mul, abs_of_pos hu]
    congr 1
    field_simp
  unfold mag
  rw [key, key]
  refine ⟨mul_le_mul_of_nonneg_right hb hu.le, ?_⟩
  intro hne heq
  refine ht (fun h => hne (by rw [h])) ?_
  exact mul_right_cancel₀ hu.ne' heq

theorem roundFmt_nearest {F : Fmt} (hF : Fmt.Proper F) {n d : Nat} (hd : 0 < d) :
    Nearest F ((n : ℚ) / d) (roundFmt F n d).1 (roundFmt F n d).2 := by
  obtain ⟨hF1, hF2⟩ := hF
  have two : (2 : ℚ) ≠ 0 := by norm_num
  unfold roundFmt
  split
  · rename_i h
    subst h
    refine ⟨⟨by positivity, le_refl _, .inr rfl⟩, ?_, ?_⟩
    · intro v _
      simp [mag]
    · intros; rfl
  · rename_i hn
    obtain ⟨k1, k2⟩ := ilog2_spec (Nat.pos_of_ne_zero hn) hd
    simp only
    generalize hk : ilog2 n d = k at *
    generalize he : max F.emin (k - ((F.prec : Int) - 1)) = e at *
    have hu : (0 : ℚ) < 2 ^ e := by positivity
    have hs := scale_val (b := 2) (n := n) (e := e) (by norm_num) hd
    have hp := scale_pos (b := 2) (n := n) (e := e) (by norm_num) hd
    push_cast at hs
    have hr := roundDiv_near (n := (scale 2 n d e).1) hp
    have hg := grid_best (n := n) hd e
    rw [hs] at hr
    generalize roundDiv (scale 2 n d e).1 (scale 2 n d e).2 = m at *
    rw [abs_le] at hr
    -- the mantissa is in range
    have hX : (n : ℚ) / d / 2 ^ e < 2 ^ F.prec := by
      rw [div_lt_iff₀ hu, ← zpow_natCast, ← zpow_add₀ two]
      refine lt_of_lt_of_le k2 ?_
      exact zpow_le_zpow_right₀ (by norm_num) (by omega)
    have hm : m ≤ 2 ^ F.prec := by
      have : (m : ℚ) < 2 ^ F.prec + 1 := by linarith
      have : m < 2 ^ F.prec + 1 := by exact_mod_cast this
      omega
    have hlow : e ≠ F.emin → 2 ^ (F.prec - 1) ≤ m := by
      intro hne
      have he' : e = k - ((F.prec : Int) - 1) := by omega
      have : (2 : ℚ) ^ (F.prec - 1) ≤ (n : ℚ) / d / 2 ^ e := by
        rw [le_div_iff₀ hu, ← zpow_natCast, ← zpow_add₀ two]
        refine le_trans (zpow_le_zpow_right₀ (by norm_num) ?_) k1
        omega
      have : (2 : ℚ) ^ (F.prec - 1) < m + 1 := by linarith
      have : 2 ^ (F.prec - 1) < m + 1 := by exact_mod_cast this
      omega
    -- other members
    have hall : ∀ v, Member F v → |mag m e - (n : ℚ) / d| ≤ |v - (n : ℚ) / d| ∧
        (v ≠ mag m e → |v - (n : ℚ) / d| = |mag m e - (n : ℚ) / d| → m % 2 = 0) := by
      rintro v ⟨m', e', h1, h2, rfl⟩
      rcases le_or_gt e e' with hee | hee
      · obtain ⟨j, hj⟩ := member_grid (m := m') hee
        rw [hj]
        exact hg j
      · have he' : e = k - ((F.prec : Int) - 1) := by omega
        have hv : mag m' e' < 2 ^ k := by
          unfold mag
          have a1 : (m' : ℚ) < 2 ^ (F.prec : Int) := by rw [zpow_natCast]; exact_mod_cast h1
          have a2 : (0 : ℚ) < 2 ^ e' := by positivity
          have a3 : (2 : ℚ) ^ (F.prec : Int) * 2 ^ e' ≤ 2 ^ k := by
            rw [← zpow_add₀ two]
            exact zpow_le_zpow_right₀ (by norm_num) (by omega)
          nlinarith
        have hgrid : ((2 ^ (F.prec - 1) : Int) : ℚ) * 2 ^ e = 2 ^ k := by
          push_cast
          rw [← zpow_natCast, ← zpow_add₀ two]
          congr 1
          omega
        have := (hg (2 ^ (F.prec - 1))).1
        rw [hgrid, abs_of_nonpos (a := (2 : ℚ) ^ k - _) (by linarith)] at this
        have hlt : |mag m e - (n : ℚ) / d| < |mag m' e' - (n : ℚ) / d| := by
          rw [abs_of_nonpos (a := mag m' e' - _) (by linarith)]
          linarith
        exact ⟨hlt.le, fun _ h => absurd h hlt.ne'⟩
    have heF : F.emin ≤ e := by omega
    split
    · rename_i hmp
      have hval : mag (2 ^ (F.prec - 1)) (e + 1) = mag m e := by
        rw [← mag_double, hmp, ← Nat.pow_succ', show (F.prec - 1).succ = F.prec by omega]
      refine ⟨⟨?_, by simp only; omega, .inl (le_refl _)⟩, ?_, ?_⟩
      · exact Nat.pow_lt_pow_right (by norm_num) (by omega)
      · rw [hval]
        exact fun v hv => (hall v hv).1
      · intros
        obtain ⟨j, hj⟩ : ∃ j, F.prec - 1 = j + 1 := ⟨F.prec - 2, by omega⟩
        rw [hj, Nat.pow_succ]
        omega
    · rename_i hmp
      refine ⟨⟨by simp only; omega, heF, ?_⟩, fun v hv => (hall v hv).1, fun v hv => (hall v hv).2⟩
      by_cases h : e = F.emin
      · exact .inr h
      · exact .inl (hlow h)

end Coil.Floats
