import Verif.Proofs.Swarm
import Verif.Props.Particles
import Verif.Proofs.Angle

/-!
# How far particles are from where they should be
-/

namespace Coil
open Spec Floats

variable {nan : Fl → Fl → Bool}

theorem greatest_large : (2 : ℚ) ^ 26 ≤ greatest .single := by
  unfold greatest mag
  norm_num [Fmt.single]

/-- A step with numbers as they are. -/
theorem one_step {x v dt : Fl} (hx : Finite .single x) (hv : Finite .single v) (ht : Finite .single dt)
    (hg : |val x| + 3 * |val v * val dt| ≤ greatest .single) :
    Finite .single (Fl.add .single nan x (Fl.mul .single nan v dt)) ∧
      |val (Fl.add .single nan x (Fl.mul .single nan v dt)) - (val x + val v * val dt)| ≤ 1 / 2 ^ 22 * (|val x| + |val v * val dt|) + 1 / 10 ^ 7 ∧
      ∀ z1 z2 : Int, val v * val dt = z1 → z1.natAbs ≤ 2 ^ 24 → val x = z2 → (z2 + z1).natAbs ≤ 2 ^ 24 →
        val (Fl.add .single nan x (Fl.mul .single nan v dt)) = ((z2 + z1 : Int) : ℚ) := by
  obtain ⟨h1, h2, h3⟩ := coordinate (nan := nan) (q := val dt) hx hv ht (by simp) hg
  exact ⟨h1, h2, fun z1 z2 => h3 z1 z2 rfl⟩

theorem travel_cons (x v dt : Fl) (steps : List Fl) :
    travel nan x v (dt :: steps) = travel nan (Fl.add .single nan x (Fl.mul .single nan v dt)) v steps := rfl

/-- Whole numbers are exact. -/
theorem travel_whole {v : Fl} (hv : Finite .single v) {w : Int} (hw : val v = w) : ∀ (steps : List Fl) (zs : List Int) (x : Fl) (a : Int),
    Finite .single x → val x = a → Forall2 (fun dt (z : Int) => Finite .single dt ∧ val dt = z) steps zs →
    a.natAbs + (zs.map fun z => (w * z).natAbs).sum ≤ 2 ^ 24 →
    Finite .single (travel nan x v steps) ∧ val (travel nan x v steps) = ((a + w * zs.sum : Int) : ℚ)
  | [], [], x, a, hx, ha, _, _ => ⟨hx, by simpa [travel] using ha⟩
  | [], _ :: _, _, _, _, _, h, _ => by cases h
  | _ :: _, [], _, _, _, _, h, _ => by cases h
  | dt :: steps, z :: zs, x, a, hx, ha, h, hb => by
    cases h with
    | cons h0 h =>
    obtain ⟨ht, hz⟩ := h0
    simp only [List.map_cons, List.sum_cons] at hb
    have hwz : val v * val dt = ((w * z : Int) : ℚ) := by rw [hw, hz]; push_cast; ring
    have b1 : (w * z).natAbs ≤ 2 ^ 24 := by omega
    have b2 : (a + w * z).natAbs ≤ 2 ^ 24 := by omega
    have q1 : |((w * z : Int) : ℚ)| ≤ 2 ^ 24 := by
      have : |w * z| ≤ 2 ^ 24 := by rw [Int.abs_eq_natAbs]; omega
      exact_mod_cast this
    have q2 : |(a : ℚ)| ≤ 2 ^ 24 := by
      have : |a| ≤ 2 ^ 24 := by rw [Int.abs_eq_natAbs]; omega
      exact_mod_cast this
    obtain ⟨s1, _, s3⟩ := one_step (nan := nan) hx hv ht (by
      rw [hwz, ha]
      have := greatest_large
      linarith)
    have s4 := s3 _ _ hwz b1 ha b2
    obtain ⟨t1, t2⟩ := travel_whole hv hw steps zs _ _ s1 s4 h (by omega)
    rw [travel_cons]
    refine ⟨t1, t2.trans ?_⟩
    rw [List.sum_cons]
    congr 1
    ring

/-- The error of `n` steps. -/
theorem travel_error {v : Fl} (hv : Finite .single v) : ∀ (steps : List Fl) (x : Fl), Finite .single x → (∀ dt ∈ steps, Finite .single dt) →
    3 * ((1 + 1 / 2 ^ 22) ^ steps.length * (|val x| + absSum (steps.map fun dt => val v * val dt) + steps.length / 10 ^ 7)) ≤ greatest .single →
    Finite .single (travel nan x v steps) ∧
      |val (travel nan x v steps) - (val x + val v * (steps.map val).sum)| ≤
        ((1 + 1 / 2 ^ 22) ^ steps.length - 1) * (|val x| + absSum (steps.map fun dt => val v * val dt)) +
          steps.length * (1 + 1 / 2 ^ 22) ^ steps.length / 10 ^ 7
  | [], x, hx, _, _ => ⟨hx, by simp [travel]⟩
  | dt :: steps, x, hx, ht, hg => by
    have hA : (1 : ℚ) ≤ (1 + 1 / 2 ^ 22) ^ steps.length := one_le_pow₀ (by norm_num)
    have hn : (0 : ℚ) ≤ steps.length := Nat.cast_nonneg _
    have hX := abs_nonneg (val x)
    have hB := abs_nonneg (val v * val dt)
    have hQ := absSum_nonneg (steps.map fun dt => val v * val dt)
    simp only [List.map_cons, absSum_cons, List.length_cons, Nat.cast_add, Nat.cast_one, pow_succ (1 + 1 / 2 ^ 22 : ℚ), List.sum_cons] at hg ⊢
    rw [travel_cons]
    have ht' : ∀ dt ∈ steps, Finite .single dt := fun d hd => ht d (List.mem_cons_of_mem _ hd)
    have hg1 : |val x| + 3 * |val v * val dt| ≤ greatest .single := by
      refine le_trans ?_ hg
      have h0 : (0 : ℚ) ≤ |val x| + (|val v * val dt| + absSum (steps.map fun dt => val v * val dt)) + (steps.length + 1) / 10 ^ 7 := by positivity
      have h1 : (1 : ℚ) ≤ (1 + 1 / 2 ^ 22) ^ steps.length * (1 + 1 / 2 ^ 22) := one_le_mul_of_one_le_of_one_le hA (by norm_num)
      have h2 := mul_le_mul_of_nonneg_right h1 h0
      have h3 : (0 : ℚ) ≤ (steps.length + 1) / 10 ^ 7 := by positivity
      linarith
    obtain ⟨s1, s2, _⟩ := one_step (nan := nan) hx hv (ht dt (by simp)) hg1
    generalize Fl.add .single nan x (Fl.mul .single nan v dt) = y at s1 s2 ⊢
    have hy : |val y| ≤ (1 + 1 / 2 ^ 22) * (|val x| + |val v * val dt|) + 1 / 10 ^ 7 := by
      have h1 := abs_sub_abs_le_abs_sub (val y) (val x + val v * val dt)
      have h2 := abs_add_le (val x) (val v * val dt)
      linarith
    have hpos : (0 : ℚ) ≤ (1 + 1 / 2 ^ 22) ^ steps.length := by positivity
    obtain ⟨t1, t2⟩ := travel_error hv steps y s1 ht' (by
      refine le_trans ?_ hg
      rw [mul_assoc ((1 + 1 / 2 ^ 22 : ℚ) ^ steps.length)]
      refine mul_le_mul_of_nonneg_left (mul_le_mul_of_nonneg_left ?_ hpos) (by norm_num)
      have h3 : (0 : ℚ) ≤ (steps.length + 1) / 10 ^ 7 := by positivity
      have h4 : (steps.length + 1 : ℚ) / 10 ^ 7 = steps.length / 10 ^ 7 + 1 / 10 ^ 7 := by ring
      nlinarith)
    refine ⟨t1, ?_⟩
    generalize absSum (steps.map fun dt => val v * val dt) = Q at *
    generalize (1 + 1 / 2 ^ 22 : ℚ) ^ steps.length = A at *
    generalize (steps.length : ℚ) = n at *
    have e1 : val (travel nan y v steps) - (val x + val v * (val dt + (steps.map val).sum)) =
        (val (travel nan y v steps) - (val y + val v * (steps.map val).sum)) + (val y - (val x + val v * val dt)) := by ring
    rw [e1]
    refine (abs_add_le _ _).trans ?_
    have h5 : (A - 1) * |val y| ≤ (A - 1) * ((1 + 1 / 2 ^ 22) * (|val x| + |val v * val dt|) + 1 / 10 ^ 7) :=
      mul_le_mul_of_nonneg_left hy (by linarith)
    have h6 : 0 ≤ A * Q := mul_nonneg hpos hQ
    have h7 : 0 ≤ n * A := mul_nonneg hn hpos
    generalize |val y| = Y at *
    generalize |val x| = X at *
    generalize |val v * val dt| = B at *
    nlinarith

/-- A whole number, as it is printed. -/
theorem whole_text {x : Fl} (hx : Finite .single x) {z : Int} (hv : val x = z) (hz : z.natAbs ≤ 999999) :
    Fl.printG x = intDec z ∨ (z = 0 ∧ Fl.printG x = lit "-0") := by
  by_cases h0 : z = 0
  · subst h0
    obtain ⟨neg, m, e, rfl, _⟩ := hx
    have hm : m = 0 := by
      by_contra hm
      rw [val_fin] at hv
      have h1 : (0 : ℚ) < mag m e := by
        unfold mag
        have : (0 : ℚ) < m := by exact_mod_cast Nat.pos_of_ne_zero hm
        positivity
      have h2 := abs_finVal neg (m := m) (e := e)
      rw [hv] at h2
      simp at h2
      linarith
    subst hm
    cases neg
    · exact .inl (by simp [Fl.printG]; decide +kernel)
    · exact .inr ⟨rfl, by simp [Fl.printG]; decide +kernel⟩
  · exact .inl (printG_whole hx hv hz h0)

end Coil
