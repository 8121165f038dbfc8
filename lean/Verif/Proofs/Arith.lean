import Verif.Model.Arith
import Verif.Proofs.Conv
import Verif.Spec.Typed

/-!
# Sums and products of integers
-/

namespace Coil
open Spec

theorem dynLoop_eq {α : Type} (c : Conv α) (n : Bytes) (v : Value) (l : List Bytes) (acc : List α) :
    dynLoop c n v l acc = vecLoop c n v l acc := by
  induction l generalizing acc with
  | nil => rfl
  | cons s rest ih =>
    simp only [dynLoop, vecLoop]
    cases c.onTemporary s with
    | ok r => cases r with
      | error e => rfl
      | ok x => exact ih _
    | ub w => rfl
    | diverge => rfl

theorem int_inRange {pl : Platform} {z : Int} : InRange pl .int z ↔ -2147483648 ≤ z ∧ z ≤ 2147483647 := by
  unfold InRange
  exact Iff.rfl

theorem accumulate_spec (pl : Platform) : ∀ (xs : List Int) (acc : Int),
    ((∀ k, 0 < k → k ≤ xs.length → InRange pl .int (acc + (xs.take k).sum)) → accumulate xs acc = .ok (acc + xs.sum)) ∧
    ((∃ k, 0 < k ∧ k ≤ xs.length ∧ ¬ InRange pl .int (acc + (xs.take k).sum)) → accumulate xs acc = .ub .intOverflow)
  | [], acc => by
    refine ⟨fun _ => by simp [accumulate], ?_⟩
    rintro ⟨k, h1, h2, _⟩
    simp at h2
    omega
  | x :: rest, acc => by
    obtain ⟨i1, i2⟩ := accumulate_spec pl rest (acc + x)
    have hx : ∀ k, acc + ((x :: rest).take (k + 1)).sum = acc + x + (rest.take k).sum := by
      intro k
      simp [List.take_succ_cons]
      omega
    by_cases h0 : InRange pl .int (acc + x)
    · have ha : intAdd acc x = .ok (acc + x) := if_pos (int_inRange.1 h0)
      simp only [accumulate, ha, Res.bind_ok]
      constructor
      · intro h
        rw [i1 ?_]
        · simp
          omega
        · intro k hk hl
          have := h (k + 1) (by omega) (by simpa using hl)
          rwa [hx] at this
      · rintro ⟨k, hk, hl, hn⟩
        refine i2 ?_
        obtain ⟨j, rfl⟩ : ∃ j, k = j + 1 := ⟨k - 1, by omega⟩
        rw [hx] at hn
        refine ⟨j, ?_, by simpa using hl, hn⟩
        rcases Nat.eq_zero_or_pos j with rfl | hj
        · simp at hn
          exact absurd h0 hn
        · exact hj
    · have ha : intAdd acc x = .ub .intOverflow := if_neg fun h => h0 (int_inRange.2 h)
      simp only [accumulate, ha]
      constructor
      · intro h
        have := h 1 (by omega) (by simp)
        rw [hx] at this
        simp at this
        exact absurd this h0
      · intro _
        rfl

theorem sum_take_nonneg : ∀ {xs : List Int} (k : Nat), (∀ x ∈ xs, 0 ≤ x) → 0 ≤ (xs.take k).sum ∧ (xs.take k).sum ≤ xs.sum
  | [], k, _ => by simp
  | x :: rest, 0, h => by
    have := sum_take_nonneg (xs := rest) 0 fun y hy => h y (by simp [hy])
    have := h x (by simp)
    simp at *
    omega
  | x :: rest, k + 1, h => by
    have := sum_take_nonneg (xs := rest) k fun y hy => h y (by simp [hy])
    have := h x (by simp)
    simp at *
    omega

theorem sum_take_nonpos : ∀ {xs : List Int} (k : Nat), (∀ x ∈ xs, x ≤ 0) → (xs.take k).sum ≤ 0 ∧ xs.sum ≤ (xs.take k).sum
  | [], k, _ => by simp
  | x :: rest, 0, h => by
    have := sum_take_nonpos (xs := rest) 0 fun y hy => h y (by simp [hy])
    have := h x (by simp)
    simp at *
    omega
  | x :: rest, k + 1, h => by
    have := sum_take_nonpos (xs := rest) k fun y hy => h y (by simp [hy])
    have := h x (by simp)
    simp at *
    omega

end Coil
