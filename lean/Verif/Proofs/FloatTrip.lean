import Verif.Proofs.FloatNear
import Verif.Proofs.FloatPrint
import Verif.Proofs.Conv

/-! # Texts of floating-point numbers there and back -/

namespace Coil.Floats
open Spec Fl

variable {F : Fmt} {tiny : Nat → Nat → Bool} {neg : Bool}

/-! ## Texts without NUL -/

theorem digit_ne_zero {c : Byte} (h : isHexDigit c = true ∨ isDigit c = true) : c ≠ 0 := by
  rintro rfl
  revert h
  decide

theorem digits_nulFree {b : Nat} {digit : Byte → Bool} (hb : Base b digit) (h0 : digit 0 = false) {ds : Bytes} {m : Nat}
    (h : Digits b ds m) : NulFree ds := by
  intro hm
  have := ((digits_iff hb).1 h).1 _ hm
  rw [h0] at this
  cases this

theorem mantissa_nulFree {b : Nat} {digit : Byte → Bool} (hb : Base b digit) (h0 : digit 0 = false) {a : Bytes} {m k : Nat}
    (h : Mantissa b a m k) : NulFree a := by
  cases h with
  | whole h _ => exact digits_nulFree hb h0 h
  | point h _ =>
    obtain ⟨h1, h2⟩ := nulFree_append.1 (digits_nulFree hb h0 h)
    refine nulFree_append.2 ⟨h1, ?_⟩
    intro hm
    rcases List.mem_cons.1 hm with h | h
    · exact absurd h (by decide)
    · exact h2 h

theorem exponent_nulFree {l u : Byte} (hl : l ≠ 0) (hu : u ≠ 0) {x : Bytes} {z : Int} (h : Exponent l u x z) : NulFree x := by
  cases h with
  | none => exact List.not_mem_nil
  | some hc hs hd =>
    intro hm
    rcases List.mem_cons.1 hm with h | h
    · rcases hc with hc | hc
      · exact hl (hc ▸ h.symm)
      · exact hu (hc ▸ h.symm)
    · rcases List.mem_append.1 h with h | h
      · cases hs <;> simp at h
      · exact digits_nulFree base10 (by decide) (decimal_iff.1 hd).1 h

theorem letters_nulFree {s w : Bytes} (h : Forall2 SameLetter s w) (hw : ∀ c ∈ w, 97 ≤ c.toNat) : NulFree s := by
  induction h with
  | nil => exact List.not_mem_nil
  | cons hc _ ih =>
    intro hm
    rcases List.mem_cons.1 hm with h | h
    · have h2 := hw _ List.mem_cons_self
      rcases hc with hc | ⟨h1, _, h3⟩
      · rw [← hc, ← h] at h2; exact absurd h2 (by decide)
      · rw [← h] at h3
        have : (0 : Byte).toNat = 0 := rfl
        omega
    · exact ih (fun c hc => hw c (List.mem_cons_of_mem _ hc)) h

theorem floatWord_nulFree {s : Bytes} {d : Denotes} (h : FloatWord s d) : NulFree s := by
  cases h with
  | decimal hm hx => exact nulFree_append.2 ⟨mantissa_nulFree base10 (by decide) hm, exponent_nulFree (by decide) (by decide) hx⟩
  | hex hc hm hx =>
    have := nulFree_append.2 ⟨mantissa_nulFree base16 (by decide) hm, exponent_nulFree (by decide) (by decide) hx⟩
    intro h
    rcases List.mem_cons.1 h with h | h
    · exact absurd h (by decide)
    · rcases List.mem_cons.1 h with h | h
      · rcases hc with hc | hc <;> rw [hc] at h <;> exact absurd h (by decide)
      · exact this h
  | inf hf => exact letters_nulFree hf (by decide)
  | infinity hf => exact letters_nulFree hf (by decide)
  | nan hf => exact letters_nulFree hf (by decide)
  | nanOf hf ht =>
    refine nulFree_append.2 ⟨letters_nulFree hf (by decide), ?_⟩
    intro h
    rcases List.mem_cons.1 h with h | h
    · exact absurd h (by decide)
    · rcases List.mem_append.1 h with h | h
      · exact absurd (ht _ h) (by decide)
      · exact absurd (List.mem_singleton.1 h) (by decide)

theorem floatText_nulFree {s : Bytes} {d : Denotes} (h : FloatText s neg d) : NulFree s := by
  obtain ⟨ws, sg, w, rfl, h1, h2, h3⟩ := h
  refine nulFree_append.2 ⟨?_, nulFree_append.2 ⟨?_, floatWord_nulFree h3⟩⟩
  · intro h
    have := h1 _ h
    revert this
    unfold CSpace
    decide
  · cases h2 <;> simp [NulFree]

theorem floatWord_ne_nil {w : Bytes} {d : Denotes} (h : FloatWord w d) : w ≠ [] := by
  cases h with
  | @decimal a x m k z hm hx =>
    intro h
    obtain ⟨rfl, rfl⟩ := List.append_eq_nil_iff.1 h
    generalize ha : ([] : Bytes) = a at hm
    cases hm with
    | whole _ hn => exact hn ha.symm
    | point _ _ => simp at ha
  | hex => simp
  | inf hf => rintro rfl; cases hf
  | infinity hf => rintro rfl; cases hf
  | nan hf => rintro rfl; cases hf
  | nanOf hf ht => simp

theorem floatText_ne_nil {s : Bytes} {d : Denotes} (h : FloatText s neg d) : s ≠ [] := by
  obtain ⟨ws, sg, w, rfl, h1, h2, h3⟩ := h
  have := floatWord_ne_nil h3
  simp [this]

/-! ## The parser stays within the text -/

theorem countWhile_le (p : Byte → Bool) (s : Bytes) : countWhile p s ≤ s.length := by
  obtain ⟨a, b, h1, _, _, h2⟩ := countWhile_split p s
  rw [h2, h1]
  simp

theorem scanMantissa_le {digit : Byte → Bool} {s i f : Bytes} {n : Nat} (h : scanMantissa digit s = some (i, f, n)) : n ≤ s.length := by
  unfold scanMantissa at h
  have h1 := countWhile_le digit s
  simp only at h
  split at h
  · rename_i hp
    have h2 := countWhile_le digit ((s.drop (countWhile digit s)).drop 1)
    have h3 : 0 < (s.drop (countWhile digit s)).length := by
      cases hr : s.drop (countWhile digit s) with
      | nil => rw [hr] at hp; cases hp
      | cons => simp
    rw [List.length_drop] at h2 h3
    rw [List.length_drop] at h2
    split at h
    · cases h
    · cases h
      omega
  · split at h
    · cases h
    · cases h
      exact h1

theorem scanExponent_le {l u : Byte} {s : Bytes} : (scanExponent l u s).2 ≤ s.length := by
  unfold scanExponent
  split
  · rename_i hp
    simp only
    have h0 : 0 < s.length := by
      cases s with
      | nil => simp at hp
      | cons => simp
    have h1 := countWhile_le isDigit ((s.drop 1).drop (if (s.drop 1).head? = some 45 ∨ (s.drop 1).head? = some 43 then 1 else 0))
    rw [List.length_drop, List.length_drop] at h1
    generalize countWhile isDigit ((s.drop 1).drop (if (s.drop 1).head? = some 45 ∨ (s.drop 1).head? = some 43 then 1 else 0)) = n at *
    by_cases hn : n = 0
    · rw [if_pos hn]
      exact Nat.zero_le _
    · rw [if_neg hn]
      show 1 + _ + n ≤ _
      omega
  · exact Nat.zero_le _

theorem startsWith_length {w s : Bytes} (h : startsWith w s = true) : w.length ≤ s.length := by
  unfold startsWith at h
  simp only [Bool.and_eq_true, decide_eq_true_eq] at h
  exact h.1

theorem scanBody_le {s : Bytes} {v : Fl} {n : Nat} {err : Bool} (h : scanBody F tiny neg s = some (v, n, err)) : n ≤ s.length := by
  unfold scanBody at h
  simp only at h
  split at h
  · rename_i r hr
    cases h
    split at hr
    · rename_i hs
      have hl := startsWith_length hs
      have h2 : (lit "0x").length = 2 := by decide
      rw [Option.map_eq_some_iff] at hr
      obtain ⟨⟨i, f, k⟩, hm, he⟩ := hr
      have h3 := scanMantissa_le hm
      have h4 := scanExponent_le (l := 112) (u := 80) (s := s.drop (2 + k))
      rw [List.length_drop] at h3 h4
      simp only [Prod.mk.injEq] at he
      omega
    · cases hr
  · split at h
    · rename_i hs
      have := startsWith_length hs
      cases h
      exact this
    · split at h
      · rename_i hs
        have := startsWith_length hs
        cases h
        exact this
      · split at h
        · rename_i hs
          have h3 := startsWith_length hs
          have h3' : (lit "nan").length = 3 := by decide
          split at h
          · rename_i hp
            cases h
            have h4 := hp.2
            have : 3 + (1 + countWhile isWordChar ((s.drop 3).drop 1)) < s.length := by
              by_contra hc
              rw [List.drop_drop, List.drop_eq_nil_of_le (by omega)] at h4
              cases h4
            omega
          · cases h
            omega
        · rw [Option.map_eq_some_iff] at h
          obtain ⟨⟨i, f, k⟩, hm, he⟩ := h
          have h3 := scanMantissa_le hm
          have h4 := scanExponent_le (l := 101) (u := 69) (s := s.drop k)
          rw [List.length_drop] at h4
          simp only [Prod.mk.injEq] at he
          omega

theorem strtofl_le (s : Bytes) : (strtofl F tiny s).stop ≤ s.length := by
  unfold strtofl
  simp only
  have h1 := countWhile_le isSpaceC s
  split
  · exact Nat.zero_le _
  · rename_i v n err hb
    have h2 := scanBody_le hb
    rw [List.length_drop, List.length_drop] at h2
    show _ + _ + n ≤ _
    by_cases hs : (s.drop (countWhile isSpaceC s)).head? = some 45 ∨ (s.drop (countWhile isSpaceC s)).head? = some 43
    · rw [if_pos hs] at h2 ⊢
      have : 0 < (s.drop (countWhile isSpaceC s)).length := by
        cases hr : s.drop (countWhile isSpaceC s) with
        | nil => rw [hr] at hs; simp at hs
        | cons => simp
      rw [List.length_drop] at this
      omega
    · rw [if_neg hs] at h2 ⊢
      omega

/-! ## Printing -/

theorem bound_eq : bound = (4722366482869645, -72) := by decide +kernel

/-- The value of the constant `1e-6`. -/
theorem bound_mag : mag bound.1 bound.2 = 4722366482869645 / 2 ^ 72 := by
  rw [bound_eq]
  unfold mag
  rw [show ((-72 : Int)) = -((72 : Nat) : Int) by norm_num, zpow_neg, zpow_natCast]
  norm_num

theorem almostZero_iff {m : Nat} {e : Int} : almostZero (.fin neg m e) = true ↔ mag m e < mag bound.1 bound.2 := by
  unfold almostZero
  simp only [decide_eq_true_eq]
  have h1 := frac_val (b := 2) (n := m) (e := e)
  have h2 := frac_val (b := 2) (n := bound.1) (e := bound.2)
  have p1 := frac_pos (b := 2) (n := m) (e := e) (by norm_num)
  have p2 := frac_pos (b := 2) (n := bound.1) (e := bound.2) (by norm_num)
  have p1' : (0 : ℚ) < (frac 2 m e).2 := by exact_mod_cast p1
  have p2' : (0 : ℚ) < (frac 2 bound.1 bound.2).2 := by exact_mod_cast p2
  unfold mag
  push_cast at h1 h2
  rw [← h1, ← h2, div_lt_div_iff₀ p1' p2']
  exact_mod_cast Iff.rfl

theorem frac_num_pos {m : Nat} {e : Int} (hm : 0 < m) : 0 < (frac 2 m e).1 := by
  unfold frac
  split
  · exact Nat.mul_pos hm (Nat.two_pow_pos _)
  · exact hm

theorem printG_six {m : Nat} {e : Int} (hm : 0 < m) :
    ∃ (D : Nat) (X : Int), printG (.fin neg m e) = signText neg ++ layoutG (natDec D) X ∧ 10 ^ 5 ≤ D ∧ D < 10 ^ 6 ∧
      ∃ k : Int, (10 : ℚ) ^ k ≤ mag m e ∧ mag m e < 10 ^ (k + 1) ∧ |(D : ℚ) * 10 ^ (X - 5) - mag m e| ≤ 1 / 2 * 10 ^ (k - 5) ∧
        (X = k ∨ X = k + 1 ∧ D = 10 ^ 5) := by
  have hv := frac_val (b := 2) (n := m) (e := e)
  have hp := frac_pos (b := 2) (n := m) (e := e) (by norm_num)
  have hs := sixDigits_spec (frac_num_pos (e := e) hm) hp
  push_cast at hv
  rw [hv] at hs
  refine ⟨_, _, ?_, hs.1, hs.2.1, hs.2.2⟩
  simp only [printG]
  rw [if_neg (by omega)]

theorem printG_near {m D : Nat} {e X : Int} (hm : 0 < m) (h5 : 10 ^ 5 ≤ D) (h6 : D < 10 ^ 6)
    (h : |mag m e - D * 10 ^ (X - 5)| * 2000000 < D * 10 ^ (X - 5)) :
    printG (.fin neg m e) = signText neg ++ layoutG (natDec D) X := by
  have hv := frac_val (b := 2) (n := m) (e := e)
  have hp := frac_pos (b := 2) (n := m) (e := e) (by norm_num)
  push_cast at hv
  have hs := sixDigits_near (frac_num_pos (e := e) hm) hp h5 h6 (by rw [hv]; exact h)
  simp only [printG]
  rw [if_neg (by omega)]
  simp only [hs]

theorem sign_text (neg : Bool) : Sign (signText neg) neg := by
  cases neg
  · exact .none
  · exact .minus

theorem floatText_signed {w : Bytes} {d : Denotes} (h : FloatWord w d) : FloatText (signText neg ++ w) neg d :=
  ⟨[], signText neg, w, rfl, by simp, sign_text neg, h⟩

/-- Six digits are accurate. -/
theorem six_error {v q : ℚ} {k : Int} (h1 : (10 : ℚ) ^ k ≤ v) (h2 : |q - v| ≤ 1 / 2 * 10 ^ (k - 5)) : |q - v| ≤ 5 / 10 ^ 6 * v := by
  have ten : (10 : ℚ) ≠ 0 := by norm_num
  have : (10 : ℚ) ^ k = 100000 * 10 ^ (k - 5) := by
    rw [show (100000 : ℚ) = 10 ^ (5 : Int) by norm_num, ← zpow_add₀ ten]
    congr 1
    ring
  rw [this] at h1
  norm_num
  linarith

theorem pow_shift (k : Int) (j : Nat) : (10 : ℚ) ^ (k + j) = 10 ^ j * 10 ^ k := by
  rw [add_comm, zpow_add₀ (by norm_num), zpow_natCast]

theorem six_ge {v : ℚ} {D : Nat} {X k : Int} (hv : mag bound.1 bound.2 ≤ v) (h5 : 10 ^ 5 ≤ D) (h6 : D < 10 ^ 6)
    (k2 : v < 10 ^ (k + 1)) (he : |(D : ℚ) * 10 ^ (X - 5) - v| ≤ 1 / 2 * 10 ^ (k - 5))
    (hX : X = k ∨ X = k + 1 ∧ D = 10 ^ 5) : (10 : ℚ) ^ (-6 : Int) ≤ D * 10 ^ (X - 5) := by
  rw [bound_mag] at hv
  have h5' : (100000 : ℚ) ≤ D := by exact_mod_cast h5
  have h6' : (D : ℚ) + 1 ≤ 1000000 := by exact_mod_cast h6
  have hk : -7 ≤ k := by
    have : (10 : ℚ) ^ (-7 : Int) < 10 ^ (k + 1) := by
      refine lt_of_lt_of_le ?_ (le_trans hv k2.le)
      norm_num
    have := (zpow_lt_zpow_iff_right₀ (a := (10 : ℚ)) (by norm_num)).1 this
    omega
  rcases lt_or_ge (-7) k with h | h
  · have h1 : (10 : ℚ) ^ (-11 : Int) ≤ 10 ^ (X - 5) := zpow_le_zpow_right₀ (by norm_num) (by omega)
    have h2 : (10 : ℚ) ^ (-6 : Int) = 100000 * 10 ^ (-11 : Int) := by norm_num
    have h3 : (0 : ℚ) < 10 ^ (-11 : Int) := by positivity
    rw [h2]
    nlinarith
  · have hk' : k = -7 := by omega
    subst hk'
    rcases hX with rfl | ⟨rfl, rfl⟩
    · exfalso
      norm_num at he
      rw [abs_le] at he
      have : (999999 : ℚ) < D := by
        norm_num at hv
        linarith [he.1]
      have : 999999 < D := by exact_mod_cast this
      omega
    · norm_num

theorem six_top {v : ℚ} {D D0 : Nat} {X X0 k : Int} (h5 : 10 ^ 5 ≤ D0) (h6 : D0 < 10 ^ 6)
    (hv : v < (D0 + 1 / 2) * 10 ^ (X0 - 5)) (hD6 : D < 10 ^ 6) (k1 : (10 : ℚ) ^ k ≤ v)
    (he : |(D : ℚ) * 10 ^ (X - 5) - v| ≤ 1 / 2 * 10 ^ (k - 5))
    (hX : X = k ∨ X = k + 1 ∧ D = 10 ^ 5) : (D : ℚ) * 10 ^ (X - 5) ≤ D0 * 10 ^ (X0 - 5) := by
  have ten : (10 : ℚ) ≠ 0 := by norm_num
  have h5' : (100000 : ℚ) ≤ D0 := by exact_mod_cast h5
  have h6' : (D0 : ℚ) + 1 ≤ 1000000 := by exact_mod_cast h6
  have hD6' : (D : ℚ) ≤ 1000000 := by exact_mod_cast hD6.le
  have hu : (0 : ℚ) < 10 ^ (X0 - 5) := by positivity
  by_contra hc
  rw [not_le] at hc
  rcases Int.lt_trichotomy k X0 with h | h | h
  · have h1 : (D : ℚ) * 10 ^ (X - 5) ≤ 10 ^ (k + 1) := by
      rw [show k + 1 = (k - 5) + (6 : Nat) by push_cast; ring, pow_shift]
      have hu' : (0 : ℚ) < 10 ^ (k - 5) := by positivity
      rcases hX with rfl | ⟨rfl, rfl⟩
      · exact mul_le_mul_of_nonneg_right (by linarith) hu'.le
      · rw [show k + 1 - 5 = (k - 5) + (1 : Nat) by push_cast; ring, pow_shift]
        push_cast
        ring_nf
        exact le_refl _
    have h2 : (10 : ℚ) ^ (k + 1) ≤ 10 ^ X0 := zpow_le_zpow_right₀ (by norm_num) (by omega)
    have h3 : (10 : ℚ) ^ X0 ≤ D0 * 10 ^ (X0 - 5) := by
      rw [show X0 = (X0 - 5) + (5 : Nat) by push_cast; ring, pow_shift]
      rw [show X0 - 5 + ((5 : Nat) : Int) - 5 = X0 - 5 by push_cast; ring]
      exact mul_le_mul_of_nonneg_right (by linarith) hu.le
    linarith
  · subst h
    obtain ⟨Q, hQ⟩ : ∃ Q : Nat, (D : ℚ) * 10 ^ (X - 5) = Q * 10 ^ (k - 5) := by
      rcases hX with rfl | ⟨rfl, rfl⟩
      · exact ⟨D, rfl⟩
      · refine ⟨10 ^ 6, ?_⟩
        rw [show k + 1 - 5 = (k - 5) + (1 : Nat) by push_cast; ring, pow_shift]
        push_cast
        ring
    rw [hQ] at hc he
    have h1 : (D0 : ℚ) < Q := lt_of_mul_lt_mul_right hc hu.le
    have h1' : D0 + 1 ≤ Q := by
      have : D0 < Q := by exact_mod_cast h1
      omega
    have h1'' : (D0 : ℚ) + 1 ≤ Q := by exact_mod_cast h1'
    rw [abs_le] at he
    nlinarith [he.2]
  · have h1 : (10 : ℚ) ^ (X0 + 1) ≤ 10 ^ k := zpow_le_zpow_right₀ (by norm_num) (by omega)
    rw [show X0 + 1 = (X0 - 5) + (6 : Nat) by push_cast; ring, pow_shift] at h1
    have : (D0 + 1 / 2) * (10 : ℚ) ^ (X0 - 5) ≤ 10 ^ 6 * 10 ^ (X0 - 5) :=
      mul_le_mul_of_nonneg_right (by norm_num; linarith) hu.le
    linarith

end Coil.Floats
