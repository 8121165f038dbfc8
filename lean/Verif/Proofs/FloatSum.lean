import Verif.Model.FloatCommands
import Verif.Proofs.FloatArith
import Verif.Proofs.FloatStable
import Verif.Props.FloatTrip

/-!
# Sums of floating-point numbers
-/

namespace Coil.Floats
open Spec Fl

variable {F : Fmt} {neg : Bool} {nan : Fl → Fl → Bool} {tiny : Nat → Nat → Bool}

theorem absSum_nonneg (qs : List ℚ) : 0 ≤ absSum qs := by
  unfold absSum
  induction qs with
  | nil => simp
  | cons q qs ih => simp only [List.map_cons, List.sum_cons]; positivity

theorem abs_sum_le (qs : List ℚ) : |qs.sum| ≤ absSum qs := by
  unfold absSum
  induction qs with
  | nil => simp
  | cons q qs ih =>
    simp only [List.map_cons, List.sum_cons]
    linarith [abs_add_le q qs.sum]

theorem absSum_cons (q : ℚ) (qs : List ℚ) : absSum (q :: qs) = |q| + absSum qs := by simp [absSum]

theorem roundoff_nonneg : 0 ≤ roundoff F := by unfold roundoff; positivity

theorem one_le_pow_roundoff (n : Nat) : 1 ≤ (1 + roundoff F) ^ n := one_le_pow₀ (by linarith [roundoff_nonneg (F := F)])

theorem le_roundoff {x y : ℚ} (h : x * 2 ^ F.prec ≤ y) : x ≤ roundoff F * y := by
  unfold roundoff
  have hp : (0 : ℚ) < 2 ^ F.prec := by positivity
  rw [one_div, ← div_eq_inv_mul, le_div_iff₀ hp]
  exact h

/-- The error of adding up. -/
theorem accumulate_error (hF : Fmt.Proper F) : ∀ (xs : List Fl) (acc : Fl), (∀ x ∈ xs, Finite F x) → Finite F acc →
    (|val acc| + absSum (xs.map val)) * (1 + roundoff F) ^ xs.length ≤ greatest F →
    Finite F (accumulateF F nan xs acc) ∧
      |val (accumulateF F nan xs acc) - (val acc + (xs.map val).sum)| ≤
        (|val acc| + absSum (xs.map val)) * ((1 + roundoff F) ^ xs.length - 1)
  | [], acc, _, ha, _ => by
    refine ⟨ha, ?_⟩
    simp [accumulateF]
  | x :: rest, acc, hx, ha, hg => by
    have hu := roundoff_nonneg (F := F)
    have hP := one_le_pow_roundoff (F := F) rest.length
    simp only [List.map_cons, absSum_cons, List.length_cons, pow_succ, List.sum_cons] at hg ⊢
    have hr0 := absSum_nonneg (rest.map val)
    have h1 : |val acc + val x| ≤ |val acc| + |val x| := abs_add_le _ _
    have hnn : 0 ≤ |val acc| + |val x| := by positivity
    have hPu : 1 ≤ (1 + roundoff F) ^ rest.length * (1 + roundoff F) := by nlinarith
    have hq : |val acc + val x| ≤ greatest F := by
      refine le_trans ?_ hg
      nlinarith
    obtain ⟨a1, a2, _⟩ := add_fin (nan := nan) hF ha (hx x (by simp)) hq
    have a3 := le_roundoff a2
    generalize hA : Fl.add F nan acc x = acc' at a1 a3
    have h2 : |val acc'| ≤ (1 + roundoff F) * (|val acc| + |val x|) := by
      have : |val acc'| ≤ |val acc' - (val acc + val x)| + |val acc + val x| := by
        have := abs_add_le (val acc' - (val acc + val x)) (val acc + val x)
        simpa using this
      nlinarith
    have hg' : (|val acc'| + absSum (rest.map val)) * (1 + roundoff F) ^ rest.length ≤ greatest F := by
      refine le_trans ?_ hg
      have : |val acc'| + absSum (rest.map val) ≤ (1 + roundoff F) * (|val acc| + (|val x| + absSum (rest.map val))) := by nlinarith
      calc _ ≤ ((1 + roundoff F) * (|val acc| + (|val x| + absSum (rest.map val)))) * (1 + roundoff F) ^ rest.length :=
            mul_le_mul_of_nonneg_right this (by linarith)
        _ = _ := by ring
    obtain ⟨i1, i2⟩ := accumulate_error hF rest acc' (fun y hy => hx y (by simp [hy])) a1 hg'
    simp only [accumulateF, hA]
    refine ⟨i1, ?_⟩
    generalize accumulateF F nan rest acc' = res at i1 i2 ⊢
    generalize (1 + roundoff F) ^ rest.length = B at *
    generalize absSum (rest.map val) = r at *
    generalize (rest.map val).sum = S at *
    have hsplit : |val res - (val acc + (val x + S))| ≤ |val res - (val acc' + S)| + |val acc' - (val acc + val x)| := by
      have := abs_add_le (val res - (val acc' + S)) (val acc' - (val acc + val x))
      have he : val res - (val acc' + S) + (val acc' - (val acc + val x)) = val res - (val acc + (val x + S)) := by ring
      rwa [he] at this
    have h3 : roundoff F * |val acc + val x| ≤ roundoff F * (|val acc| + |val x|) := mul_le_mul_of_nonneg_left h1 hu
    have h4 : (|val acc'| + r) * (B - 1) ≤ ((1 + roundoff F) * (|val acc| + |val x|) + r) * (B - 1) :=
      mul_le_mul_of_nonneg_right (by linarith) (by linarith)
    have h5 : 0 ≤ roundoff F * r * B := by positivity
    nlinarith

/-- A whole number of at most `2^prec` belongs to the format. -/
theorem member_whole (hF : Fmt.Proper F) (h0 : F.emin ≤ 0) {z : Int} (hz : z.natAbs ≤ 2 ^ F.prec) : Member F |(z : ℚ)| := by
  have := member_top hF h0 hz
  have he : |(z : ℚ)| = mag z.natAbs 0 := by
    unfold mag
    rw [zpow_zero, mul_one, Nat.cast_natAbs, Int.cast_abs]
  rwa [he]

theorem natAbs_le_greatest (h1 : 0 < F.emax) (hp : 2 ≤ F.prec) {z : Int} (hz : z.natAbs ≤ 2 ^ F.prec) : |(z : ℚ)| ≤ greatest F := by
  have he : |(z : ℚ)| = (z.natAbs : ℚ) := by rw [Nat.cast_natAbs, Int.cast_abs]
  rw [he]
  unfold greatest mag
  have h2 : (z.natAbs : ℚ) ≤ 2 ^ F.prec := by exact_mod_cast hz
  have h3 : (2 : ℚ) ≤ 2 ^ F.emax := by
    calc (2 : ℚ) = 2 ^ (1 : Int) := by norm_num
      _ ≤ 2 ^ F.emax := zpow_le_zpow_right₀ (by norm_num) (by omega)
  have h4 : (1 : Nat) ≤ 2 ^ F.prec := Nat.one_le_two_pow
  have h5 : (4 : ℚ) ≤ 2 ^ F.prec := by
    calc (4 : ℚ) = 2 ^ 2 := by norm_num
      _ ≤ 2 ^ F.prec := pow_le_pow_right₀ (by norm_num) hp
  push_cast [Nat.cast_sub h4]
  nlinarith

/-- Whole numbers are added up exactly as long as they are small. -/
theorem accumulate_whole (hF : Fmt.Proper F) (h0 : F.emin ≤ 0) (h1 : 0 < F.emax) : ∀ (xs : List Fl) (zs : List Int) (acc : Fl) (a : Int),
    Forall2 (fun x (z : Int) => Finite F x ∧ val x = z) xs zs → Finite F acc → val acc = a →
    a.natAbs + (zs.map Int.natAbs).sum ≤ 2 ^ F.prec →
    Finite F (accumulateF F nan xs acc) ∧ val (accumulateF F nan xs acc) = ((a + zs.sum : Int) : ℚ)
  | _, _, acc, a, .nil, ha, hv, _ => by
    refine ⟨ha, ?_⟩
    simpa [accumulateF] using hv
  | _, _, acc, a, .cons (a := x) (b := z) hxz hrest, ha, hv, hs => by
    simp only [List.map_cons, List.sum_cons] at hs ⊢
    have hb : (a + z).natAbs ≤ 2 ^ F.prec := by omega
    have hq : val acc + val x = ((a + z : Int) : ℚ) := by rw [hv, hxz.2]; push_cast; ring
    obtain ⟨a1, _, a3⟩ := add_fin (nan := nan) hF ha hxz.1 (by rw [hq]; exact natAbs_le_greatest h1 hF.1 hb)
    rw [hq] at a3
    have hacc := a3 (member_whole hF h0 hb)
    obtain ⟨i1, i2⟩ := accumulate_whole hF h0 h1 _ _ _ (a + z) hrest a1 hacc (by omega)
    refine ⟨i1, ?_⟩
    rw [show a + (z + _) = a + z + _ from (Int.add_assoc ..).symm]
    exact i2

/-- The text of a result is accurate. -/
theorem text_accuracy (name : Bytes) {x : Fl} (hx : Finite F x) :
    ∃ r, ReadsNumber ((floatConv name (lib F tiny)).toString x) r ∧ |r - val x| ≤ 1 / 10 ^ 6 + 5 / 10 ^ 6 * |val x| := by
  obtain ⟨neg, m, e, rfl, _⟩ := hx
  have hm := mag_nonneg m e
  rw [val_fin, abs_finVal]
  rcases C69_accuracy (F := F) (tiny := tiny) (neg := neg) name m e with ⟨h1, h2⟩ | ⟨q, h1, h2⟩
  · refine ⟨0, ?_, ?_⟩
    · rw [h2]
      exact ⟨false, 0, floatText_signed (neg := false) word_zero, rfl⟩
    · rw [zero_sub, abs_neg, abs_finVal]
      linarith
  · exact ⟨q, h1, by linarith⟩

theorem natDec_zeros (n : Nat) (hn : 0 < n) (j : Nat) : natDec (n * 10 ^ j) = natDec n ++ List.replicate j 48 := by
  have aux : ∀ fuel n, n < fuel → ∀ fuel', n < fuel' → natDecAux fuel n = natDecAux fuel' n := by
    intro fuel
    induction fuel with
    | zero => intro n h; omega
    | succ fuel ih =>
      intro n h fuel' h'
      obtain ⟨g, rfl⟩ : ∃ g, fuel' = g + 1 := ⟨fuel' - 1, by omega⟩
      simp only [natDecAux]
      split
      · rfl
      · rw [ih (n / 10) (by omega) g (by omega)]
  have step : ∀ k, 0 < k → natDec (k * 10) = natDec k ++ [48] := by
    intro k hk
    unfold natDec
    conv => lhs; rw [natDecAux]
    rw [if_neg (by omega), show k * 10 / 10 = k by omega, show k * 10 % 10 = 0 by omega, aux (k * 10) k (by omega) (k + 1) (by omega)]
    rfl
  induction j with
  | zero => simp
  | succ j ih =>
    have hpos : 0 < n * 10 ^ j := by positivity
    rw [pow_succ, ← mul_assoc, step _ hpos, ih, List.append_assoc, ← List.replicate_succ']

theorem strip_replicate (j : Nat) : strip (List.replicate j 48) = [] := by
  unfold strip
  rw [List.reverse_replicate]
  induction j with
  | zero => rfl
  | succ j ih =>
    rw [List.replicate_succ, List.dropWhile_cons]
    simp

/-- The text of a whole number of at most six digits. -/
theorem toString_whole (name : Bytes) {x : Fl} (hx : Finite F x) {z : Int} (hv : val x = z) (hz : z.natAbs ≤ 999999) :
    (floatConv name (lib F tiny)).toString x = intDec z := by
  obtain ⟨neg, m, e, rfl, _⟩ := hx
  have hmag : mag m e = (z.natAbs : ℚ) := by
    rw [← abs_finVal neg, ← val_fin, hv, Nat.cast_natAbs, Int.cast_abs]
  rcases Nat.eq_zero_or_pos z.natAbs with h0 | h0
  · have hz0 : z = 0 := by omega
    rw [toString_zero, hz0]
    · decide
    · rw [almostZero_iff, hmag, h0, bound_mag]
      norm_num
  · have hnz : almostZero (.fin neg m e) = false := by
      rw [Bool.eq_false_iff, ne_eq, almostZero_iff, hmag, bound_mag, not_lt]
      have : (1 : ℚ) ≤ z.natAbs := by exact_mod_cast h0
      refine le_trans ?_ this
      norm_num
    have hm : 0 < m := by
      rcases Nat.eq_zero_or_pos m with h | h
      · subst h
        have hz0 : (z.natAbs : ℚ) = 0 := by rw [← hmag]; simp [mag]
        have : z.natAbs = 0 := by exact_mod_cast hz0
        omega
      · exact h
    obtain ⟨l1, l2, l3⟩ := natDec_length z.natAbs
    have l3 := l3 h0
    generalize hn : z.natAbs = n at *
    generalize hl : (natDec n).length = l at *
    have hl6 : l ≤ 6 := by
      by_contra hc
      have : 10 ^ 6 ≤ 10 ^ (l - 1) := Nat.pow_le_pow_right (by norm_num) (by omega)
      omega
    have hD : n * 10 ^ (6 - l) * 10 ^ (l - 1) = n * 10 ^ 5 := by
      rw [mul_assoc, ← pow_add]
      congr 2
      omega
    have h5 : 10 ^ 5 ≤ n * 10 ^ (6 - l) := by
      have : 10 ^ (l - 1) * 10 ^ (6 - l) ≤ n * 10 ^ (6 - l) := Nat.mul_le_mul_right _ l3
      rw [← pow_add, show l - 1 + (6 - l) = 5 by omega] at this
      exact this
    have h6 : n * 10 ^ (6 - l) < 10 ^ 6 := by
      have : n * 10 ^ (6 - l) < 10 ^ l * 10 ^ (6 - l) := Nat.mul_lt_mul_of_pos_right l2 (by positivity)
      rw [← pow_add, show l + (6 - l) = 6 by omega] at this
      exact this
    have hval : ((n * 10 ^ (6 - l) : Nat) : ℚ) * 10 ^ (((l - 1 : Nat) : Int) - 5) = n := by
      have ten : (10 : ℚ) ≠ 0 := by norm_num
      push_cast
      rw [mul_assoc, ← zpow_natCast, ← zpow_add₀ ten, show ((6 - l : Nat) : Int) + (((l - 1 : Nat) : Int) - 5) = 0 by omega, zpow_zero,
        mul_one]
    rw [toString_print hnz, printG_near (D := n * 10 ^ (6 - l)) (X := ((l - 1 : Nat) : Int)) hm h5 h6 ?_]
    · have hlay : layoutG (natDec (n * 10 ^ (6 - l))) ((l - 1 : Nat) : Int) = natDec n := by
        unfold layoutG
        rw [if_pos (by omega), if_pos (by omega), natDec_zeros n h0, Int.toNat_natCast, show l - 1 + 1 = l by omega, ← hl, List.take_left,
          List.drop_left]
        unfold fraction
        rw [if_pos (strip_replicate _), List.append_nil]
      rw [hlay]
      have hsgn : finVal neg m e = z := by rw [← val_fin, hv]
      unfold finVal at hsgn
      rw [hmag] at hsgn
      cases neg with
      | false =>
        simp only [Bool.false_eq_true, if_false] at hsgn
        have : z = (n : Int) := by exact_mod_cast hsgn.symm
        rw [this]
        rfl
      | true =>
        simp only [if_true] at hsgn
        have hz' : z = -(n : Int) := by exact_mod_cast hsgn.symm
        obtain ⟨k, rfl⟩ : ∃ k, n = k + 1 := ⟨n - 1, by omega⟩
        rw [hz', show -((k + 1 : Nat) : Int) = Int.negSucc k from rfl]
        rfl
    · rw [hmag, hval, sub_self, abs_zero, zero_mul]
      exact_mod_cast h0

theorem number_nonneg {t : Bytes} {q : ℚ} (h : FloatText t neg (.number q)) : 0 ≤ q := by
  obtain ⟨_, _, w, _, _, _, hw⟩ := h
  cases hw <;> positivity

/-- A text of a number is accepted, and the number is rounded. -/
theorem read_error (hF : Fmt.Proper F) (name : Bytes) {t : Bytes} {q : ℚ} (h : ReadsNumber t q) (hq : NotTiny F q) (hg : |q| ≤ greatest F) :
    ∃ x, (floatConv name (lib F tiny)).fromString ⟨[t]⟩ = .ok (.ok x) ∧ Finite F x ∧ |val x - q| ≤ roundoff F * |q| ∧
      (Member F |q| → val x = q) := by
  obtain ⟨neg, p, ht, rfl⟩ := h
  have hp := number_nonneg ht
  have habs : |if neg then -p else p| = p := by cases neg <;> simp [abs_of_nonneg hp]
  unfold NotTiny at hq
  rw [habs] at hq hg ⊢
  obtain ⟨m, e, hN⟩ := nearest_exists hF hp
  have he := nearest_fits hF hN hg
  have hx := C68_accept (tiny := tiny) hF name ht hN he (hq.imp id fun h => (nearest_member hN h).symm)
  refine ⟨_, hx, ⟨_, _, _, rfl, hN.stored, he⟩, ?_, ?_⟩
  · have hd : |val (.fin neg m e) - if neg then -p else p| = |mag m e - p| := by
      rw [val_fin]
      unfold finVal
      cases neg
      · rfl
      · simp only [if_true]
        rw [show -mag m e - -p = -(mag m e - p) by ring, abs_neg]
    rw [hd]
    rcases hq with hq | hq
    · exact le_roundoff (nearest_error hF hN hq)
    · rw [nearest_member hN hq, sub_self, abs_zero]
      exact mul_nonneg roundoff_nonneg hp
  · intro hm
    rw [val_fin, finVal, nearest_member hN hm]

/-- The texts of some numbers. -/
theorem reads_error (hF : Fmt.Proper F) (name : Bytes) {ts : List Bytes} {qs : List ℚ} (h : Forall2 ReadsNumber ts qs)
    (hq : ∀ q ∈ qs, NotTiny F q ∧ |q| ≤ greatest F) :
    ∃ xs, Forall2 (fun t x => (floatConv name (lib F tiny)).fromString ⟨[t]⟩ = .ok (.ok x)) ts xs ∧ xs.length = qs.length ∧
      (∀ x ∈ xs, Finite F x) ∧ absSum (xs.map val) ≤ (1 + roundoff F) * absSum qs ∧
      |(xs.map val).sum - qs.sum| ≤ roundoff F * absSum qs := by
  induction h with
  | nil => exact ⟨[], .nil, rfl, by simp, by simp [absSum], by simp [absSum]⟩
  | cons h hs ih =>
    rename_i t q ts qs
    obtain ⟨xs, i1, i2, i3, i4, i5⟩ := ih fun q hm => hq q (by simp [hm])
    obtain ⟨x, x1, x2, x3, _⟩ := read_error (tiny := tiny) hF name h (hq q (by simp)).1 (hq q (by simp)).2
    refine ⟨x :: xs, .cons x1 i1, by simp [i2], ?_, ?_, ?_⟩
    · intro y hy
      rcases List.mem_cons.1 hy with rfl | hy
      · exact x2
      · exact i3 y hy
    · simp only [List.map_cons, absSum_cons]
      have : |val x| ≤ |val x - q| + |q| := by simpa using abs_add_le (val x - q) q
      linarith
    · simp only [List.map_cons, List.sum_cons, absSum_cons]
      have := abs_add_le (val x - q) ((xs.map val).sum - qs.sum)
      rw [show val x + (xs.map val).sum - (q + qs.sum) = val x - q + ((xs.map val).sum - qs.sum) by ring]
      linarith

/-- The texts of some whole numbers. -/
theorem reads_whole (hF : Fmt.Proper F) (h0 : F.emin ≤ 0) (h1 : 0 < F.emax) (name : Bytes) {ts : List Bytes} {zs : List Int}
    (h : Forall2 (fun t (z : Int) => ReadsNumber t z) ts zs) (hz : ∀ z ∈ zs, z.natAbs ≤ 2 ^ F.prec) :
    ∃ xs, Forall2 (fun t x => (floatConv name (lib F tiny)).fromString ⟨[t]⟩ = .ok (.ok x)) ts xs ∧
      Forall2 (fun x (z : Int) => Finite F x ∧ val x = z) xs zs := by
  induction h with
  | nil => exact ⟨[], .nil, .nil⟩
  | cons h hs ih =>
    rename_i t z ts zs
    obtain ⟨xs, i1, i2⟩ := ih fun z hm => hz z (by simp [hm])
    have hm := member_whole hF h0 (hz z (by simp))
    obtain ⟨x, x1, x2, _, x3⟩ := read_error (tiny := tiny) hF name h (.inr hm) (natAbs_le_greatest h1 hF.1 (hz z (by simp)))
    exact ⟨x :: xs, .cons x1 i1, .cons ⟨x2, x3 hm⟩ i2⟩

theorem zero_finite (hF : Fmt.Proper F) (s : Bool) : Finite F (.fin s 0 F.emin) :=
  ⟨_, _, _, rfl, ⟨Nat.two_pow_pos _, le_refl _, .inr rfl⟩, hF.2⟩

theorem val_zero (s : Bool) : val (.fin s 0 F.emin) = 0 := by
  rw [val_fin]
  unfold finVal mag
  cases s <;> simp

/-- The error of adding up numbers that were read and printing the sum. -/
theorem sum_error (hF : Fmt.Proper F) (name : Bytes) {ts : List Bytes} {qs : List ℚ} (h : Forall2 ReadsNumber ts qs)
    (hq : ∀ q ∈ qs, NotTiny F q) (hg : absSum qs * (1 + roundoff F) ^ (qs.length + 1) ≤ greatest F) :
    ∃ xs, Forall2 (fun t x => (floatConv name (lib F tiny)).fromString ⟨[t]⟩ = .ok (.ok x)) ts xs ∧
      ∃ r, ReadsNumber ((floatConv name (lib F tiny)).toString (accumulateF F nan xs (.fin false 0 F.emin))) r ∧
        |r - qs.sum| ≤ absSum qs * ((1 + 5 / 10 ^ 6) * (1 + roundoff F) ^ (qs.length + 1) - 1) + 1 / 10 ^ 6 := by
  have hu := roundoff_nonneg (F := F)
  have hQ := absSum_nonneg qs
  have hP := one_le_pow_roundoff (F := F) qs.length
  rw [pow_succ (1 + roundoff F)] at hg ⊢
  have e4 := abs_sum_le qs
  have hmem : ∀ q ∈ qs, |q| ≤ absSum qs := by
    intro q hm
    unfold absSum
    refine List.single_le_sum ?_ _ (List.mem_map.2 ⟨q, hm, rfl⟩)
    intro y hy
    obtain ⟨z, _, rfl⟩ := List.mem_map.1 hy
    exact abs_nonneg _
  generalize hB : (1 + roundoff F) ^ qs.length = B at *
  have hBu : 1 ≤ B * (1 + roundoff F) := by nlinarith
  have hg1 : absSum qs ≤ greatest F := le_trans (by nlinarith) hg
  obtain ⟨xs, h1, h2, h3, h4, h5⟩ := reads_error (tiny := tiny) hF name h fun q hm => ⟨hq q hm, (hmem q hm).trans hg1⟩
  refine ⟨xs, h1, ?_⟩
  have hval0 : val (.fin false 0 F.emin) = 0 := val_zero false
  have hb : absSum (xs.map val) * B ≤ (1 + roundoff F) * absSum qs * B := mul_le_mul_of_nonneg_right h4 (by linarith)
  obtain ⟨a1, a2⟩ := accumulate_error (nan := nan) hF xs (.fin false 0 F.emin) h3 (zero_finite hF false) (by
    rw [hval0, abs_zero, zero_add, h2, hB]
    refine hb.trans (le_trans (le_of_eq ?_) hg)
    ring)
  rw [hval0, abs_zero, zero_add, zero_add, h2, hB] at a2
  obtain ⟨r, r1, r2⟩ := text_accuracy (tiny := tiny) name a1
  refine ⟨r, r1, ?_⟩
  generalize val (accumulateF F nan xs (.fin false 0 F.emin)) = y at *
  generalize (xs.map val).sum = X at *
  generalize absSum (xs.map val) = A at *
  generalize absSum qs = Q at *
  generalize roundoff F = u at *
  have e1 : |y - qs.sum| ≤ Q * (B * (1 + u) - 1) := by
    have e2 : |y - qs.sum| ≤ |y - X| + |X - qs.sum| := by
      have := abs_add_le (y - X) (X - qs.sum)
      rwa [show y - X + (X - qs.sum) = y - qs.sum by ring] at this
    have e3 : A * (B - 1) ≤ (1 + u) * Q * (B - 1) := mul_le_mul_of_nonneg_right h4 (by linarith)
    nlinarith
  have e5 : |y| ≤ Q * (B * (1 + u)) := by
    have : |y| ≤ |y - qs.sum| + |qs.sum| := by simpa using abs_add_le (y - qs.sum) qs.sum
    nlinarith
  have e6 : |r - qs.sum| ≤ |r - y| + |y - qs.sum| := by
    have := abs_add_le (r - y) (y - qs.sum)
    rwa [show r - y + (y - qs.sum) = r - qs.sum by ring] at this
  nlinarith

/-- The error of adding two numbers that were read and printing the sum. -/
theorem add_error (hF : Fmt.Proper F) (name : Bytes) {t t' : Bytes} {p q : ℚ} (hp : ReadsNumber t p) (hq : ReadsNumber t' q)
    (hp' : NotTiny F p) (hq' : NotTiny F q) (hg : (|p| + |q|) * (1 + roundoff F) ^ 2 ≤ greatest F) :
    ∃ x y, (floatConv name (lib F tiny)).fromString ⟨[t]⟩ = .ok (.ok x) ∧ (floatConv name (lib F tiny)).fromString ⟨[t']⟩ = .ok (.ok y) ∧
      ∃ r, ReadsNumber ((floatConv name (lib F tiny)).toString (add F nan x y)) r ∧
        |r - (p + q)| ≤ (|p| + |q|) * ((1 + 5 / 10 ^ 6) * (1 + roundoff F) ^ 2 - 1) + 1 / 10 ^ 6 := by
  have hu := roundoff_nonneg (F := F)
  have hp0 := abs_nonneg p
  have hq0 := abs_nonneg q
  have hB : 1 ≤ (1 + roundoff F) ^ 2 := one_le_pow_roundoff 2
  have hpg : |p| ≤ greatest F := le_trans (by nlinarith) hg
  have hqg : |q| ≤ greatest F := le_trans (by nlinarith) hg
  obtain ⟨x, x1, x2, x3, _⟩ := read_error (tiny := tiny) hF name hp hp' hpg
  obtain ⟨y, y1, y2, y3, _⟩ := read_error (tiny := tiny) hF name hq hq' hqg
  refine ⟨x, y, x1, y1, ?_⟩
  have e1 : |val x + val y - (p + q)| ≤ roundoff F * (|p| + |q|) := by
    have := abs_add_le (val x - p) (val y - q)
    rw [show val x - p + (val y - q) = val x + val y - (p + q) by ring] at this
    linarith
  have e2 : |val x + val y| ≤ (1 + roundoff F) * (|p| + |q|) := by
    have h1 : |val x + val y| ≤ |val x + val y - (p + q)| + |p + q| := by simpa using abs_add_le (val x + val y - (p + q)) (p + q)
    have h2 := abs_add_le p q
    linarith
  obtain ⟨a1, a2, _⟩ := add_fin (nan := nan) hF x2 y2 (e2.trans (le_trans (by
    have : 0 ≤ (|p| + |q|) * (1 + roundoff F) * roundoff F := by positivity
    nlinarith) hg))
  have a2 := le_roundoff a2
  obtain ⟨r, r1, r2⟩ := text_accuracy (tiny := tiny) name a1
  refine ⟨r, r1, ?_⟩
  generalize val (add F nan x y) = z at *
  generalize val x + val y = X at *
  generalize hQ : |p| + |q| = Q at *
  have hpq : |p + q| ≤ Q := hQ ▸ abs_add_le p q
  generalize p + q = T at *
  generalize roundoff F = u at *
  have e3 : |z - T| ≤ Q * ((1 + u) ^ 2 - 1) := by
    have h1 := abs_add_le (z - X) (X - T)
    rw [show z - X + (X - T) = z - T by ring] at h1
    have h2 : u * |X| ≤ u * ((1 + u) * Q) := mul_le_mul_of_nonneg_left e2 hu
    nlinarith
  have e4 : |z| ≤ Q * (1 + u) ^ 2 := by
    have : |z| ≤ |z - T| + |T| := by simpa using abs_add_le (z - T) T
    nlinarith
  have e5 := abs_add_le (r - z) (z - T)
  rw [show r - z + (z - T) = r - T by ring] at e5
  nlinarith

/-- Addition is commutative. -/
theorem add_comm_fin {a b : Fl} (ha : Finite F a) (hb : Finite F b) : add F nan a b = add F nan b a := by
  obtain ⟨s, m, e, rfl, _⟩ := ha
  obtain ⟨t, n, f, rfl, _⟩ := hb
  simp only [add, addFin]
  rw [min_comm f e, Int.add_comm, Bool.and_comm]

end Coil.Floats
