import Verif.Spec.Conv

/-! # `strtol` and decimal numerals -/

namespace Coil
open Spec

theorem countWhile_append {p : Byte → Bool} {a b : Bytes} (ha : ∀ c ∈ a, p c = true)
    (hb : ∀ c, b.head? = some c → p c = false) : countWhile p (a ++ b) = a.length := by
  induction a with
  | nil =>
    cases b with
    | nil => rfl
    | cons c b => simp [countWhile, hb c rfl]
  | cons c a ih =>
    simp [countWhile, ha c (by simp), ih (fun x hx => ha x (by simp [hx]))]

theorem countWhile_split (p : Byte → Bool) (s : Bytes) :
    ∃ a b, s = a ++ b ∧ (∀ c ∈ a, p c = true) ∧ (∀ c, b.head? = some c → p c = false) ∧
      countWhile p s = a.length := by
  induction s with
  | nil => exact ⟨[], [], rfl, by simp, by simp, rfl⟩
  | cons c s ih =>
    obtain ⟨a, b, rfl, h1, h2, h3⟩ := ih
    by_cases hc : p c = true
    · refine ⟨c :: a, b, rfl, ?_, h2, by simp [countWhile, hc, h3]⟩
      intro x hx
      rcases List.mem_cons.1 hx with rfl | hx
      · exact hc
      · exact h1 x hx
    · refine ⟨[], c :: (a ++ b), rfl, by simp, ?_, by simp [countWhile, hc]⟩
      intro x hx
      simp at hx
      subst hx
      simpa using hc

theorem isSpaceC_iff (c : Byte) : isSpaceC c = true ↔ CSpace c := by
  simp only [isSpaceC, CSpace, Bool.or_eq_true, Bool.and_eq_true, beq_iff_eq, decide_eq_true_eq,
    UInt8.le_iff_toNat_le, ← UInt8.toNat_inj]
  have h9 : UInt8.toNat 9 = 9 := rfl
  have h13 : UInt8.toNat 13 = 13 := rfl
  have h32 : UInt8.toNat 32 = 32 := rfl
  have h10 : UInt8.toNat 10 = 10 := rfl
  have h11 : UInt8.toNat 11 = 11 := rfl
  have h12 : UInt8.toNat 12 = 12 := rfl
  omega

theorem isDigit_iff (c : Byte) : isDigit c = true ↔ ∃ n, Digit c n := by
  simp only [isDigit, Bool.and_eq_true, decide_eq_true_eq, UInt8.le_iff_toNat_le]
  have h48 : UInt8.toNat 48 = 48 := rfl
  have h57 : UInt8.toNat 57 = 57 := rfl
  constructor
  · intro h
    exact ⟨c.toNat - 48, .mk (by omega) (by omega)⟩
  · rintro ⟨n, ⟨h1, h2⟩⟩
    omega

theorem digitsVal_nil (acc : Nat) : digitsVal acc [] = acc := rfl

theorem digitsVal_cons (acc : Nat) (c : Byte) (t : Bytes) :
    digitsVal acc (c :: t) = digitsVal (acc * 10 + (c.toNat - 48)) t := by
  unfold digitsVal
  rw [List.foldl_cons]

theorem digitsVal_append (acc : Nat) (a b : Bytes) :
    digitsVal acc (a ++ b) = digitsVal (digitsVal acc a) b := by
  induction a generalizing acc with
  | nil => rfl
  | cons c a ih => rw [List.cons_append, digitsVal_cons, digitsVal_cons, ih]

theorem decimal_digits {ds : Bytes} {m : Nat} (h : Decimal ds m) :
    ds ≠ [] ∧ (∀ c ∈ ds, isDigit c = true) ∧ digitsVal 0 ds = m := by
  induction h with
  | one hd =>
    refine ⟨by simp, ?_, ?_⟩
    · intro c hc
      simp at hc
      subst hc
      exact (isDigit_iff _).2 ⟨_, hd⟩
    · cases hd with
      | mk h1 h2 => simp only [digitsVal_cons, digitsVal_nil]; omega
  | @snoc ds m c n _ hd ih =>
    obtain ⟨i1, i2, i3⟩ := ih
    refine ⟨by simp, ?_, ?_⟩
    · intro x hx
      rcases List.mem_append.1 hx with hx | hx
      · exact i2 x hx
      · simp at hx
        subst hx
        exact (isDigit_iff _).2 ⟨_, hd⟩
    · rw [digitsVal_append, i3]
      cases hd with
      | mk h1 h2 => simp only [digitsVal_cons, digitsVal_nil]; omega

theorem decimal_of_digits {ds : Bytes} (hne : ds ≠ []) (h : ∀ c ∈ ds, isDigit c = true) :
    Decimal ds (digitsVal 0 ds) := by
  induction hn : ds.length generalizing ds with
  | zero => simp at hn; exact absurd hn hne
  | succ n ih =>
    rcases List.eq_nil_or_concat ds with rfl | ⟨as, c, hc⟩
    · exact absurd rfl hne
    · rw [List.concat_eq_append] at hc
      subst hc
      obtain ⟨k, hk⟩ := (isDigit_iff c).1 (h c (by simp))
      have hv : digitsVal 0 (as ++ [c]) = 10 * digitsVal 0 as + k := by
        rw [digitsVal_append]
        cases hk with
        | mk h1 h2 => simp only [digitsVal_cons, digitsVal_nil]; omega
      rw [hv]
      cases as with
      | nil => simpa only [digitsVal_nil, List.nil_append, Nat.mul_zero, Nat.zero_add] using Decimal.one hk
      | cons a as =>
        refine .snoc (ih (by simp) (fun x hx => h x ?_) ?_) hk
        · rw [List.mem_append]; exact .inl hx
        · simp at hn ⊢; omega

theorem digit_not_space {c : Byte} (h : isDigit c = true) : isSpaceC c = false := by
  obtain ⟨n, ⟨h1, h2⟩⟩ := (isDigit_iff c).1 h
  apply Bool.eq_false_iff.2
  intro hs
  have := (isSpaceC_iff c).1 hs
  simp only [CSpace, ← UInt8.toNat_inj] at this
  have h9 : UInt8.toNat 9 = 9 := rfl
  have h13 : UInt8.toNat 13 = 13 := rfl
  have h32 : UInt8.toNat 32 = 32 := rfl
  have h10 : UInt8.toNat 10 = 10 := rfl
  have h11 : UInt8.toNat 11 = 11 := rfl
  have h12 : UInt8.toNat 12 = 12 := rfl
  omega

theorem digit_not_sign {c : Byte} (h : isDigit c = true) : c ≠ 45 ∧ c ≠ 43 := by
  obtain ⟨n, ⟨h1, h2⟩⟩ := (isDigit_iff c).1 h
  simp only [ne_eq, ← UInt8.toNat_inj]
  have h9 : UInt8.toNat 45 = 45 := rfl
  have h13 : UInt8.toNat 43 = 43 := rfl
  omega

/-- The scan on a text in parts: what it finds, and where it stops. -/
theorem strtoScan_parts {ws sg ds rest : Bytes} {neg : Bool} (hws : ∀ c ∈ ws, isSpaceC c = true)
    (hsg : Sign sg neg) (hds : ∀ c ∈ ds, isDigit c = true) (hne : ds ≠ [])
    (hrest : ∀ c, rest.head? = some c → isDigit c = false) :
    strtoScan (ws ++ (sg ++ (ds ++ rest))) =
      some (neg, digitsVal 0 ds, ws.length + sg.length + ds.length) := by
  obtain ⟨d0, ds', rfl⟩ : ∃ d0 ds', ds = d0 :: ds' := by
    cases ds with
    | nil => exact absurd rfl hne
    | cons a b => exact ⟨a, b, rfl⟩
  have hd0 := hds d0 (by simp)
  have hsp := digit_not_space hd0
  obtain ⟨hm, hpl⟩ := digit_not_sign hd0
  have hcw : countWhile isSpaceC (ws ++ (sg ++ (d0 :: ds' ++ rest))) = ws.length := by
    apply countWhile_append hws
    intro c hc
    cases hsg with
    | none => simp at hc; subst hc; exact hsp
    | plus => simp at hc; subst hc; decide
    | minus => simp at hc; subst hc; decide
  have hcd : countWhile isDigit (d0 :: ds' ++ rest) = (d0 :: ds').length := countWhile_append hds hrest
  unfold strtoScan
  simp only [hcw, List.drop_left]
  cases hsg with
  | none =>
    simp only [List.nil_append, List.length_nil, Nat.add_zero]
    have h1 : (d0 :: ds' ++ rest).head? = some d0 := rfl
    simp only [h1, Option.some.injEq, hm, hpl, or_self, if_false, List.drop_zero, hcd, List.take_left]
    rw [if_neg (by simp)]
    simp [hm]
  | plus =>
    have h1 : ([43] ++ (d0 :: ds' ++ rest)).head? = some 43 := rfl
    have h2 : ([43] ++ (d0 :: ds' ++ rest)).drop 1 = d0 :: ds' ++ rest := rfl
    simp only [h1, or_true, if_true, h2, hcd, List.take_left]
    rw [if_neg (by simp)]
    simp
  | minus =>
    have h1 : ([45] ++ (d0 :: ds' ++ rest)).head? = some 45 := rfl
    have h2 : ([45] ++ (d0 :: ds' ++ rest)).drop 1 = d0 :: ds' ++ rest := rfl
    simp only [h1, true_or, if_true, h2, hcd, List.take_left]
    rw [if_neg (by simp)]
    simp

/-- Every text either has no number at the front, or splits into the parts. -/
theorem strtoScan_cases (s : Bytes) :
    strtoScan s = none ∨ ∃ ws sg ds rest neg, s = ws ++ (sg ++ (ds ++ rest)) ∧
      (∀ c ∈ ws, isSpaceC c = true) ∧ Sign sg neg ∧ (∀ c ∈ ds, isDigit c = true) ∧ ds ≠ [] ∧
      (∀ c, rest.head? = some c → isDigit c = false) := by
  obtain ⟨ws, s1, rfl, hw, hs1, hcw⟩ := countWhile_split isSpaceC s
  obtain ⟨sg, s2, neg, hsg, hsign, hhead⟩ : ∃ sg s2 neg, s1 = sg ++ s2 ∧ Sign sg neg ∧
      (if s1.head? = some 45 ∨ s1.head? = some 43 then 1 else 0) = sg.length := by
    cases s1 with
    | nil => exact ⟨[], [], false, rfl, .none, by simp⟩
    | cons c t =>
      by_cases h45 : c = 45
      · exact ⟨[45], t, true, by simp [h45], .minus, by simp [h45]⟩
      · by_cases h43 : c = 43
        · exact ⟨[43], t, false, by simp [h43], .plus, by simp [h43]⟩
        · exact ⟨[], c :: t, false, rfl, .none, by simp [h45, h43]⟩
  obtain ⟨ds, rest, rfl, hd, hr, hcd⟩ := countWhile_split isDigit s2
  by_cases hne : ds = []
  · left
    unfold strtoScan
    simp only [hcw, List.drop_left, hhead]
    rw [hsg, List.drop_left, hcd, hne]
    simp
  · exact .inr ⟨ws, sg, ds, rest, neg, by rw [hsg], hw, hsign, hd, hne, hr⟩

theorem strtoScan_stop_le {s : Bytes} {neg : Bool} {mag stop : Nat}
    (h : strtoScan s = some (neg, mag, stop)) : stop ≤ s.length := by
  rcases strtoScan_cases s with h0 | ⟨ws, sg, ds, rest, neg', rfl, h1, h2, h3, h4, h5⟩
  · simp [h0] at h
  · rw [strtoScan_parts h1 h2 h3 h4 h5] at h
    simp at h
    simp
    omega

/-- The scan uses the whole text exactly when it is a numeral. -/
theorem strtoScan_iff {s : Bytes} {neg : Bool} {mag : Nat} :
    strtoScan s = some (neg, mag, s.length) ↔ SignedNumeral s neg mag := by
  constructor
  · intro h
    rcases strtoScan_cases s with h0 | ⟨ws, sg, ds, rest, neg', rfl, h1, h2, h3, h4, h5⟩
    · simp [h0] at h
    · rw [strtoScan_parts h1 h2 h3 h4 h5] at h
      simp at h
      obtain ⟨rfl, rfl, h⟩ := h
      have : rest = [] := by
        cases rest with
        | nil => rfl
        | cons a b => simp at h; omega
      subst this
      exact ⟨ws, sg, ds, by simp, fun c hc => (isSpaceC_iff c).1 (h1 c hc), h2, decimal_of_digits h4 h3⟩
  · rintro ⟨ws, sg, ds, rfl, h1, h2, h3⟩
    obtain ⟨g1, g2, g3⟩ := decimal_digits h3
    have := strtoScan_parts (rest := []) (fun c hc => (isSpaceC_iff c).2 (h1 c hc)) h2 g2 g1 (by simp)
    simp only [List.append_nil] at this
    rw [this, g3]
    simp; omega

theorem signedNumeral_unique {s : Bytes} {neg neg' : Bool} {mag mag' : Nat} (h : SignedNumeral s neg mag)
    (h' : SignedNumeral s neg' mag') : neg = neg' ∧ mag = mag' := by
  rw [← strtoScan_iff] at h h'
  rw [h] at h'
  simp at h'
  exact h'

theorem signedNumeral_ne_nil {s : Bytes} {neg : Bool} {mag : Nat} (h : SignedNumeral s neg mag) : s ≠ [] := by
  obtain ⟨ws, sg, ds, rfl, _, _, h3⟩ := h
  have := (decimal_digits h3).1
  intro h0
  simp at h0
  exact this h0.2.2

theorem signedFromString_iff {bits : Nat} {s : Bytes} {z : Int} :
    signedFromString bits s = some z ↔ Numeral s z ∧ -(2 ^ (bits - 1) : Int) ≤ z ∧ z < 2 ^ (bits - 1) := by
  have hcast : ((2 ^ (bits - 1) : Nat) : Int) = (2 : Int) ^ (bits - 1) := by norm_cast
  constructor
  · intro h
    unfold signedFromString at h
    split at h
    · simp at h
    · rename_i hne
      simp only at h
      split at h
      · simp at h
      · rename_i herr
        split at h
        · rename_i hstop
          simp at h
          unfold strtol at h herr hstop
          cases hsc : strtoScan s with
          | none =>
            simp [hsc] at hstop
            exact absurd (List.length_eq_zero_iff.1 hstop.symm) hne
          | some r =>
            obtain ⟨neg, mag, stop⟩ := r
            simp only [hsc] at h herr hstop
            cases neg
            · by_cases hlt : mag < 2 ^ (bits - 1)
              · simp [hlt] at h hstop
                subst h
                subst hstop
                refine ⟨⟨false, mag, strtoScan_iff.1 hsc, by simp⟩, ?_, ?_⟩
                · have : (0 : Int) ≤ (2 : Int) ^ (bits - 1) := by rw [← hcast]; omega
                  omega
                · rw [← hcast]; omega
              · simp [hlt] at herr
            · by_cases hle : mag ≤ 2 ^ (bits - 1)
              · simp [hle] at h hstop
                subst h
                subst hstop
                refine ⟨⟨true, mag, strtoScan_iff.1 hsc, by simp⟩, ?_, ?_⟩
                · rw [← hcast]; omega
                · have : 0 < (2 : Nat) ^ (bits - 1) := Nat.two_pow_pos _
                  rw [← hcast]; omega
              · simp [hle] at herr
        · simp at h
  · rintro ⟨⟨neg, mag, hn, rfl⟩, h1, h2⟩
    have hne := signedNumeral_ne_nil hn
    unfold signedFromString
    rw [if_neg hne]
    rw [← hcast] at h1 h2
    unfold strtol
    rw [strtoScan_iff.2 hn]
    cases neg
    · simp at h1 h2
      have h2' : mag < 2 ^ (bits - 1) := by omega
      simp [h2']
    · simp at h1 h2
      have h2' : mag ≤ 2 ^ (bits - 1) := by omega
      simp [h2']

theorem unsignedFromString_iff {bits : Nat} {s : Bytes} {z : Int} :
    unsignedFromString bits s = some z ↔ s.head? ≠ some 45 ∧ ∃ neg mag, SignedNumeral s neg mag ∧
      mag < 2 ^ bits ∧ z = if neg then (((2 ^ bits - mag) % 2 ^ bits : Nat) : Int) else (mag : Int) := by
  constructor
  · intro h
    unfold unsignedFromString at h
    split at h
    · simp at h
    · rename_i hne
      split at h
      · simp at h
      · rename_i hminus
        refine ⟨hminus, ?_⟩
        simp only at h
        split at h
        · simp at h
        · rename_i herr
          split at h
          · rename_i hstop
            simp at h
            unfold strtoul at h herr hstop
            cases hsc : strtoScan s with
            | none =>
              simp [hsc] at hstop
              exact absurd (List.length_eq_zero_iff.1 hstop.symm) hne
            | some r =>
              obtain ⟨neg, mag, stop⟩ := r
              simp only [hsc] at h herr hstop
              by_cases hlt : mag < 2 ^ bits
              · rw [if_pos hlt] at hstop h
                simp only at hstop h
                subst hstop
                refine ⟨neg, mag, strtoScan_iff.1 hsc, hlt, ?_⟩
                rw [← h]
                cases neg <;> simp
              · simp [hlt] at herr
          · simp at h
  · rintro ⟨hminus, neg, mag, hn, hlt, rfl⟩
    unfold unsignedFromString
    rw [if_neg (signedNumeral_ne_nil hn), if_neg hminus]
    unfold strtoul
    rw [strtoScan_iff.2 hn]
    simp only [hlt, if_true]
    cases neg <;> simp

/-! ## Printing -/

theorem toUInt8_digit {n : Nat} (h : n < 10) : Digit (48 + n).toUInt8 n := by
  refine .mk h ?_
  simp [Nat.toUInt8]
  omega

theorem natDecAux_decimal (fuel n : Nat) (h : n < fuel) : Decimal (natDecAux fuel n) n := by
  induction fuel generalizing n with
  | zero => omega
  | succ fuel ih =>
    simp only [natDecAux]
    split
    · exact .one (toUInt8_digit (by assumption))
    · have h1 := ih (n / 10) (by omega)
      have h2 := Decimal.snoc h1 (toUInt8_digit (Nat.mod_lt n (by omega : 10 > 0)))
      have e : 10 * (n / 10) + n % 10 = n := by omega
      rwa [e] at h2

theorem natDec_decimal (n : Nat) : Decimal (natDec n) n := natDecAux_decimal _ _ (by omega)

theorem natDec_numeral (n : Nat) : SignedNumeral (natDec n) false n :=
  ⟨[], [], natDec n, by simp, by simp, .none, natDec_decimal n⟩

theorem intDec_numeral (z : Int) : Numeral (intDec z) z := by
  cases z with
  | ofNat n => exact ⟨false, n, natDec_numeral n, by simp⟩
  | negSucc n =>
    refine ⟨true, n + 1, ⟨[], [45], natDec (n + 1), by simp [intDec], by simp, .minus, natDec_decimal _⟩, ?_⟩
    simp
    omega

theorem natDec_head {n : Nat} : (natDec n).head? ≠ some 45 := by
  obtain ⟨h1, h2, _⟩ := decimal_digits (natDec_decimal n)
  cases hd : natDec n with
  | nil => exact absurd hd h1
  | cons c t =>
    simp
    exact (digit_not_sign (h2 c (by simp [hd]))).1

end Coil
