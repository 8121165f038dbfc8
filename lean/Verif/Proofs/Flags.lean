import Verif.Proofs.Enums

/-! # Lemmas on flags -/

namespace Coil
open Spec

/-! ## Bits of numbers -/

instance (z : Int) (k : Nat) : Decidable (Bit z k) := by unfold Bit; infer_instance

theorem pow_pos (k : Nat) : (0 : Int) < 2 ^ k := Int.pow_pos (by omega)

theorem bit_ofInt {w k : Nat} (z : Int) (hk : k < w) : (BitVec.ofInt w z).getLsbD k = true ↔ Bit z k := by
  unfold Bit
  rw [BitVec.getLsbD, BitVec.toNat_ofInt, Nat.testBit_eq_decide_div_mod_eq, decide_eq_true_eq]
  have hp := pow_pos w
  have hc : ((2 ^ w : Nat) : Int) = 2 ^ w := by simp
  rw [hc]
  have h0 : 0 ≤ z % 2 ^ w := Int.emod_nonneg _ (by omega)
  have e : 2 ^ w = (2 : Int) ^ k * 2 ^ (w - k) := by rw [← Int.pow_add, show k + (w - k) = w by omega]
  have h1 : z / 2 ^ k = (z % 2 ^ w) / 2 ^ k + 2 ^ (w - k) * (z / 2 ^ w) := by
    conv => lhs; rw [← Int.emod_add_mul_ediv z (2 ^ w)]
    rw [show (2 : Int) ^ w * (z / 2 ^ w) = 2 ^ k * (2 ^ (w - k) * (z / 2 ^ w)) by rw [e, Int.mul_assoc]]
    rw [Int.add_mul_ediv_left _ _ (by have := pow_pos k; omega)]
  rw [h1, show w - k = (w - k - 1) + 1 by omega, Int.pow_succ,
    show (2 : Int) ^ (w - k - 1) * 2 * (z / 2 ^ w) = 2 * (2 ^ (w - k - 1) * (z / 2 ^ w)) by
      rw [Int.mul_comm (2 ^ (w - k - 1)) 2, Int.mul_assoc], Int.add_mul_emod_self_left]
  have h2 : (((z % 2 ^ w).toNat / 2 ^ k % 2 : Nat) : Int) = (z % 2 ^ w) / 2 ^ k % 2 := by
    rw [Int.natCast_emod, Int.natCast_ediv, Int.toNat_of_nonneg h0, Int.natCast_pow]
    rfl
  omega

theorem bit_shift (z : Int) (m k : Nat) : Bit (z / 2 ^ m) k ↔ Bit z (m + k) := by
  unfold Bit
  rw [Int.ediv_ediv_of_nonneg (Int.le_of_lt (pow_pos m)), ← Int.pow_add]

theorem bit_not (z : Int) (k : Nat) : Bit (-1 - z) k ↔ ¬ Bit z k := by
  unfold Bit
  have hp := pow_pos k
  have e : (-1 - z) / 2 ^ k = -1 - z / 2 ^ k := by
    have h1 := Int.emod_add_mul_ediv z (2 ^ k)
    have h2 := Int.emod_lt_of_pos z hp
    have h3 := Int.emod_nonneg z (by omega : (2 : Int) ^ k ≠ 0)
    rw [show -1 - z = (2 ^ k - 1 - z % 2 ^ k) + 2 ^ k * (-1 - z / 2 ^ k) by
      rw [Int.mul_sub]; omega]
    rw [Int.add_mul_ediv_left _ _ (by omega), Int.ediv_eq_zero_of_lt (by omega) (by omega)]
    omega
  rw [e]
  omega

theorem bit_negative {z : Int} {m k : Nat} (h : -(2 ^ m : Nat) ≤ z) (h0 : z < 0) (hk : m ≤ k) : Bit z k := by
  unfold Bit
  have hle : 2 ^ m ≤ 2 ^ k := Nat.pow_le_pow_right (by omega) hk
  have hc : ((2 ^ k : Nat) : Int) = 2 ^ k := by simp
  have hp := pow_pos k
  have : z / 2 ^ k = -1 := by
    rw [show z = (z + 2 ^ k) + 2 ^ k * (-1) by omega, Int.add_mul_ediv_left _ _ (by omega),
      Int.ediv_eq_zero_of_lt (by omega) (by omega)]
    rfl
  rw [this]
  rfl

theorem bit_small {z : Int} {m k : Nat} (h : z < (2 ^ m : Nat)) (h0 : 0 ≤ z) (hk : m ≤ k) : ¬ Bit z k := by
  have h1 := bit_negative (z := -1 - z) (m := m) (k := k) (by omega) (by omega) hk
  rw [bit_not] at h1
  exact h1

theorem zero_of_no_bits {z : Int} (h : ∀ k, ¬ Bit z k) : z = 0 := by
  have hb : ∃ m : Nat, -(2 ^ m : Nat) ≤ z ∧ z < (2 ^ m : Nat) :=
    ⟨z.natAbs, by have := @Nat.lt_two_pow_self z.natAbs; omega, by have := @Nat.lt_two_pow_self z.natAbs; omega⟩
  obtain ⟨m, h1, h2⟩ := hb
  by_cases h0 : z < 0
  · exact absurd (bit_negative h1 h0 (Nat.le_refl m)) (h m)
  · have : z.toNat = 0 := by
      apply Nat.eq_of_testBit_eq
      intro k
      rw [Nat.zero_testBit, Nat.testBit_eq_decide_div_mod_eq, decide_eq_false_iff_not]
      intro hk
      refine h k ?_
      unfold Bit
      have : ((z.toNat / 2 ^ k % 2 : Nat) : Int) = z / 2 ^ k % 2 := by
        rw [Int.natCast_emod, Int.natCast_ediv, Int.toNat_of_nonneg (by omega), Int.natCast_pow]
        rfl
      omega
    omega

theorem neg_one_of_all_bits {z : Int} (h : ∀ k, Bit z k) : z = -1 := by
  have := zero_of_no_bits (z := -1 - z) fun k => by rw [bit_not]; simpa using h k
  omega

/-- The numbers of `m` bits and a sign are those whose higher bits are all the same. -/
theorem magnitude_iff {z : Int} {m : Nat} :
    (-(2 ^ m : Nat) ≤ z ∧ z < (2 ^ m : Nat)) ↔ ((∀ k, m ≤ k → Bit z k) ∨ ∀ k, m ≤ k → ¬ Bit z k) := by
  constructor
  · rintro ⟨h1, h2⟩
    by_cases h0 : z < 0
    · exact .inl fun k hk => bit_negative h1 h0 hk
    · exact .inr fun k hk => bit_small h2 (by omega) hk
  · have hp := pow_pos m
    have hc : ((2 ^ m : Nat) : Int) = 2 ^ m := by simp
    have e := Int.emod_add_mul_ediv z (2 ^ m)
    have h2 := Int.emod_lt_of_pos z hp
    have h3 := Int.emod_nonneg z (by omega : (2 : Int) ^ m ≠ 0)
    rintro (h | h)
    · have : z / 2 ^ m = -1 := neg_one_of_all_bits fun k => by rw [bit_shift]; exact h _ (by omega)
      rw [this] at e
      omega
    · have : z / 2 ^ m = 0 := zero_of_no_bits fun k => by rw [bit_shift]; exact h _ (by omega)
      rw [this] at e
      omega

theorem negative_iff {z : Int} {m : Nat} (h : -(2 ^ m : Nat) ≤ z ∧ z < (2 ^ m : Nat)) {k : Nat} (hk : m ≤ k) :
    Bit z k ↔ z < 0 := by
  constructor
  · intro hb
    refine Decidable.by_contra fun h0 => ?_
    exact bit_small h.2 (by omega) hk hb
  · exact fun h0 => bit_negative h.1 h0 hk

theorem bit_pow (j k : Nat) : Bit (2 ^ j : Nat) k ↔ k = j := by
  have : Bit ((2 ^ j : Nat) : Int) k ↔ (2 ^ j).testBit k = true := by
    unfold Bit
    rw [Nat.testBit_eq_decide_div_mod_eq, decide_eq_true_eq]
    have : ((2 ^ j / 2 ^ k % 2 : Nat) : Int) = ((2 ^ j : Nat) : Int) / 2 ^ k % 2 := by
      rw [Int.natCast_emod, Int.natCast_ediv, Int.natCast_pow 2 k]
      rfl
    omega
  rw [this, Nat.testBit_two_pow]
  simp only [decide_eq_true_eq]
  omega

theorem bit_zero (k : Nat) : ¬ Bit 0 k := by simp [Bit]

/-! ## Bits of values of a type -/

section
variable (pl : Platform) (t : IntType)

theorem bits_pos : 0 < t.bits pl := by
  obtain ⟨a, b, c, d⟩ := pl
  cases t <;> cases a <;> simp [IntType.bits, Platform.longBits]

theorem digits_le : t.digits pl ≤ t.bits pl ∧ (t.signed pl = true → t.digits pl + 1 = t.bits pl) ∧
    (t.signed pl = false → t.digits pl = t.bits pl) := by
  have := bits_pos pl t
  unfold IntType.digits
  cases t.signed pl <;> simp <;> omega

theorem inRange_iff (z : Int) : InRange pl t z ↔
    (-(2 ^ t.digits pl : Nat) ≤ z ∧ z < (2 ^ t.digits pl : Nat)) ∧ (t.signed pl = false → 0 ≤ z) := by
  unfold InRange
  rw [← least_eq, ← greatest_eq]
  unfold IntType.least IntType.greatest
  have := Nat.two_pow_pos (t.digits pl)
  cases t.signed pl <;> simp <;> omega

theorem inRange_zero : InRange pl t 0 := by
  have := lo_nonpos pl t
  unfold InRange
  omega

theorem toBits_ofBits (b : BitVec (t.bits pl)) : t.toBits pl (t.ofBits pl b) = b := by
  unfold IntType.toBits IntType.ofBits
  split
  · exact BitVec.ofInt_toInt
  · rw [BitVec.ofInt_natCast]
    exact BitVec.ofNat_toNat _ _ |>.trans (BitVec.setWidth_eq _)

theorem ofBits_inRange (b : BitVec (t.bits pl)) : InRange pl t (t.ofBits pl b) := by
  rw [inRange_iff]
  obtain ⟨h1, h2, h3⟩ := digits_le pl t
  unfold IntType.ofBits
  cases hs : t.signed pl with
  | true =>
    have h2 := h2 hs
    have e : t.bits pl - 1 = t.digits pl := by omega
    have a1 := BitVec.le_toInt b
    have a2 := BitVec.toInt_lt (x := b)
    rw [e] at a1 a2
    have hc : ((2 ^ t.digits pl : Nat) : Int) = 2 ^ t.digits pl := by simp
    simp only [if_true]
    refine ⟨⟨by omega, by omega⟩, by simp⟩
  | false =>
    have h3 := h3 hs
    have a1 := b.isLt
    simp only [Bool.false_eq_true, if_false]
    rw [h3]
    refine ⟨⟨by omega, by omega⟩, fun _ => by omega⟩

theorem bit_ofBits (b : BitVec (t.bits pl)) {k : Nat} (hk : k < t.bits pl) : Bit (t.ofBits pl b) k ↔ b.getLsbD k = true := by
  have := bit_ofInt (t.ofBits pl b) hk
  rw [← this]
  rw [show BitVec.ofInt (t.bits pl) (t.ofBits pl b) = b from toBits_ofBits pl t b]

theorem bit_toBits (z : Int) {k : Nat} (hk : k < t.bits pl) : (t.toBits pl z).getLsbD k = true ↔ Bit z k := bit_ofInt z hk

/-- The bits beyond the width repeat the sign. -/
theorem bit_high {z : Int} (h : InRange pl t z) {k : Nat} (hk : t.digits pl ≤ k) : Bit z k ↔ z < 0 :=
  negative_iff ((inRange_iff pl t z).1 h).1 hk

/-- The bits within the width determine the value. -/
theorem bit_ext {z z' : Int} (h : InRange pl t z) (h' : InRange pl t z') (hb : ∀ k, k < t.bits pl → (Bit z k ↔ Bit z' k)) :
    z = z' := by
  obtain ⟨d1, d2, d3⟩ := digits_le pl t
  have hs : z < 0 ↔ z' < 0 := by
    cases hs : t.signed pl with
    | true =>
      have := d2 hs
      rw [← bit_high pl t h (Nat.le_refl _), ← bit_high pl t h' (Nat.le_refl _)]
      exact hb _ (by omega)
    | false =>
      have h1 := ((inRange_iff pl t z).1 h).2 hs
      have h2 := ((inRange_iff pl t z').1 h').2 hs
      omega
  have hall : ∀ k, Bit z k ↔ Bit z' k := by
    intro k
    by_cases hk : k < t.bits pl
    · exact hb k hk
    · rw [bit_high pl t h (by omega), bit_high pl t h' (by omega), hs]
  -- same bits, same number
  have key : ∀ a b : Int, 0 ≤ a → 0 ≤ b → (∀ k, Bit a k ↔ Bit b k) → a = b := by
    intro a b ha hb hab
    have : a.toNat = b.toNat := by
      apply Nat.eq_of_testBit_eq
      intro k
      have c : ∀ x : Int, 0 ≤ x → (Bit x k ↔ x.toNat.testBit k = true) := by
        intro x hx
        unfold Bit
        rw [Nat.testBit_eq_decide_div_mod_eq, decide_eq_true_eq]
        have : ((x.toNat / 2 ^ k % 2 : Nat) : Int) = x / 2 ^ k % 2 := by
          rw [Int.natCast_emod, Int.natCast_ediv, Int.toNat_of_nonneg hx, Int.natCast_pow]
          rfl
        omega
      have := hab k
      rw [c a ha, c b hb] at this
      exact Bool.eq_iff_iff.2 this
    omega
  by_cases h0 : z < 0
  · have := key (-1 - z) (-1 - z') (by omega) (by omega) fun k => by rw [bit_not, bit_not, hall k]
    omega
  · exact key z z' (by omega) (by omega) hall

theorem or_inRange (a b : Int) : InRange pl t (t.or pl a b) := ofBits_inRange pl t _

theorem or_bit {a b : Int} (ha : InRange pl t a) (hb : InRange pl t b) (k : Nat) :
    Bit (t.or pl a b) k ↔ Bit a k ∨ Bit b k := by
  have low : ∀ k, k < t.bits pl → (Bit (t.or pl a b) k ↔ Bit a k ∨ Bit b k) := by
    intro k hk
    unfold IntType.or
    rw [bit_ofBits pl t _ hk, BitVec.getLsbD_or, Bool.or_eq_true, bit_toBits pl t _ hk, bit_toBits pl t _ hk]
  by_cases hk : k < t.bits pl
  · exact low k hk
  · obtain ⟨d1, d2, d3⟩ := digits_le pl t
    have hr := or_inRange pl t a b
    rw [bit_high pl t hr (by omega), bit_high pl t ha (by omega), bit_high pl t hb (by omega)]
    cases hs : t.signed pl with
    | true =>
      have := d2 hs
      rw [← bit_high pl t hr (Nat.le_refl _), ← bit_high pl t ha (Nat.le_refl _), ← bit_high pl t hb (Nat.le_refl _)]
      exact low _ (by omega)
    | false =>
      have h1 := ((inRange_iff pl t _).1 hr).2 hs
      have h2 := ((inRange_iff pl t _).1 ha).2 hs
      have h3 := ((inRange_iff pl t _).1 hb).2 hs
      omega

theorem and_pow {z : Int} {i : Nat} (hi : i < t.digits pl) : t.and pl z (2 ^ i : Nat) ≠ 0 ↔ Bit z i := by
  obtain ⟨d1, d2, d3⟩ := digits_le pl t
  have hb : ∀ k, k < t.bits pl → (Bit (t.and pl z (2 ^ i : Nat)) k ↔ Bit z k ∧ k = i) := by
    intro k hk
    unfold IntType.and
    rw [bit_ofBits pl t _ hk, BitVec.getLsbD_and, Bool.and_eq_true, bit_toBits pl t _ hk, bit_toBits pl t _ hk, bit_pow]
  constructor
  · intro h
    refine Decidable.by_contra fun hn => h ?_
    refine bit_ext pl t (ofBits_inRange pl t _) (inRange_zero pl t) fun k hk => ?_
    rw [hb k hk]
    constructor
    · rintro ⟨h1, rfl⟩
      exact absurd h1 hn
    · exact fun h => absurd h (bit_zero k)
  · intro h h0
    have := (hb i (by omega)).2 ⟨h, rfl⟩
    rw [h0] at this
    exact bit_zero i this

/-! ## Unions -/

theorem flagsLoop_bits : ∀ (xs : List Int) (new : Int), InRange pl t new → (∀ x ∈ xs, InRange pl t x) →
    InRange pl t (flagsLoop pl t xs new) ∧ ∀ k, Bit (flagsLoop pl t xs new) k ↔ Bit new k ∨ ∃ x ∈ xs, Bit x k
  | [], new, h, _ => ⟨h, fun k => by simp [flagsLoop]⟩
  | x :: xs, new, h, hx => by
    obtain ⟨h1, h2⟩ := flagsLoop_bits xs (t.or pl new x) (or_inRange pl t _ _) (fun y hy => hx y (by simp [hy]))
    refine ⟨h1, fun k => ?_⟩
    rw [flagsLoop, h2, or_bit pl t h (hx x (by simp))]
    simp [or_assoc]

theorem flagsLoop_union {xs : List Int} (h : ∀ x ∈ xs, InRange pl t x) : Union pl t xs (flagsLoop pl t xs 0) := by
  obtain ⟨h1, h2⟩ := flagsLoop_bits pl t xs 0 (inRange_zero pl t) h
  refine ⟨h1, fun k => ?_⟩
  rw [h2]
  simp [bit_zero]

theorem union_unique {xs : List Int} {z z' : Int} (h : Union pl t xs z) (h' : Union pl t xs z') : z = z' :=
  bit_ext pl t h.1 h'.1 fun k _ => by rw [h.2, h'.2]

end

/-- The union of values of an enumeration is one. -/
theorem union_valueOf {pl : Platform} {d : EnumDecl} {xs : List Int} {z : Int} (h : Union pl d.underlying xs z)
    (hx : ∀ x ∈ xs, ValueOf d x) : ValueOf d z := by
  by_cases hf : d.fixed = true
  · exact .inl hf
  refine .inr fun m hm => ?_
  have hx' : ∀ x ∈ xs, (-(2 ^ m : Nat) ≤ x ∧ x < (2 ^ m : Nat)) ∧ (x < 0 → ∃ c ∈ d.constants, c.2 < 0) := by
    intro x hxs
    rcases hx x hxs with h1 | h1
    · exact absurd h1 hf
    · obtain ⟨h2, h3⟩ := h1 m hm
      rcases h3 with ⟨h3, h4⟩ | h3
      · exact ⟨⟨h4, h2⟩, fun _ => h3⟩
      · exact ⟨⟨by omega, h2⟩, fun h => by omega⟩
  by_cases hn : ∃ x ∈ xs, x < 0
  · obtain ⟨x, h1, h2⟩ := hn
    have : -(2 ^ m : Nat) ≤ z ∧ z < (2 ^ m : Nat) :=
      magnitude_iff.2 (.inl fun k hk => (h.2 k).2 ⟨x, h1, (negative_iff (hx' x h1).1 hk).2 h2⟩)
    exact ⟨this.2, .inl ⟨(hx' x h1).2 h2, this.1⟩⟩
  · have hz : ∀ k, m ≤ k → ¬ Bit z k := by
      intro k hk hb
      obtain ⟨x, h1, h2⟩ := (h.2 k).1 hb
      exact hn ⟨x, h1, (negative_iff (hx' x h1).1 hk).1 h2⟩
    have hm' := magnitude_iff.2 (.inr hz)
    refine ⟨hm'.2, .inr ?_⟩
    refine Decidable.by_contra fun h0 => ?_
    exact hz m (Nat.le_refl m) ((negative_iff hm' (Nat.le_refl m)).2 (by omega))

/-! ## Texts -/

/-- The named bits of a type. -/
def bitNames (pl : Platform) (d : EnumDecl) : List (Bytes × Nat) :=
  (List.range (d.underlying.digits pl)).filterMap fun i => (d.nameOf (2 ^ i : Nat)).map fun n => (n, i)

theorem flagEntries_eq (pl : Platform) (d : EnumDecl) :
    d.flagEntries pl = (bitNames pl d).map fun e => (e.1, ((2 ^ e.2 : Nat) : Int)) := by
  unfold EnumDecl.flagEntries bitNames
  rw [List.map_filterMap]
  congr 1
  funext i
  cases d.nameOf (2 ^ i : Nat) <;> rfl

theorem bitNames_sorted (pl : Platform) (d : EnumDecl) : (bitNames pl d).Pairwise (fun a b => a.2 < b.2) := by
  refine pairwise_filterMap_range _ fun i j a b hij ha hb => ?_
  simp only [Option.map_eq_some_iff] at ha hb
  obtain ⟨_, _, rfl⟩ := ha
  obtain ⟨_, _, rfl⟩ := hb
  exact hij

theorem mem_bitNames {pl : Platform} {d : EnumDecl} {n : Bytes} {k : Nat} :
    (n, k) ∈ bitNames pl d ↔ k < d.underlying.digits pl ∧ Primary d n (2 ^ k : Nat) := by
  unfold bitNames
  simp only [List.mem_filterMap, List.mem_range, Option.map_eq_some_iff, Prod.mk.injEq, ← nameOf_iff]
  constructor
  · rintro ⟨i, hi, m, hm, rfl, rfl⟩
    exact ⟨hi, hm⟩
  · rintro ⟨h1, h2⟩
    exact ⟨k, h1, n, h2, rfl, rfl⟩

/-- The named bits that a value has. -/
def chosen (z : Int) (es : List (Bytes × Nat)) : List (Bytes × Nat) := es.filter fun e => decide (Bit z e.2)

/-- Adding names to a text. -/
def addNames (name : Bytes) (ns : List Bytes) : Bytes :=
  if name = [] then (lit "|").intercalate ns else (lit "|").intercalate (name :: ns)

theorem addNames_cons {name n : Bytes} {ns : List Bytes} (hn : n ≠ []) :
    addNames ((if name = [] then name else name ++ lit "|") ++ n) ns = addNames name (n :: ns) := by
  unfold addNames
  by_cases h : name = []
  · simp [h, hn]
  · simp only [h, if_false]
    rw [if_neg (by simp [hn])]
    rw [intercalate_cons_cons']
    cases ns with
    | nil => simp [List.intercalate]
    | cons m ns => rw [intercalate_cons_cons', intercalate_cons_cons']; simp

theorem flagsNameLoop_eq {pl : Platform} {t : IntType} {z : Int} : ∀ (es : List (Bytes × Nat)) (name : Bytes) (check : Int),
    (∀ e ∈ es, e.2 < t.digits pl ∧ e.1 ≠ []) → InRange pl t check →
    ∃ c, flagsNameLoop pl t z (es.map fun e => (e.1, ((2 ^ e.2 : Nat) : Int))) name check =
        (addNames name ((chosen z es).map (·.1)), c) ∧ InRange pl t c ∧
      ∀ k, Bit c k ↔ Bit check k ∨ ∃ n, (n, k) ∈ chosen z es
  | [], name, check, _, hc => ⟨check, by simp only [List.map_nil, flagsNameLoop, chosen, List.filter_nil, addNames]
                                         split <;> simp_all [List.intercalate], hc, by simp [chosen]⟩
  | (n, i) :: es, name, check, he, hc => by
    have hi := he (n, i) (by simp)
    have he' : ∀ e ∈ es, e.2 < t.digits pl ∧ e.1 ≠ [] := fun e h => he e (by simp [h])
    simp only [List.map_cons, flagsNameLoop]
    by_cases hb : Bit z i
    · rw [if_pos ((and_pow pl t hi.1).2 hb)]
      obtain ⟨c, h1, h2, h3⟩ := flagsNameLoop_eq (z := z) es ((if name = [] then name else name ++ lit "|") ++ n)
        (t.or pl check (2 ^ i : Nat)) he' (or_inRange pl t _ _)
      have hch : chosen z ((n, i) :: es) = (n, i) :: chosen z es := by simp [chosen, hb]
      refine ⟨c, ?_, h2, fun k => ?_⟩
      · rw [h1, hch, List.map_cons, addNames_cons hi.2]
      · have hp : InRange pl t (2 ^ i : Nat) := by
          rw [inRange_iff]
          have : 2 ^ i < 2 ^ t.digits pl := Nat.pow_lt_pow_right (by omega) hi.1
          have := Nat.two_pow_pos i
          generalize 2 ^ i = a at *
          generalize 2 ^ t.digits pl = b at *
          exact ⟨⟨by omega, by omega⟩, fun _ => by omega⟩
        rw [h3, or_bit pl t hc hp, bit_pow, hch]
        simp only [List.mem_cons, Prod.mk.injEq]
        constructor
        · rintro ((h | rfl) | ⟨m, hm⟩)
          · exact .inl h
          · exact .inr ⟨n, .inl ⟨rfl, rfl⟩⟩
          · exact .inr ⟨m, .inr hm⟩
        · rintro (h | ⟨m, (⟨_, rfl⟩ | hm)⟩)
          · exact .inl (.inl h)
          · exact .inl (.inr rfl)
          · exact .inr ⟨m, hm⟩
    · rw [if_neg (fun h => hb ((and_pow pl t hi.1).1 h))]
      obtain ⟨c, h1, h2, h3⟩ := flagsNameLoop_eq (z := z) es name check he' hc
      have hch : chosen z ((n, i) :: es) = chosen z es := by simp [chosen, hb]
      exact ⟨c, by rw [h1, hch], h2, fun k => by rw [h3, hch]⟩

/-- Two lists in increasing order with the same elements are equal. -/
theorem sorted_ext : ∀ {l l' : List (Bytes × Nat)}, l.Pairwise (fun a b => a.2 < b.2) → l'.Pairwise (fun a b => a.2 < b.2) →
    (∀ e, e ∈ l ↔ e ∈ l') → l = l'
  | [], l', _, _, h => by
    cases l' with
    | nil => rfl
    | cons e l' => exact absurd ((h e).2 (by simp)) (by simp)
  | e :: l, l', h1, h2, h => by
    cases l' with
    | nil => exact absurd ((h e).1 (by simp)) (by simp)
    | cons e' l' =>
      obtain ⟨a1, a2⟩ := List.pairwise_cons.1 h1
      obtain ⟨b1, b2⟩ := List.pairwise_cons.1 h2
      have he : e = e' := by
        rcases List.mem_cons.1 ((h e).1 (by simp)) with h' | h'
        · exact h'
        · rcases List.mem_cons.1 ((h e').2 (by simp)) with h'' | h''
          · exact h''.symm
          · have := a1 _ h''
            have := b1 _ h'
            omega
      subst he
      congr 1
      refine sorted_ext a2 b2 fun x => ?_
      constructor
      · intro hx
        rcases List.mem_cons.1 ((h x).1 (by simp [hx])) with h' | h'
        · subst h'
          exact absurd (a1 _ hx) (by omega)
        · exact h'
      · intro hx
        rcases List.mem_cons.1 ((h x).2 (by simp [hx])) with h' | h'
        · subst h'
          exact absurd (b1 _ hx) (by omega)
        · exact h'

theorem flagsOf_unique {d : EnumDecl} {z : Int} {fs fs' : List (Bytes × Nat)} (h : FlagsOf d z fs) (h' : FlagsOf d z fs') :
    fs = fs' := by
  have one : ∀ {fs fs' : List (Bytes × Nat)}, FlagsOf d z fs → FlagsOf d z fs' → ∀ e, e ∈ fs → e ∈ fs' := by
    rintro fs fs' h h' ⟨n, k⟩ he
    obtain ⟨m, hm⟩ := (h'.bits k).1 ((h.bits k).2 ⟨n, he⟩)
    rw [primary_unique (h.named n k he) (h'.named m k hm)]
    exact hm
  exact sorted_ext h.sorted h'.sorted fun e => ⟨one h h' e, one h' h e⟩

theorem flagsOf_nonneg {d : EnumDecl} {z : Int} {fs : List (Bytes × Nat)} (h : FlagsOf d z fs) : 0 ≤ z := by
  refine Decidable.by_contra fun h0 => ?_
  have hb : ∀ k, z.natAbs ≤ k → Bit z k := fun k hk =>
    bit_negative (m := z.natAbs) (by have := @Nat.lt_two_pow_self z.natAbs; omega) (by omega) hk
  obtain ⟨n, hn⟩ := (h.bits (z.natAbs + (fs.map (·.2)).foldl max 0 + 1)).1 (hb _ (by omega))
  have := (foldl_max_le (l := fs.map (·.2)) (a := 0) (n := (fs.map (·.2)).foldl max 0)).1 (Nat.le_refl _)
  have := this.2 _ (List.mem_map.2 ⟨_, hn, rfl⟩)
  simp only at this
  omega

theorem flagsName_eq {pl : Platform} {d : EnumDecl} (hd : Declarable pl d) {z : Int} (hz : InRange pl d.underlying z) :
    (∀ fs, FlagsOf d z fs → flagsName pl d z = barred fs) ∧
      ((¬ ∃ fs, FlagsOf d z fs) → flagsName pl d z = []) := by
  have hes : ∀ e ∈ bitNames pl d, e.2 < d.underlying.digits pl ∧ e.1 ≠ [] := by
    rintro ⟨n, k⟩ he
    obtain ⟨h1, h2⟩ := mem_bitNames.1 he
    refine ⟨h1, ?_⟩
    obtain ⟨_, c, t, h3, _⟩ := hd.ident _ (primary_mem h2)
    simp only at h3
    simp [h3]
  obtain ⟨c, h1, h2, h3⟩ := flagsNameLoop_eq (z := z) (bitNames pl d) [] 0 hes (inRange_zero pl d.underlying)
  have hname : flagsName pl d z = if c ≠ 0 ∧ c = z then barred (chosen z (bitNames pl d)) else [] := by
    unfold flagsName
    rw [flagEntries_eq, h1]
    simp [addNames, barred]
  have hmem : ∀ n k, (n, k) ∈ chosen z (bitNames pl d) ↔
      k < d.underlying.digits pl ∧ Primary d n (2 ^ k : Nat) ∧ Bit z k := by
    intro n k
    simp only [chosen, List.mem_filter, mem_bitNames, decide_eq_true_eq, and_assoc]
  have hbits : ∀ k, Bit c k ↔ ∃ n, (n, k) ∈ chosen z (bitNames pl d) := by
    intro k
    rw [h3]
    simp [bit_zero]
  have hsort : (chosen z (bitNames pl d)).Pairwise (fun a b => a.2 < b.2) := (bitNames_sorted pl d).sublist List.filter_sublist
  have hback : c = z → FlagsOf d z (chosen z (bitNames pl d)) := by
    intro hcz
    refine ⟨hsort, fun k => ?_, fun n k h => ((hmem n k).1 h).2.1⟩
    conv => lhs; rw [← hcz]
    exact hbits k
  refine ⟨fun fs hf => ?_, fun hf => ?_⟩
  · have hnn := flagsOf_nonneg hf
    have hcz : c = z := by
      refine bit_ext pl d.underlying h2 hz fun k _ => ?_
      rw [hbits]
      constructor
      · rintro ⟨n, hn⟩
        exact ((hmem n k).1 hn).2.2
      · intro hb
        obtain ⟨n, hn⟩ := (hf.bits k).1 hb
        refine ⟨n, (hmem n k).2 ⟨?_, hf.named n k hn, hb⟩⟩
        refine Decidable.by_contra fun hk => ?_
        have := (bit_high pl d.underlying hz (by omega)).1 hb
        omega
    rw [hname, flagsOf_unique hf (hback hcz)]
    by_cases h0 : c = 0
    · rw [if_neg (by simp [h0])]
      have : chosen z (bitNames pl d) = [] := by
        rw [List.eq_nil_iff_forall_not_mem]
        rintro ⟨n, k⟩ hn
        have := (hbits k).2 ⟨n, hn⟩
        rw [h0] at this
        exact bit_zero k this
      rw [this]
      rfl
    · rw [if_pos ⟨h0, hcz⟩]
  · rw [hname, if_neg]
    rintro ⟨_, hcz⟩
    exact hf ⟨_, hback hcz⟩

end Coil
