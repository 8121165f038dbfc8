import Verif.Proofs.Numerals
import Verif.Proofs.FloatRound

/-! # Reading floating-point texts -/

namespace Coil.Floats
open Spec Fl

/-! ## Bytes -/

theorem all_bytes {P : Byte → Prop} [DecidablePred P] (h : ∀ n : Fin 256, P (UInt8.ofNat n)) (c : Byte) : P c := by
  have := h ⟨c.toNat, c.toNat_lt⟩
  simpa using this

theorem digitVal_hex {c : Byte} {n : Nat} (h : DigitOf 16 c n) : digitVal c = n := by
  obtain ⟨h1, h2⟩ := h
  have e57 : UInt8.toNat 57 = 57 := rfl
  have e70 : UInt8.toNat 70 = 70 := rfl
  unfold digitVal
  simp only [UInt8.le_iff_toNat_le, e57, e70]
  split
  · omega
  · split <;> omega

theorem digitOf_mono {c : Byte} {n : Nat} (h : DigitOf 10 c n) : DigitOf 16 c n := ⟨by have := h.1; omega, h.2⟩

theorem isDigit_digitOf (c : Byte) : isDigit c = true ↔ ∃ n, DigitOf 10 c n := by
  rw [isDigit_iff]
  constructor
  · rintro ⟨n, ⟨h1, h2⟩⟩
    exact ⟨n, h1, .inl ⟨h1, h2⟩⟩
  · rintro ⟨n, h1, h2 | h2⟩
    · exact ⟨n, .mk h1 h2.2⟩
    · omega

theorem isHexDigit_digitOf (c : Byte) : isHexDigit c = true ↔ ∃ n, DigitOf 16 c n := by
  have e48 : UInt8.toNat 48 = 48 := rfl
  have e57 : UInt8.toNat 57 = 57 := rfl
  have e65 : UInt8.toNat 65 = 65 := rfl
  have e70 : UInt8.toNat 70 = 70 := rfl
  have e97 : UInt8.toNat 97 = 97 := rfl
  have e102 : UInt8.toNat 102 = 102 := rfl
  simp only [isHexDigit, isDigit, Bool.or_eq_true, Bool.and_eq_true, decide_eq_true_eq, UInt8.le_iff_toNat_le, e48, e57, e65, e70,
    e97, e102]
  constructor
  · rintro ((⟨h1, h2⟩ | ⟨h1, h2⟩) | ⟨h1, h2⟩)
    · exact ⟨c.toNat - 48, by omega, .inl ⟨by omega, by omega⟩⟩
    · exact ⟨c.toNat - 55, by omega, .inr ⟨by omega, .inl (by omega)⟩⟩
    · exact ⟨c.toNat - 87, by omega, .inr ⟨by omega, .inr (by omega)⟩⟩
  · rintro ⟨n, h1, h2 | ⟨h2, h3 | h3⟩⟩
    · exact .inl (.inl (by omega))
    · exact .inl (.inr (by omega))
    · exact .inr (by omega)

theorem sameLetter_iff (c l : Byte) : sameLetter c l = true ↔ SameLetter c l := by
  have e65 : UInt8.toNat 65 = 65 := rfl
  have e90 : UInt8.toNat 90 = 90 := rfl
  have e32 : UInt8.toNat 32 = 32 := rfl
  simp only [sameLetter, SameLetter, Bool.or_eq_true, Bool.and_eq_true, beq_iff_eq, decide_eq_true_eq, UInt8.le_iff_toNat_le,
    ← UInt8.toNat_inj, UInt8.toNat_add, e65, e90, e32]
  have := l.toNat_lt
  have := c.toNat_lt
  constructor
  · rintro (h | h)
    · exact .inl h
    · exact .inr (by omega)
  · rintro (h | h)
    · exact .inl h
    · exact .inr (by omega)

/-! ## Digits -/

theorem digitsValue_snoc (b : Nat) (ds : Bytes) (c : Byte) : digitsValue b (ds ++ [c]) = digitsValue b ds * b + digitVal c := by
  simp [digitsValue, List.foldl_append]

/-- What the predicate for digits of a base says. -/
structure Base (b : Nat) (digit : Byte → Bool) : Prop where
  iff : ∀ c, digit c = true ↔ ∃ n, DigitOf b c n
  val : ∀ c n, DigitOf b c n → digitVal c = n

theorem base10 : Base 10 isDigit := ⟨isDigit_digitOf, fun _ _ h => digitVal_hex (digitOf_mono h)⟩

theorem base16 : Base 16 isHexDigit := ⟨isHexDigit_digitOf, fun _ _ h => digitVal_hex h⟩

theorem digits_iff {b : Nat} {digit : Byte → Bool} (hb : Base b digit) {ds : Bytes} {m : Nat} :
    Digits b ds m ↔ (∀ c ∈ ds, digit c = true) ∧ digitsValue b ds = m := by
  constructor
  · intro h
    induction h with
    | nil => simp [digitsValue]
    | snoc _ hc ih =>
      refine ⟨?_, ?_⟩
      · intro c hc'
        rcases List.mem_append.1 hc' with h | h
        · exact ih.1 c h
        · rw [List.mem_singleton.1 h]
          exact (hb.iff _).2 ⟨_, hc⟩
      · rw [digitsValue_snoc, ih.2, hb.val _ _ hc, Nat.mul_comm]
  · rintro ⟨h, rfl⟩
    induction hn : ds.length generalizing ds with
    | zero => rw [List.length_eq_zero_iff.1 hn]; exact .nil
    | succ n ih =>
      obtain ⟨l, c, rfl⟩ : ∃ l c, ds = l ++ [c] := by
        have hne : ds ≠ [] := by rintro rfl; simp at hn
        exact ⟨ds.dropLast, ds.getLast hne, (List.dropLast_append_getLast hne).symm⟩
      obtain ⟨k, hk⟩ := (hb.iff c).1 (h c (by simp))
      rw [digitsValue_snoc, hb.val _ _ hk, Nat.mul_comm]
      refine .snoc (ih (fun c hc => h c (by simp [hc])) ?_) hk
      simpa using hn

theorem decimal_iff {ds : Bytes} {v : Nat} : Decimal ds v ↔ Digits 10 ds v ∧ ds ≠ [] := by
  have hval : ∀ ds : Bytes, (∀ c ∈ ds, isDigit c = true) → digitsVal 0 ds = digitsValue 10 ds := by
    intro ds h
    induction hn : ds.length generalizing ds with
    | zero => rw [List.length_eq_zero_iff.1 hn]; rfl
    | succ n ih =>
      obtain ⟨l, c, rfl⟩ : ∃ l c, ds = l ++ [c] := by
        have hne : ds ≠ [] := by rintro rfl; simp at hn
        exact ⟨ds.dropLast, ds.getLast hne, (List.dropLast_append_getLast hne).symm⟩
      have := ih l (fun c hc => h c (by simp [hc])) (by simpa using hn)
      rw [digitsValue_snoc, digitsVal_append, this, digitsVal_cons, digitsVal_nil]
      obtain ⟨k, hk1, hk2⟩ := (isDigit_digitOf c).1 (h c (by simp))
      rw [base10.val _ _ ⟨hk1, hk2⟩]
      omega
  rw [digits_iff base10]
  constructor
  · intro h
    obtain ⟨h1, h2, h3⟩ := decimal_digits h
    exact ⟨⟨h2, by rw [← hval _ h2, h3]⟩, h1⟩
  · rintro ⟨⟨h2, rfl⟩, h1⟩
    rw [← hval _ h2]
    exact decimal_of_digits h1 h2

/-! ## Mantissas and exponents -/

theorem countWhile_all {p : Byte → Bool} {a : Bytes} (ha : ∀ c ∈ a, p c = true) : countWhile p a = a.length := by
  have := countWhile_append (b := []) ha (by simp)
  simpa using this

theorem mantissa_complete {b : Nat} {digit : Byte → Bool} (hb : Base b digit) (hdot : digit 46 = false) {a x : Bytes} {m k : Nat}
    (h : Mantissa b a m k) (hx : ∀ c, x.head? = some c → digit c = false ∧ c ≠ 46) :
    ∃ i f, scanMantissa digit (a ++ x) = some (i, f, a.length) ∧ digitsValue b (i ++ f) = m ∧ f.length = k := by
  cases h with
  | whole hd hne =>
    obtain ⟨h1, h2⟩ := (digits_iff hb).1 hd
    have hc := countWhile_append h1 (fun c hc => (hx c hc).1)
    refine ⟨a, [], ?_, by simpa using h2, rfl⟩
    unfold scanMantissa
    rw [hc]
    simp only [List.drop_left, List.take_left]
    rw [if_neg (fun h => (hx 46 h).2 rfl), if_neg (by simpa using hne)]
  | @point a f m hd hne =>
    obtain ⟨h1, h2⟩ := (digits_iff hb).1 hd
    have hc : countWhile digit (a ++ (46 :: (f ++ x))) = a.length :=
      countWhile_append (fun c hc => h1 c (by simp [hc])) (by rintro c hc; simp at hc; rw [← hc]; exact hdot)
    have hf : countWhile digit (f ++ x) = f.length :=
      countWhile_append (fun c hc => h1 c (by simp [hc])) (fun c hc => (hx c hc).1)
    refine ⟨a, f, ?_, h2, rfl⟩
    unfold scanMantissa
    rw [List.append_assoc, List.cons_append, hc]
    simp only [List.drop_left, List.take_left, List.head?_cons, if_true, List.drop_succ_cons, List.drop_zero, hf]
    rw [if_neg (by intro h; apply hne; rw [List.append_eq_nil_iff, ← List.length_eq_zero_iff, ← List.length_eq_zero_iff]; omega)]
    simp
    omega

theorem mantissa_sound {b : Nat} {digit : Byte → Bool} (hb : Base b digit) {s i f : Bytes} {n : Nat}
    (h : scanMantissa digit s = some (i, f, n)) :
    ∃ a x, s = a ++ x ∧ a.length = n ∧ Mantissa b a (digitsValue b (i ++ f)) f.length := by
  obtain ⟨a, r, rfl, ha, hr, hc⟩ := countWhile_split digit s
  unfold scanMantissa at h
  rw [hc] at h
  simp only [List.drop_left, List.take_left] at h
  split at h
  · rename_i hh
    cases r with
    | nil => simp at hh
    | cons c t =>
      simp only [List.head?_cons, Option.some.injEq] at hh
      subst hh
      simp only [List.drop_succ_cons, List.drop_zero] at h
      obtain ⟨f', x, rfl, hf, _, hcf⟩ := countWhile_split digit t
      rw [hcf] at h
      split at h
      · cases h
      · rename_i hne
        simp only [List.take_left, Option.some.injEq, Prod.mk.injEq] at h
        obtain ⟨rfl, rfl, rfl⟩ := h
        refine ⟨a ++ 46 :: f', x, by simp, by simp; omega, .point ((digits_iff hb).2 ⟨?_, rfl⟩) ?_⟩
        · intro c hc
          rcases List.mem_append.1 hc with h | h
          · exact ha c h
          · exact hf c h
        · intro h
          rw [List.append_eq_nil_iff] at h
          simp [h.1, h.2] at hne
  · split at h
    · cases h
    · rename_i hne
      simp only [Option.some.injEq, Prod.mk.injEq] at h
      obtain ⟨rfl, rfl, rfl⟩ := h
      refine ⟨a, r, rfl, rfl, ?_⟩
      rw [List.append_nil]
      exact .whole ((digits_iff hb).2 ⟨ha, rfl⟩) (by rintro rfl; simp at hne)

theorem exponent_complete {l u : Byte} {x : Bytes} {z : Int} (h : Exponent l u x z) : scanExponent l u x = (z, x.length) := by
  cases h with
  | none => simp [scanExponent]
  | @some c sg ds neg v hc hs hd =>
    have hd' := decimal_iff.1 hd
    obtain ⟨h1, h2⟩ := (digits_iff base10).1 hd'.1
    have hn : countWhile isDigit ds = ds.length := countWhile_all h1
    have hne : ds.length ≠ 0 := by simpa using hd'.2
    unfold scanExponent
    simp only [List.head?_cons, Option.some.injEq, List.drop_succ_cons, List.drop_zero]
    rw [if_pos hc]
    cases hs with
    | none =>
      have hh : ds.head? ≠ some 45 ∧ ds.head? ≠ some 43 := by
        cases ds with
        | nil => simp
        | cons c t =>
          have := digit_not_sign (h1 c (by simp))
          simp [this]
      simp only [List.nil_append, hh.1, hh.2, or_self, if_false, List.drop_zero, hn, hne, List.take_length, h2]
      simp
      omega
    | plus =>
      simp [hn, hne, h2]
      omega
    | minus =>
      simp [hn, hne, h2]
      omega

theorem exponent_sound {l u : Byte} {x : Bytes} (h : (scanExponent l u x).2 = x.length) : Exponent l u x (scanExponent l u x).1 := by
  unfold scanExponent at h ⊢
  split
  · rename_i hc
    rw [if_pos hc] at h
    cases x with
    | nil => simp at hc
    | cons c r =>
      simp only [List.head?_cons, Option.some.injEq, List.drop_succ_cons, List.drop_zero, List.length_cons] at h hc ⊢
      obtain ⟨sg, t, neg, rfl, hs, hsg, hneg⟩ : ∃ sg t neg, r = sg ++ t ∧ Sign sg neg ∧
          (if r.head? = some 45 ∨ r.head? = some 43 then 1 else 0) = sg.length ∧ (r.head? = some 45 ↔ neg = true) := by
        by_cases h1 : r.head? = some 45
        · cases r with
          | nil => simp at h1
          | cons d t =>
            simp only [List.head?_cons, Option.some.injEq] at h1
            subst h1
            exact ⟨[45], t, true, rfl, .minus, by simp, by simp⟩
        · by_cases h2 : r.head? = some 43
          · cases r with
            | nil => simp at h2
            | cons d t =>
              simp only [List.head?_cons, Option.some.injEq] at h2
              subst h2
              exact ⟨[43], t, false, rfl, .plus, by simp, by simp⟩
          · exact ⟨[], r, false, rfl, .none, by simp [h1, h2], by simp [h1]⟩
      rw [hsg] at h ⊢
      simp only [List.drop_left] at h ⊢
      obtain ⟨ds, y, rfl, hd, _, hcd⟩ := countWhile_split isDigit t
      rw [hcd] at h ⊢
      split
      · rename_i h0
        rw [if_pos h0] at h
        simp at h
      · rename_i h0
        rw [if_neg h0] at h
        simp only [List.length_append] at h
        have hy : y = [] := List.length_eq_zero_iff.1 (by omega)
        subst hy
        simp only [List.append_nil, List.take_length]
        have := Exponent.some (lower := l) (upper := u) (ds := ds) (v := digitsValue 10 ds) hc hs
          (decimal_iff.2 ⟨(digits_iff base10).2 ⟨hd, rfl⟩, by simpa using h0⟩)
        cases neg with
        | true =>
          rw [if_pos (by simpa using hneg)]
          simpa using this
        | false =>
          rw [if_neg (by simpa using hneg)]
          simpa using this
  · rename_i hc
    rw [if_neg hc] at h
    cases x with
    | nil => exact .none
    | cons c t => simp at h

/-! ## Words -/

theorem startsWith_nil (s : Bytes) : startsWith [] s = true := by
  simp [startsWith]

theorem startsWith_cons {l c : Byte} {w s : Bytes} :
    startsWith (l :: w) (c :: s) = (sameLetter c l && startsWith w s) := by
  simp only [startsWith, List.length_cons, Nat.add_le_add_iff_right, List.zip_cons_cons, List.all_cons]
  cases sameLetter c l <;> cases decide (w.length ≤ s.length) <;> simp

theorem startsWith_short {l : Byte} {w : Bytes} : startsWith (l :: w) [] = false := by
  simp [startsWith]

theorem startsWith_iff {w s : Bytes} : startsWith w s = true ↔ ∃ a b, s = a ++ b ∧ Forall2 SameLetter a w := by
  induction w generalizing s with
  | nil =>
    simp only [startsWith_nil, true_iff]
    exact ⟨[], s, rfl, .nil⟩
  | cons l w ih =>
    cases s with
    | nil =>
      rw [startsWith_short]
      constructor
      · intro h; cases h
      · rintro ⟨a, b, h, hf⟩
        cases hf with
        | cons => simp at h
    | cons c s =>
      rw [startsWith_cons, Bool.and_eq_true, sameLetter_iff, ih]
      constructor
      · rintro ⟨h1, a, b, rfl, h2⟩
        exact ⟨c :: a, b, rfl, .cons h1 h2⟩
      · rintro ⟨a, b, h, hf⟩
        cases hf with
        | cons h1 h2 =>
          simp only [List.cons_append, List.cons.injEq] at h
          obtain ⟨rfl, rfl⟩ := h
          exact ⟨h1, _, b, rfl, h2⟩

theorem forall2_length {α β : Type} {R : α → β → Prop} {l : List α} {k : List β} (h : Forall2 R l k) : l.length = k.length := by
  induction h with
  | nil => rfl
  | cons _ _ ih => simp [ih]

theorem startsWith_word {w s : Bytes} (h : startsWith w s = true) (hl : s.length = w.length) : Forall2 SameLetter s w := by
  obtain ⟨a, b, rfl, hf⟩ := startsWith_iff.1 h
  have := forall2_length hf
  rw [List.length_append] at hl
  have hb : b = [] := List.length_eq_zero_iff.1 (by omega)
  rw [hb, List.append_nil]
  exact hf

/-- What a word without its sign gives. -/
def Out (F : Fmt) (tiny : Nat → Nat → Bool) (neg : Bool) : Denotes → Fl → Bool → Prop
  | .number q, v, err => ∃ n d : Nat, 0 < d ∧ q = (n : ℚ) / d ∧ ofFrac F tiny neg n d = (v, err)
  | .infinity, v, err => v = .inf neg ∧ err = false
  | .notANumber, v, err => v = .nan neg ∧ err = false

variable {F : Fmt} {tiny : Nat → Nat → Bool} {neg : Bool}

theorem body_sound {s : Bytes} {v : Fl} {err : Bool} (h : scanBody F tiny neg s = some (v, s.length, err)) :
    ∃ d, FloatWord s d ∧ Out F tiny neg d v err := by
  unfold scanBody at h
  simp only at h
  split at h
  · -- hexadecimal
    rename_i r hr
    cases h
    split at hr
    · rename_i h0
      obtain ⟨a, b, rfl, hf⟩ := startsWith_iff.1 h0
      obtain ⟨c, c', rfl, hc, hc'⟩ : ∃ c c', a = [c, c'] ∧ SameLetter c 48 ∧ SameLetter c' 120 := by
        cases hf with
        | cons h1 h2 =>
          cases h2 with
          | cons h2 h3 =>
            cases h3
            exact ⟨_, _, rfl, h1, h2⟩
      have hc0 : c = 48 := by
        rcases hc with h | h
        · exact h
        · have : UInt8.toNat 48 = 48 := rfl
          omega
      have hcx : c' = 120 ∨ c' = 88 := by
        rcases hc' with h | h
        · exact .inl h
        · refine .inr ?_
          have e : UInt8.toNat 120 = 120 := rfl
          have e' : UInt8.toNat 88 = 88 := rfl
          rw [← UInt8.toNat_inj]
          omega
      subst hc0
      simp only [List.cons_append, List.nil_append, List.drop_succ_cons, List.drop_zero] at hr
      cases hm : scanMantissa isHexDigit b with
      | none => rw [hm] at hr; cases hr
      | some r =>
        obtain ⟨i, f, n⟩ := r
        obtain ⟨a, x, rfl, ha, hM⟩ := mantissa_sound base16 hm
        rw [hm] at hr
        subst ha
        simp only [Option.map_some, Option.some.injEq, Prod.mk.injEq, List.length_cons, List.length_append,
          show ∀ y : Bytes, ∀ k : Nat, (48 :: c' :: y).drop (2 + k) = y.drop k from fun y k => by
            rw [Nat.add_comm]; rfl, List.drop_left] at hr
        obtain ⟨h1, h2, h3⟩ := hr
        have hx := exponent_sound (l := 112) (u := 80) (x := x) (by omega)
        refine ⟨.number _, (FloatWord.hex hcx hM hx : FloatWord (48 :: c' :: (a ++ x)) _), ?_⟩
        refine ⟨_, _, frac_pos (by norm_num), ?_, Prod.ext h1 h3⟩
        rw [frac_val]
        push_cast
        rfl
    · cases hr
  · split at h
    · rename_i h0
      simp only [Option.some.injEq, Prod.mk.injEq] at h
      obtain ⟨rfl, h, rfl⟩ := h
      exact ⟨.infinity, .infinity (startsWith_word h0 h.symm), rfl, rfl⟩
    · split at h
      · rename_i h0
        simp only [Option.some.injEq, Prod.mk.injEq] at h
        obtain ⟨rfl, h, rfl⟩ := h
        exact ⟨.infinity, .inf (startsWith_word h0 h.symm), rfl, rfl⟩
      · split at h
        · rename_i h0
          split at h
          · rename_i hp
            simp only [Option.some.injEq, Prod.mk.injEq] at h
            obtain ⟨rfl, h, rfl⟩ := h
            refine ⟨.notANumber, ?_, rfl, rfl⟩
            obtain ⟨a, b, rfl, hf⟩ := startsWith_iff.1 h0
            have hl : a.length = 3 := forall2_length hf
            rw [show (a ++ b).drop 3 = b by rw [← hl, List.drop_left]] at hp h
            cases b with
            | nil => simp at hp
            | cons c t =>
              obtain ⟨hp1, hp2⟩ := hp
              simp only [List.head?_cons, Option.some.injEq] at hp1
              subst hp1
              simp only [List.drop_succ_cons, List.drop_zero] at hp2 h
              obtain ⟨w, y, rfl, hw, _, hcw⟩ := countWhile_split isWordChar t
              rw [hcw] at hp2 h
              rw [Nat.add_comm, List.drop_succ_cons, List.drop_left] at hp2
              cases y with
              | nil => simp at hp2
              | cons c y =>
                simp only [List.head?_cons, Option.some.injEq] at hp2
                subst hp2
                simp only [List.length_append, List.length_cons, hl] at h
                have : y = [] := List.length_eq_zero_iff.1 (by omega)
                subst this
                exact .nanOf hf hw
          · simp only [Option.some.injEq, Prod.mk.injEq] at h
            obtain ⟨rfl, h, rfl⟩ := h
            exact ⟨.notANumber, .nan (startsWith_word h0 h.symm), rfl, rfl⟩
        · cases hm : scanMantissa isDigit s with
          | none => rw [hm] at h; cases h
          | some r =>
            obtain ⟨i, f, n⟩ := r
            obtain ⟨a, x, rfl, ha, hM⟩ := mantissa_sound base10 hm
            rw [hm] at h
            subst ha
            simp only [Option.map_some, Option.some.injEq, Prod.mk.injEq, List.length_append, List.drop_left] at h
            obtain ⟨h1, h2, h3⟩ := h
            have hx := exponent_sound (l := 101) (u := 69) (x := x) (by omega)
            refine ⟨_, .decimal hM hx, ?_⟩
            refine ⟨_, _, frac_pos (by norm_num), ?_, Prod.ext h1 h3⟩
            rw [frac_val]
            push_cast
            rfl

theorem exponent_head {l u : Byte} {x : Bytes} {z : Int} (h : Exponent l u x z) : ∀ c, x.head? = some c → c = l ∨ c = u := by
  cases h with
  | none => simp
  | some hc _ _ => intro c h; simp at h; rw [← h]; exact hc

theorem startsWith_head {l : Byte} {w s : Bytes} (h : ∀ c, s.head? = some c → ¬ SameLetter c l) : startsWith (l :: w) s = false := by
  cases s with
  | nil => exact startsWith_short
  | cons c t =>
    rw [startsWith_cons, Bool.and_eq_false_iff]
    left
    rw [← Bool.not_eq_true, sameLetter_iff]
    exact h c rfl

theorem startsWith_of_word {w s t : Bytes} (h : Forall2 SameLetter s w) : startsWith w (s ++ t) = true :=
  startsWith_iff.2 ⟨s, t, rfl, h⟩

/-- The first bytes of a decimal number. -/
theorem mantissa10_head {a : Bytes} {m k : Nat} (h : Mantissa 10 a m k) :
    a ≠ [] ∧ ∀ c ∈ a, isDigit c = true ∨ c = 46 := by
  cases h with
  | whole hd hne => exact ⟨hne, fun c hc => .inl (((digits_iff base10).1 hd).1 c hc)⟩
  | point hd hne =>
    refine ⟨by simp, fun c hc => ?_⟩
    have := ((digits_iff base10).1 hd).1
    rcases List.mem_append.1 hc with h | h
    · exact .inl (this c (by simp [h]))
    · rcases List.mem_cons.1 h with h | h
      · exact .inr h
      · exact .inl (this c (by simp [h]))

theorem head_append {a x : Bytes} (h : a ≠ []) : (a ++ x).head? = a.head? := by
  cases a with
  | nil => exact absurd rfl h
  | cons => rfl

theorem not_letter {c l : Byte} (hc : isDigit c = true ∨ c = 46) (hl : 97 ≤ l.toNat) : ¬ SameLetter c l := by
  have hc' : c.toNat ≤ 57 := by
    rcases hc with h | rfl
    · obtain ⟨n, hn⟩ := (isDigit_iff c).1 h
      cases hn
      omega
    · decide
  rintro (h | h)
  · subst h; omega
  · omega

theorem letters_differ {c l k : Byte} (h : SameLetter c l) (h' : SameLetter c k) (hl : 97 ≤ l.toNat) : l = k ∨ k.toNat < 97 ∧ 65 ≤ k.toNat := by
  rw [← UInt8.toNat_inj]
  rcases h with rfl | h <;> rcases h' with rfl | h' <;> omega

theorem other_word' {s t w w' : Bytes} {l k : Byte} (hf : Forall2 SameLetter s (l :: w)) (hl : 97 ≤ l.toNat) (hk : l ≠ k)
    (hk' : ¬ (k.toNat < 97 ∧ 65 ≤ k.toNat)) : startsWith (k :: w') (s ++ t) = false := by
  cases hf with
  | cons h1 _ =>
    refine startsWith_head fun c hc h => ?_
    simp at hc
    subst hc
    rcases letters_differ h1 h hl with h | h
    · exact hk h
    · exact hk' h

theorem other_word {s w w' : Bytes} {l k : Byte} (hf : Forall2 SameLetter s (l :: w)) (hl : 97 ≤ l.toNat) (hk : l ≠ k)
    (hk' : ¬ (k.toNat < 97 ∧ 65 ≤ k.toNat)) : startsWith (k :: w') s = false := by
  simpa using other_word' (t := []) hf hl hk hk'

theorem body_complete {s : Bytes} {d : Denotes} (h : FloatWord s d) :
    ∃ v err, scanBody F tiny neg s = some (v, s.length, err) ∧ Out F tiny neg d v err := by
  cases h with
  | @decimal a x m k z hM hx =>
    obtain ⟨hne, hall⟩ := mantissa10_head hM
    have hhead : ∀ (l : Byte) (w : Bytes), 97 ≤ l.toNat → startsWith (l :: w) (a ++ x) = false := by
      intro l w hl
      refine startsWith_head fun c hc => ?_
      rw [head_append hne] at hc
      exact not_letter (hall c (List.mem_of_mem_head? hc)) hl
    have hhex : startsWith (lit "0x") (a ++ x) = false := by
      rw [show lit "0x" = [48, 120] from rfl]
      cases a with
      | nil => exact absurd rfl hne
      | cons c t =>
        rw [List.cons_append, startsWith_cons, Bool.and_eq_false_iff]
        right
        refine startsWith_head fun c' hc' => ?_
        cases t with
        | nil =>
          rw [List.nil_append] at hc'
          rcases exponent_head hx c' hc' with rfl | rfl <;> (unfold SameLetter; decide)
        | cons c'' t =>
          simp at hc'
          subst hc'
          exact not_letter (hall _ (by simp)) (by decide)
    obtain ⟨i, f, hs, hv, hf⟩ := mantissa_complete (x := x) base10 (by decide) hM (fun c hc => by
      rcases exponent_head hx c hc with rfl | rfl <;> decide)
    have hxx := exponent_complete hx
    unfold scanBody
    simp only [hhex, Bool.false_eq_true, if_false]
    rw [show lit "infinity" = 105 :: [110, 102, 105, 110, 105, 116, 121] from rfl, hhead _ _ (by decide),
      show lit "inf" = 105 :: [110, 102] from rfl, hhead _ _ (by decide), show lit "nan" = 110 :: [97, 110] from rfl,
      hhead _ _ (by decide), hs]
    simp only [Bool.false_eq_true, if_false, Option.map_some, List.drop_left, hxx, hv, hf, List.length_append]
    refine ⟨_, _, rfl, _, _, frac_pos (by norm_num), ?_, rfl⟩
    rw [frac_val]
    push_cast
    rfl
  | @hex c a x m k z hc hM hx =>
    have h0 : startsWith (lit "0x") (48 :: c :: (a ++ x)) = true := by
      refine startsWith_iff.2 ⟨[48, c], a ++ x, rfl, .cons (.inl rfl) (.cons ?_ .nil)⟩
      rcases hc with rfl | rfl
      · exact .inl rfl
      · exact .inr ⟨by decide, by decide, by decide⟩
    obtain ⟨i, f, hs, hv, hf⟩ := mantissa_complete (x := x) base16 (by decide) hM (fun c hc => by
      rcases exponent_head hx c hc with rfl | rfl <;> decide)
    have hxx := exponent_complete hx
    unfold scanBody
    simp only [h0, if_true, List.drop_succ_cons, List.drop_zero, hs, Option.map_some,
      show ∀ y : Bytes, ∀ k : Nat, (48 :: c :: y).drop (2 + k) = y.drop k from fun y k => by
        rw [Nat.add_comm]; rfl, List.drop_left, hxx, hv, hf, List.length_cons, List.length_append]
    rw [show 2 + a.length + x.length = a.length + x.length + 1 + 1 by omega]
    refine ⟨_, _, rfl, _, _, frac_pos (by norm_num), ?_, rfl⟩
    rw [frac_val]
    push_cast
    rfl
  | inf hf =>
    have h0 : startsWith (lit "0x") s = false := other_word hf (by decide) (by decide) (by decide)
    have h1 : startsWith (lit "infinity") s = false := by
      have := forall2_length hf
      simp only [startsWith, this]
      rfl
    have h2 : startsWith (lit "inf") s = true := by simpa using startsWith_of_word (t := []) hf
    unfold scanBody
    simp only [h0, h1, h2, Bool.false_eq_true, if_false, if_true, forall2_length hf]
    exact ⟨_, _, rfl, rfl, rfl⟩
  | infinity hf =>
    have h0 : startsWith (lit "0x") s = false := other_word hf (by decide) (by decide) (by decide)
    have h2 : startsWith (lit "infinity") s = true := by simpa using startsWith_of_word (t := []) hf
    unfold scanBody
    simp only [h0, h2, Bool.false_eq_true, if_false, if_true, forall2_length hf]
    exact ⟨_, _, rfl, rfl, rfl⟩
  | nan hf =>
    have h0 : startsWith (lit "0x") s = false := other_word hf (by decide) (by decide) (by decide)
    have h1 : startsWith (lit "infinity") s = false := other_word hf (by decide) (by decide) (by decide)
    have h2 : startsWith (lit "inf") s = false := other_word hf (by decide) (by decide) (by decide)
    have h3 : startsWith (lit "nan") s = true := by simpa using startsWith_of_word (t := []) hf
    have hd : s.drop 3 = [] := List.drop_eq_nil_of_le (by rw [forall2_length hf]; decide)
    unfold scanBody
    simp only [h0, h1, h2, h3, Bool.false_eq_true, if_false, if_true, hd, List.head?_nil, reduceCtorEq, false_and,
      forall2_length hf]
    exact ⟨_, _, rfl, rfl, rfl⟩
  | @nanOf s t hf ht =>
    have h0 : startsWith (lit "0x") (s ++ 40 :: (t ++ [41])) = false := other_word' hf (by decide) (by decide) (by decide)
    have h1 : startsWith (lit "infinity") (s ++ 40 :: (t ++ [41])) = false := other_word' hf (by decide) (by decide) (by decide)
    have h2 : startsWith (lit "inf") (s ++ 40 :: (t ++ [41])) = false := other_word' hf (by decide) (by decide) (by decide)
    have h3 : startsWith (lit "nan") (s ++ 40 :: (t ++ [41])) = true := startsWith_of_word hf
    have hl : s.length = 3 := forall2_length hf
    have hd : (s ++ 40 :: (t ++ [41])).drop 3 = 40 :: (t ++ [41]) := by rw [← hl, List.drop_left]
    have hc : countWhile isWordChar (t ++ [41]) = t.length := countWhile_append ht (by
      intro c hc
      simp at hc
      rw [← hc]
      decide)
    unfold scanBody
    simp only [h0, h1, h2, h3, Bool.false_eq_true, if_false, if_true, hd, List.head?_cons, List.drop_succ_cons, List.drop_zero, hc]
    rw [Nat.add_comm 1 t.length, List.drop_succ_cons, List.drop_left, if_pos ⟨trivial, rfl⟩]
    refine ⟨_, _, ?_, rfl, rfl⟩
    simp [hl]
    omega

/-! ## Whole texts -/

theorem strtofl_parts {ws sg w : Bytes} (hws : ∀ c ∈ ws, CSpace c) (hsg : Sign sg neg) (hw : sg = [] → ∀ c, w.head? = some c →
    isSpaceC c = false ∧ c ≠ 45 ∧ c ≠ 43) :
    strtofl F tiny (ws ++ (sg ++ w)) =
      match scanBody F tiny neg w with
      | none => ⟨.fin false 0 F.emin, 0, false⟩
      | some (v, n, errno) => ⟨v, ws.length + sg.length + n, errno⟩ := by
  have hc : countWhile isSpaceC (ws ++ (sg ++ w)) = ws.length := by
    refine countWhile_append (fun c hc => (isSpaceC_iff c).2 (hws c hc)) ?_
    intro c hc
    cases hsg with
    | none => exact (hw rfl c (by simpa using hc)).1
    | plus => simp at hc; rw [← hc]; decide
    | minus => simp at hc; rw [← hc]; decide
  unfold strtofl
  rw [hc]
  simp only [List.drop_left]
  cases hsg with
  | none =>
    have h1 : w.head? ≠ some 45 := fun h => (hw rfl _ h).2.1 rfl
    have h2 : w.head? ≠ some 43 := fun h => (hw rfl _ h).2.2 rfl
    have h3 : (w.head? == some 45) = false := by simpa using h1
    simp only [List.nil_append, h1, h2, h3, or_self, if_false, List.drop_zero]
    rfl
  | plus => rfl
  | minus => rfl

theorem word_head {w : Bytes} {d : Denotes} (h : FloatWord w d) : ∀ c, w.head? = some c → isSpaceC c = false ∧ c ≠ 45 ∧ c ≠ 43 := by
  have letter : ∀ (l : Byte) (w' s t : Bytes), Forall2 SameLetter s (l :: w') → 97 ≤ l.toNat → ∀ c, (s ++ t).head? = some c →
      isSpaceC c = false ∧ c ≠ 45 ∧ c ≠ 43 := by
    intro l w' s t hf hl c hc
    cases hf with
    | @cons c' _ _ _ h1 _ =>
      simp at hc
      subst hc
      have hge : 65 ≤ c'.toNat := by
        rcases h1 with h | h
        · rw [h]; omega
        · have := h.2.2; omega
      refine ⟨?_, ?_, ?_⟩
      · rw [← Bool.not_eq_true, isSpaceC_iff]
        rintro (h | h | h | h | h | h) <;> (rw [h] at hge; revert hge; decide)
      · rintro h; rw [h] at hge; revert hge; decide
      · rintro h; rw [h] at hge; revert hge; decide
  cases h with
  | decimal hM _ =>
    obtain ⟨h1, h2⟩ := mantissa10_head hM
    intro c hc
    rw [head_append h1] at hc
    rcases h2 c (List.mem_of_mem_head? hc) with h | rfl
    · exact ⟨digit_not_space h, digit_not_sign h⟩
    · decide
  | hex _ _ _ => intro c hc; simp at hc; rw [← hc]; decide
  | inf hf => simpa using letter _ _ w [] hf (by decide)
  | infinity hf => simpa using letter _ _ w [] hf (by decide)
  | nan hf => simpa using letter _ _ w [] hf (by decide)
  | nanOf hf _ => exact letter _ _ _ _ hf (by decide)

theorem strtofl_complete {s : Bytes} {d : Denotes} (h : FloatText s neg d) :
    (strtofl F tiny s).stop = s.length ∧ Out F tiny neg d (strtofl F tiny s).value (strtofl F tiny s).errno := by
  obtain ⟨ws, sg, w, rfl, h1, h2, h3⟩ := h
  rw [strtofl_parts h1 h2 (fun _ => word_head h3)]
  obtain ⟨v, err, hb, ho⟩ := body_complete (F := F) (tiny := tiny) (neg := neg) h3
  rw [hb]
  refine ⟨?_, ho⟩
  simp
  omega

theorem strtofl_sound {s : Bytes} (h0 : s ≠ []) (h : (strtofl F tiny s).stop = s.length) :
    ∃ neg d, FloatText s neg d ∧ Out F tiny neg d (strtofl F tiny s).value (strtofl F tiny s).errno := by
  obtain ⟨ws, r, rfl, hws, hr, hc⟩ := countWhile_split isSpaceC s
  obtain ⟨sg, w, neg, rfl, hsg, hw⟩ : ∃ sg w neg, r = sg ++ w ∧ Sign sg neg ∧ (sg = [] → ∀ c, w.head? = some c →
      isSpaceC c = false ∧ c ≠ 45 ∧ c ≠ 43) := by
    cases r with
    | nil => exact ⟨[], [], false, rfl, .none, by simp⟩
    | cons c t =>
      by_cases h1 : c = 45
      · exact ⟨[45], t, true, by rw [h1]; rfl, .minus, by simp⟩
      · by_cases h2 : c = 43
        · exact ⟨[43], t, false, by rw [h2]; rfl, .plus, by simp⟩
        · refine ⟨[], c :: t, false, rfl, .none, ?_⟩
          intro _ d hd
          simp at hd
          subst hd
          exact ⟨hr _ rfl, h1, h2⟩
  have hws' : ∀ c ∈ ws, CSpace c := fun c hc => (isSpaceC_iff c).1 (hws c hc)
  rw [strtofl_parts hws' hsg hw] at h ⊢
  cases hb : scanBody F tiny neg w with
  | none =>
    rw [hb] at h
    exact absurd (List.length_eq_zero_iff.1 h.symm) h0
  | some r =>
    obtain ⟨v, n, err⟩ := r
    rw [hb] at h
    simp only [List.length_append] at h
    have hn : n = w.length := by omega
    subst hn
    obtain ⟨d, hd, ho⟩ := body_sound hb
    exact ⟨neg, d, ⟨ws, sg, w, rfl, hws', hsg, hd⟩, ho⟩

end Coil.Floats
