import Verif.Proofs.Numerals

/-! # Lemmas about the serializers -/

namespace Coil
open Spec

/-! ## Texts without NUL -/

theorem cstr_of_nulFree {s : Bytes} (h : NulFree s) : cstr s = s := by
  unfold cstr
  induction s with
  | nil => rfl
  | cons c s ih =>
    have hc : c ≠ 0 := by
      rintro rfl
      exact h (by simp)
    have hs : NulFree s := fun h' => h (by simp [h'])
    rw [List.takeWhile_cons_of_pos (by simpa using hc), ih hs]

theorem nulFree_append {a b : Bytes} : NulFree (a ++ b) ↔ NulFree a ∧ NulFree b := by
  simp [NulFree]

theorem natDec_nulFree (n : Nat) : NulFree (natDec n) := by
  intro h
  have := (decimal_digits (natDec_decimal n)).2.1 0 h
  simp [isDigit] at this

theorem wrongSubvalues_nulFree (m n : Nat) : NulFree (wrongSubvalues m n) := by
  unfold wrongSubvalues
  simp only [nulFree_append]
  exact ⟨⟨⟨by unfold NulFree; decide, natDec_nulFree _⟩, by unfold NulFree; decide⟩, natDec_nulFree _⟩

theorem wrongSubvalues_ne_nil (m n : Nat) : wrongSubvalues m n ≠ [] := by
  unfold wrongSubvalues
  simp [lit]

theorem intName_nulFree (pl : Platform) (t : IntType) : NulFree (t.name pl) := by
  obtain ⟨a, b, c, d⟩ := pl
  unfold NulFree
  cases c <;> cases d <;> cases t <;> simp [IntType.name, lit]

/-! ## Text form of values -/

theorem valueStrLoop_eq (l : List Bytes) (pfx result : Bytes) :
    valueStrLoop l pfx result = if l = [] then result else result ++ pfx ++ joined l := by
  induction l generalizing pfx result with
  | nil => simp [valueStrLoop]
  | cons s rest ih =>
    rw [valueStrLoop, ih]
    cases rest with
    | nil => simp [joined]
    | cons t rest => simp [joined, List.intercalate_cons_cons]

theorem str_eq_joined (v : Value) : v.str = joined v.subvalues := by
  unfold GValue.str
  rw [valueStrLoop_eq]
  split
  · rename_i h
    rw [h]
    rfl
  · simp

theorem genericError_nil (n : Bytes) (v : Value) :
    genericError n v [] = cannotConvert (cstr (joined v.subvalues)) (cstr n) := by
  simp [genericError, cannotConvert, str_eq_joined]

theorem genericError_cons (n : Bytes) (v : Value) {d : Bytes} (h : d ≠ []) :
    genericError n v d = cannotConvertBecause (cstr (joined v.subvalues)) (cstr n) (cstr d) := by
  simp [genericError, cannotConvert, cannotConvertBecause, str_eq_joined, h, lit]

theorem mismatchError_eq (n : Bytes) (v : Value) (k : Nat) :
    mismatchError n v k =
      cannotConvertBecause (cstr (joined v.subvalues)) (cstr n) (wrongSubvalues k v.subvalues.length) := by
  have := genericError_cons n v (wrongSubvalues_ne_nil k v.subvalues.length)
  rw [cstr_of_nulFree (wrongSubvalues_nulFree _ _)] at this
  rw [← this]
  rfl

/-! ## Arithmetic types -/

theorem arithConv_single {α : Type} (name : Bytes) (parse : Bytes → Option α) (print : α → Bytes) (s : Bytes) :
    (arithConv name parse print).fromString ⟨[s]⟩ =
      match parse s with
      | some x => .ok (.ok x)
      | none => .ok (.error (cannotConvert (cstr s) (cstr name))) := by
  simp only [arithConv]
  cases parse s with
  | some x => rfl
  | none =>
    simp only
    rw [genericError_nil]
    simp [joined]

theorem arithConv_other {α : Type} (name : Bytes) (parse : Bytes → Option α) (print : α → Bytes) {v : Value}
    (h : v.subvalues.length ≠ 1) :
    (arithConv name parse print).fromString v = .ok (.error
      (cannotConvertBecause (cstr (joined v.subvalues)) (cstr name) (wrongSubvalues 1 v.subvalues.length))) := by
  obtain ⟨l⟩ := v
  match l with
  | [] => simp [arithConv, mismatchError_eq]
  | [s] => simp at h
  | a :: b :: l => simp [arithConv, mismatchError_eq]

theorem pow63 : (2 : Int) ^ (64 - 1) = 9223372036854775808 := by decide
theorem pow31 : (2 : Int) ^ (32 - 1) = 2147483648 := by decide

theorem signedAlias_iff {pl : Platform} {a b : Int} (ha : -2147483648 ≤ a) (hb : b ≤ 2147483647) {s : Bytes} {z : Int} :
    signedAlias pl a b s = some z ↔ Numeral s z ∧ a ≤ z ∧ z ≤ b := by
  have key : signedAlias pl a b s = some z ↔ signedFromString pl.longBits s = some z ∧ a ≤ z ∧ z ≤ b := by
    unfold signedAlias
    cases h : signedFromString pl.longBits s with
    | none => simp
    | some r =>
      simp only [Option.some.injEq]
      constructor
      · intro h'
        split at h'
        · simp at h'
        · simp at h'
          subst h'
          refine ⟨rfl, ?_⟩
          omega
      · rintro ⟨rfl, h1, h2⟩
        rw [if_neg (by omega)]
  rw [key, signedFromString_iff]
  unfold Platform.longBits
  split
  · rw [pow63]
    constructor
    · rintro ⟨⟨h1, _⟩, h2⟩; exact ⟨h1, h2⟩
    · rintro ⟨h1, h2⟩; exact ⟨⟨h1, by omega⟩, h2⟩
  · rw [pow31]
    constructor
    · rintro ⟨⟨h1, _⟩, h2⟩; exact ⟨h1, h2⟩
    · rintro ⟨h1, h2⟩; exact ⟨⟨h1, by omega⟩, h2⟩

/-- Signed types: the numerals in range. -/
theorem signed_fromString_iff {pl : Platform} {t : IntType} (ht : IsSignedParse t) {s : Bytes} {z : Int} :
    t.fromString pl s = some z ↔ Numeral s z ∧ InRange pl t z := by
  cases t <;> simp only [IsSignedParse] at ht <;>
    simp only [IntType.fromString, InRange, lo, hi]
  · split
    · exact signedAlias_iff (by decide) (by decide)
    · exact signedAlias_iff (by decide) (by decide)
  · exact signedAlias_iff (by decide) (by decide)
  · exact signedAlias_iff (by decide) (by decide)
  · exact signedAlias_iff (by decide) (by decide)
  · rw [signedFromString_iff]
    unfold Platform.longBits
    split
    · rw [pow63]; constructor
      · rintro ⟨h1, h2⟩; exact ⟨h1, by omega⟩
      · rintro ⟨h1, h2⟩; exact ⟨h1, by omega⟩
    · rw [pow31]; constructor
      · rintro ⟨h1, h2⟩; exact ⟨h1, by omega⟩
      · rintro ⟨h1, h2⟩; exact ⟨h1, by omega⟩
  · rw [signedFromString_iff, pow63]; constructor
    · rintro ⟨h1, h2⟩; exact ⟨h1, by omega⟩
    · rintro ⟨h1, h2⟩; exact ⟨h1, by omega⟩

/-- The width of the C library function an unsigned type is parsed with. -/
def parseBits (pl : Platform) : IntType → Nat
  | .ullong => 64
  | _ => pl.longBits

theorem unsignedAlias_iff {pl : Platform} {b : Int} {s : Bytes} {z : Int} :
    unsignedAlias pl b s = some z ↔ unsignedFromString pl.longBits s = some z ∧ z ≤ b := by
  unfold unsignedAlias
  cases h : unsignedFromString pl.longBits s with
  | none => simp
  | some r =>
    simp only [Option.some.injEq]
    constructor
    · intro h'
      split at h'
      · simp at h'
      · simp at h'
        subst h'
        refine ⟨rfl, ?_⟩
        omega
    · rintro ⟨rfl, h1⟩
      rw [if_neg (by omega)]

theorem unsigned_nonneg {bits : Nat} {s : Bytes} {z : Int} (h : unsignedFromString bits s = some z) :
    0 ≤ z ∧ z < 2 ^ bits := by
  have hcast : ((2 ^ bits : Nat) : Int) = (2 : Int) ^ bits := by norm_cast
  obtain ⟨_, neg, mag, _, h2, rfl⟩ := unsignedFromString_iff.1 h
  rw [← hcast]
  have := Nat.mod_lt (2 ^ bits - mag) (Nat.two_pow_pos bits)
  cases neg <;> simp only [Bool.false_eq_true, if_false, if_true] <;> omega

/-- Unsigned types: what is accepted, with the wrap of a minus sign after white space. -/
theorem unsigned_fromString_iff {pl : Platform} {t : IntType} (ht : ¬ IsSignedParse t) {s : Bytes} {z : Int} :
    t.fromString pl s = some z ↔ s.head? ≠ some 45 ∧ InRange pl t z ∧ ∃ neg mag, SignedNumeral s neg mag ∧
      mag < 2 ^ parseBits pl t ∧
      z = if neg then (((2 ^ parseBits pl t - mag) % 2 ^ parseBits pl t : Nat) : Int) else (mag : Int) := by
  have key : t.fromString pl s = some z ↔ unsignedFromString (parseBits pl t) s = some z ∧ InRange pl t z := by
    have hn := @unsigned_nonneg (parseBits pl t) s z
    cases t <;> simp only [IsSignedParse, not_true] at ht <;>
      simp only [IntType.fromString, InRange, lo, hi, parseBits] at *
    · rw [unsignedAlias_iff]
      exact ⟨fun h => ⟨h.1, (hn h.1).1, h.2⟩, fun h => ⟨h.1, h.2.2⟩⟩
    · rw [unsignedAlias_iff]
      exact ⟨fun h => ⟨h.1, (hn h.1).1, h.2⟩, fun h => ⟨h.1, h.2.2⟩⟩
    · rw [unsignedAlias_iff]
      exact ⟨fun h => ⟨h.1, (hn h.1).1, h.2⟩, fun h => ⟨h.1, h.2.2⟩⟩
    · refine ⟨fun h => ⟨h, (hn h).1, ?_⟩, fun h => h.1⟩
      have := (hn h).2
      unfold Platform.longBits at this
      split
      · rename_i hl
        rw [if_pos hl] at this
        have e : (2 : Int) ^ 64 = 18446744073709551616 := by decide
        rw [e] at this
        omega
      · rename_i hl
        rw [if_neg hl] at this
        have e : (2 : Int) ^ 32 = 4294967296 := by decide
        rw [e] at this
        omega
    · refine ⟨fun h => ⟨h, (hn h).1, ?_⟩, fun h => h.1⟩
      have := (hn h).2
      have e : (2 : Int) ^ 64 = 18446744073709551616 := by decide
      rw [e] at this
      omega
  rw [key, unsignedFromString_iff]
  constructor
  · rintro ⟨⟨h1, h2⟩, h3⟩; exact ⟨h1, h3, h2⟩
  · rintro ⟨h1, h3, h2⟩; exact ⟨⟨h1, h2⟩, h3⟩

theorem toString_signed {t : IntType} (ht : IsSignedParse t) (z : Int) : t.toString z = intDec z := by
  cases t <;> simp [IsSignedParse] at ht <;> rfl

theorem toString_unsigned {t : IntType} (ht : ¬ IsSignedParse t) {z : Int} (hz : 0 ≤ z) : t.toString z = natDec z.toNat := by
  obtain ⟨n, rfl⟩ := Int.eq_ofNat_of_zero_le hz
  cases t <;> simp [IsSignedParse] at ht <;> rfl

theorem hi_lt (pl : Platform) {t : IntType} (ht : ¬ IsSignedParse t) : hi pl t < 2 ^ parseBits pl t := by
  have h1 : (2 : Int) ^ 32 = 4294967296 := by decide
  have h2 : (2 : Int) ^ 64 = 18446744073709551616 := by decide
  cases t <;> simp only [IsSignedParse, not_true] at ht <;>
      simp only [hi, parseBits, Platform.longBits] <;> (try split) <;> omega

theorem unsigned_lo (pl : Platform) {t : IntType} (ht : ¬ IsSignedParse t) : lo pl t = 0 := by
  cases t <;> simp only [IsSignedParse, not_true] at ht <;> rfl

/-! ## `bool` -/

theorem forall2_length {α β : Type} {R : α → β → Prop} {a : List α} {b : List β} (h : Forall2 R a b) :
    a.length = b.length := by
  induction h with
  | nil => rfl
  | cons _ _ ih => simp [ih]

theorem sameLetter_iff {c d : Byte} (hd : ¬ (65 ≤ d ∧ d ≤ 90)) :
    SameLetter c d ↔ (if 65 ≤ c ∧ c ≤ 90 then c + 32 else c) = d := by
  unfold SameLetter
  simp only [UInt8.le_iff_toNat_le, ← UInt8.toNat_inj] at *
  have h65 : UInt8.toNat 65 = 65 := rfl
  have h90 : UInt8.toNat 90 = 90 := rfl
  have h32 : UInt8.toNat 32 = 32 := rfl
  have hc := c.toNat_lt
  split
  · rw [UInt8.toNat_add]
    omega
  · omega

theorem equalLoop_ascii {sg : Bool} {a b : Bytes} (hlen : a.length = b.length)
    (ha : sg = false ∨ ∀ c ∈ a, c < 128) (hb : ∀ d ∈ b, ¬ (65 ≤ d ∧ d ≤ 90) ∧ d < 128) :
    ∃ r, equalLoop sg a b = .ok r ∧ (r = true ↔ Forall2 SameLetter a b) := by
  induction a generalizing b with
  | nil =>
    cases b with
    | nil => exact ⟨true, rfl, by simp; exact .nil⟩
    | cons d b => simp at hlen
  | cons c a ih =>
    cases b with
    | nil => simp at hlen
    | cons d b =>
      obtain ⟨hd1, hd2⟩ := hb d (by simp)
      obtain ⟨r, hr, hiff⟩ := ih (b := b) (by simpa using hlen)
        (ha.imp id (fun h x hx => h x (by simp [hx]))) (fun x hx => hb x (by simp [hx]))
      have hnb : ¬ (sg = true ∧ 128 ≤ c ∧ c ≠ 255) := by
        rintro ⟨h1, h2, _⟩
        rcases ha with h | h
        · simp [h] at h1
        · have := h c (by simp)
          simp only [UInt8.le_iff_toNat_le, UInt8.lt_iff_toNat_lt] at *
          omega
      have hnd : ¬ (sg = true ∧ 128 ≤ d ∧ d ≠ 255) := by
        rintro ⟨h1, h2, _⟩
        simp only [UInt8.le_iff_toNat_le, UInt8.lt_iff_toNat_lt] at *
        omega
      have hstep : equalLoop sg (c :: a) (d :: b) =
          if (if 65 ≤ c ∧ c ≤ 90 then c + 32 else c) ≠ d then .ok false else equalLoop sg a b := by
        simp only [equalLoop, toLowerC, hnb, hnd, if_false, Res.bind_ok, hd1]
      rw [hstep]
      by_cases hs : SameLetter c d
      · rw [if_neg (fun h => h ((sameLetter_iff hd1).1 hs)), hr]
        refine ⟨r, rfl, hiff.trans ⟨fun h => .cons hs h, fun h => by cases h; assumption⟩⟩
      · rw [if_pos (fun h => hs ((sameLetter_iff hd1).2 h))]
        exact ⟨false, rfl, by simp; intro h; cases h; exact hs (by assumption)⟩

theorem equalCI_ascii {sg : Bool} {a b : Bytes}
    (ha : sg = false ∨ ∀ c ∈ a, c < 128) (hb : ∀ d ∈ b, ¬ (65 ≤ d ∧ d ≤ 90) ∧ d < 128) :
    ∃ r, equalCaseInsensitive sg a b = .ok r ∧ (r = true ↔ Forall2 SameLetter a b) := by
  unfold equalCaseInsensitive
  by_cases h : b.length = a.length
  · rw [if_neg (by simp [h])]
    exact equalLoop_ascii h.symm ha hb
  · rw [if_pos h]
    refine ⟨false, rfl, by simp; intro h'; exact h (forall2_length h').symm⟩

theorem lower_true : ∀ d ∈ lit "true", ¬ (65 ≤ d ∧ d ≤ 90) ∧ d < 128 := by decide
theorem lower_false : ∀ d ∈ lit "false", ¬ (65 ≤ d ∧ d ≤ 90) ∧ d < 128 := by decide

/-- The loop of the comparison meets a byte `tolower` is not defined for, after equal letters. -/
def BadByte (c : Byte) : Prop := 128 ≤ c ∧ c ≠ 255

theorem equalLoop_ub_iff {a b : Bytes} (hlen : a.length = b.length)
    (hb : ∀ d ∈ b, ¬ (65 ≤ d ∧ d ≤ 90) ∧ d < 128) :
    equalLoop true a b = .ub .toLowerRange ↔
      ∃ p c r w d q, a = p ++ c :: r ∧ b = w ++ d :: q ∧ Forall2 SameLetter p w ∧ BadByte c := by
  induction a generalizing b with
  | nil =>
    cases b with
    | nil => simp [equalLoop]
    | cons d b => simp at hlen
  | cons c a ih =>
    cases b with
    | nil => simp at hlen
    | cons d b =>
      obtain ⟨hd1, hd2⟩ := hb d (by simp)
      have ih := ih (b := b) (by simpa using hlen) (fun x hx => hb x (by simp [hx]))
      have hnd : ¬ (128 ≤ d ∧ d ≠ 255) := by
        rintro ⟨h2, _⟩
        simp only [UInt8.le_iff_toNat_le, UInt8.lt_iff_toNat_lt] at *
        omega
      by_cases hbad : BadByte c
      · have hb' : 128 ≤ c ∧ c ≠ 255 := hbad
        constructor
        · intro _
          exact ⟨[], c, a, [], d, b, rfl, rfl, .nil, hbad⟩
        · intro _
          simp [equalLoop, toLowerC, hb']
      · have hb' : ¬ (128 ≤ c ∧ c ≠ 255) := hbad
        have hstep : equalLoop true (c :: a) (d :: b) =
            if (if 65 ≤ c ∧ c ≤ 90 then c + 32 else c) ≠ d then .ok false else equalLoop true a b := by
          simp only [equalLoop, toLowerC, true_and, hb', hnd, if_false, Res.bind_ok, hd1]
        rw [hstep]
        by_cases hs : SameLetter c d
        · rw [if_neg (fun h => h ((sameLetter_iff hd1).1 hs)), ih]
          constructor
          · rintro ⟨p, c', r, w, d', q, rfl, rfl, h1, h2⟩
            exact ⟨c :: p, c', r, d :: w, d', q, rfl, rfl, .cons hs h1, h2⟩
          · rintro ⟨p, c', r, w, d', q, e1, e2, h1, h2⟩
            cases h1 with
            | nil =>
              simp at e1
              rw [← e1.1] at h2
              exact absurd h2 hbad
            | cons h3 h4 =>
              simp at e1 e2
              exact ⟨_, c', r, _, d', q, e1.2, e2.2, h4, h2⟩
        · rw [if_pos (fun h => hs ((sameLetter_iff hd1).2 h))]
          simp only [reduceCtorEq, false_iff]
          rintro ⟨p, c', r, w, d', q, e1, e2, h1, h2⟩
          cases h1 with
          | nil =>
            simp at e1
            rw [← e1.1] at h2
            exact absurd h2 hbad
          | cons h3 h4 =>
            simp at e1 e2
            rw [← e1.1, ← e2.1] at h3
            exact hs h3

theorem toLowerC_cases (sg : Bool) (c : Byte) :
    (∃ r, toLowerC sg c = .ok r) ∨ (sg = true ∧ toLowerC sg c = .ub .toLowerRange) := by
  unfold toLowerC
  by_cases h : sg = true ∧ 128 ≤ c ∧ c ≠ 255
  · rw [if_pos h]; exact .inr ⟨h.1, rfl⟩
  · rw [if_neg h]; exact .inl ⟨_, rfl⟩

theorem equalLoop_cases (sg : Bool) (a b : Bytes) : (∃ r, equalLoop sg a b = .ok r) ∨
    (sg = true ∧ equalLoop sg a b = .ub .toLowerRange) := by
  induction a generalizing b with
  | nil => cases b <;> exact .inl ⟨true, rfl⟩
  | cons c a ih =>
    cases b with
    | nil => exact .inl ⟨true, rfl⟩
    | cons d b =>
      simp only [equalLoop]
      rcases toLowerC_cases sg c with ⟨x, hx⟩ | ⟨h1, h2⟩
      · rcases toLowerC_cases sg d with ⟨y, hy⟩ | ⟨h1, h2⟩
        · simp only [hx, hy, Res.bind_ok]
          split
          · exact .inl ⟨_, rfl⟩
          · exact ih b
        · exact .inr ⟨h1, by simp only [hx, h2, Res.bind_ok, Res.bind_ub]⟩
      · exact .inr ⟨h1, by simp only [h2, Res.bind_ub]⟩

theorem equalLoop_unsigned (a b : Bytes) : ∃ r, equalLoop false a b = .ok r := by
  rcases equalLoop_cases false a b with h | h
  · exact h
  · simp at h

theorem equalLoop_total (sg : Bool) (a b : Bytes) : (∃ r, equalLoop sg a b = .ok r) ∨
    equalLoop sg a b = .ub .toLowerRange := (equalLoop_cases sg a b).imp id (·.2)

/-! ## Vectors -/

theorem onTemporary_eq {α : Type} {c : Conv α} (hc : c.byRef = false) (s : Bytes) : c.onTemporary s = c.fromString ⟨[s]⟩ := by
  unfold Conv.onTemporary
  rcases c.fromString ⟨[s]⟩ with (e | x) | _ | _ <;> simp [hc]

/-- An element that does not convert is reported in any case. -/
theorem onTemporary_error {α : Type} {c : Conv α} {s e : Bytes} (h : c.fromString ⟨[s]⟩ = .ok (.error e)) :
    c.onTemporary s = .ok (.error e) := by
  simp [Conv.onTemporary, h]

/-- An element that would only be referred to is gone. -/
theorem onTemporary_dead {α : Type} {c : Conv α} (hc : c.byRef = true) {s : Bytes} {x : α} (h : c.fromString ⟨[s]⟩ = .ok (.ok x)) :
    c.onTemporary s = .ub .deadObject := by
  simp [Conv.onTemporary, h, hc]

theorem vecLoop_ok_iff {α : Type} {c : Conv α} (hc : c.byRef = false) {n : Bytes} {v : Value} {l : List Bytes} {acc xs : List α} :
    vecLoop c n v l acc = .ok (.ok xs) ↔
      ∃ ys, xs = acc ++ ys ∧ Forall2 (fun s x => c.fromString ⟨[s]⟩ = .ok (.ok x)) l ys := by
  induction l generalizing acc with
  | nil =>
    simp only [vecLoop, Res.ok.injEq, Except.ok.injEq]
    constructor
    · rintro rfl
      exact ⟨[], by simp, .nil⟩
    · rintro ⟨ys, rfl, h⟩
      cases h
      simp
  | cons s l ih =>
    simp only [vecLoop, onTemporary_eq hc]
    constructor
    · intro h
      obtain ⟨r, hr, h⟩ := Res.bind_eq_ok.1 h
      cases r with
      | error e => simp at h
      | ok x =>
        simp only at h
        obtain ⟨ys, h1, h2⟩ := ih.1 h
        exact ⟨x :: ys, by simp [h1], .cons hr h2⟩
    · rintro ⟨ys, rfl, h⟩
      cases h with
      | @cons _ x _ ys h1 h2 =>
        rw [h1, Res.bind_ok]
        exact ih.2 ⟨ys, by simp, h2⟩

theorem vecLoop_error_iff {α : Type} {c : Conv α} (hc : c.byRef = false) {n : Bytes} {v : Value} {l : List Bytes} {acc : List α} {m : Bytes} :
    vecLoop c n v l acc = .ok (.error m) ↔
      ∃ pre s post ys e, l = pre ++ s :: post ∧
        Forall2 (fun s x => c.fromString ⟨[s]⟩ = .ok (.ok x)) pre ys ∧
        c.fromString ⟨[s]⟩ = .ok (.error e) ∧ m = genericError n v e := by
  induction l generalizing acc with
  | nil => simp [vecLoop]
  | cons s l ih =>
    simp only [vecLoop, onTemporary_eq hc]
    constructor
    · intro h
      obtain ⟨r, hr, h⟩ := Res.bind_eq_ok.1 h
      cases r with
      | error e =>
        simp at h
        exact ⟨[], s, l, [], e, rfl, .nil, hr, h.symm⟩
      | ok x =>
        simp only at h
        obtain ⟨pre, s', post, ys, e, rfl, h2, h3, h4⟩ := ih.1 h
        exact ⟨s :: pre, s', post, x :: ys, e, rfl, .cons hr h2, h3, h4⟩
    · rintro ⟨pre, s', post, ys, e, h0, h1, h2, rfl⟩
      cases h1 with
      | nil =>
        simp at h0
        rw [h0.1, h2]
        rfl
      | cons h1 h1' =>
        simp at h0
        rw [h0.1, h1, Res.bind_ok]
        exact ih.2 ⟨_, s', post, _, e, h0.2, h1', h2, rfl⟩

theorem vecPrintLoop_eq {α : Type} (c : Conv α) (l : List α) (sep result : Bytes) :
    vecPrintLoop c l sep result = if l = [] then result else result ++ sep ++ (lit ", ").intercalate (l.map c.toString) := by
  induction l generalizing sep result with
  | nil => simp [vecPrintLoop]
  | cons s rest ih =>
    rw [vecPrintLoop, ih]
    cases rest with
    | nil => simp
    | cons t rest => simp [List.intercalate_cons_cons]

end Coil
