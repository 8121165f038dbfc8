import Verif.Proofs.Conv
import Verif.Proofs.LexMain

/-!
# Properties of conversions (C11 - C19, C50, conversion part of C43)
-/

namespace Coil
open Spec

/-- The usual 64-bit Linux build, for the examples. -/
def linux64 : Platform := ⟨true, true, false, true⟩

/-! ## C11 -/

/-- **C11.** For every integer type and every value of that type, printing and parsing gives the
value back. -/
theorem C11_int_roundtrip (pl : Platform) (t : IntType) {z : Int} (hz : InRange pl t z) :
    (intConv pl t).fromString ⟨[(intConv pl t).toString z]⟩ = .ok (.ok z) := by
  unfold intConv
  rw [arithConv_single]
  have : t.fromString pl (t.toString z) = some z := by
    by_cases ht : IsSignedParse t
    · rw [toString_signed ht]
      exact (signed_fromString_iff ht).2 ⟨intDec_numeral z, hz⟩
    · have h0 : 0 ≤ z := by
        have := hz.1
        rwa [unsigned_lo pl ht] at this
      rw [toString_unsigned ht h0]
      refine (unsigned_fromString_iff ht).2 ⟨natDec_head, hz, false, z.toNat, natDec_numeral _, ?_, ?_⟩
      · have h1 := hi_lt pl ht
        have h2 := hz.2
        have hcast : ((2 ^ parseBits pl t : Nat) : Int) = (2 : Int) ^ parseBits pl t := by norm_cast
        rw [← hcast] at h1
        omega
      · simp
        omega
  have e : (arithConv (t.name pl) (t.fromString pl) t.toString).toString z = t.toString z := rfl
  rw [e, this]

example : InRange linux64 .schar (-128) ∧ InRange linux64 .ullong 18446744073709551615 := by
  unfold InRange; decide
example : (intConv linux64 .short).toString (-32768) = lit "-32768" := by decide +kernel

/-- **C11.** Printing is injective: different values never print alike. -/
theorem C11_int_print_injective (pl : Platform) (t : IntType) {z z' : Int} (hz : InRange pl t z) (hz' : InRange pl t z')
    (h : (intConv pl t).toString z = (intConv pl t).toString z') : z = z' := by
  have h1 := C11_int_roundtrip pl t hz
  have h2 := C11_int_roundtrip pl t hz'
  rw [h, h2] at h1
  simpa using h1.symm

/-! ## C12 -/

/-- **C12.** A signed type accepts exactly the numerals in its range, and the result is the number. -/
theorem C12_signed_iff {pl : Platform} {t : IntType} (ht : IsSignedParse t) {s : Bytes} {z : Int} :
    (intConv pl t).fromString ⟨[s]⟩ = .ok (.ok z) ↔ Numeral s z ∧ InRange pl t z := by
  rw [← signed_fromString_iff ht]
  unfold intConv
  rw [arithConv_single]
  cases t.fromString pl s <;> simp

/-- **C12.** Everything else is rejected with an error that quotes the text and names the type. -/
theorem C12_signed_reject {pl : Platform} {t : IntType} (ht : IsSignedParse t) {s : Bytes}
    (h : ¬ ∃ z, Numeral s z ∧ InRange pl t z) :
    (intConv pl t).fromString ⟨[s]⟩ = .ok (.error (cannotConvert (cstr s) (t.name pl))) := by
  have : t.fromString pl s = none := by
    cases h' : t.fromString pl s with
    | none => rfl
    | some z => exact absurd ⟨z, (signed_fromString_iff ht).1 h'⟩ h
  unfold intConv
  rw [arithConv_single, this, cstr_of_nulFree (intName_nulFree pl t)]

/-- **C12.** A text denotes at most one number. -/
theorem C12_numeral_unique {s : Bytes} {z z' : Int} (h : Numeral s z) (h' : Numeral s z') : z = z' := by
  obtain ⟨n, m, h1, rfl⟩ := h
  obtain ⟨n', m', h2, rfl⟩ := h'
  obtain ⟨rfl, rfl⟩ := signedNumeral_unique h1 h2
  rfl

/-- **C12.** Corollary: a number outside the range is rejected, whatever it is. -/
theorem C12_out_of_range {pl : Platform} {t : IntType} (ht : IsSignedParse t) {s : Bytes} {z : Int}
    (h : Numeral s z) (hz : ¬ InRange pl t z) :
    (intConv pl t).fromString ⟨[s]⟩ = .ok (.error (cannotConvert (cstr s) (t.name pl))) := by
  refine C12_signed_reject ht ?_
  rintro ⟨z', h1, h2⟩
  rw [C12_numeral_unique h h1] at hz
  exact hz h2

example : (intConv linux64 .int).fromString ⟨[lit " \t-2147483648"]⟩ = .ok (.ok (-2147483648)) := by decide +kernel
example : (intConv linux64 .int).fromString ⟨[lit "2147483648"]⟩ =
    .ok (.error (lit "Unable to convert '2147483648' to type 'int'")) := by decide +kernel
example : (intConv linux64 .schar).fromString ⟨[lit "1 "]⟩ =
    .ok (.error (lit "Unable to convert '1 ' to type 'signed char'")) := by decide +kernel
example : Numeral (lit " -12") (-12) :=
  ⟨true, 12, ⟨[32], [45], [49, 50], rfl, by intro c h; simp at h; simp [h, CSpace], .minus,
    .snoc (ds := [49]) (.one (.mk (n := 1) (by decide) rfl)) (.mk (n := 2) (by decide) rfl)⟩, rfl⟩

/-! ## C13 -/

/-- **C13, negation.** On every platform `" -1"` is accepted as an `unsigned long`, although it denotes -1. -/
theorem C13_false (pl : Platform) : ∃ z, (intConv pl .ulong).fromString ⟨[lit " -1"]⟩ = .ok (.ok z) ∧
    0 < z ∧ Numeral (lit " -1") (-1) := by
  have hn : SignedNumeral (lit " -1") true 1 := ⟨[32], [45], [49], rfl,
    by intro c h; simp at h; simp [h, CSpace], .minus, .one (.mk (n := 1) (by decide) rfl)⟩
  refine ⟨hi pl .ulong, ?_, ?_, ⟨true, 1, hn, rfl⟩⟩
  · obtain ⟨a, b, c, d⟩ := pl
    have : IntType.fromString ⟨a, b, c, d⟩ .ulong (lit " -1") = some (hi ⟨a, b, c, d⟩ .ulong) := by
      refine (unsigned_fromString_iff (by simp [IsSignedParse])).2 ⟨by decide, ?_, true, 1, hn, ?_, ?_⟩
      · cases a <;> simp [InRange, hi, lo]
      · cases a <;> simp [parseBits, Platform.longBits]
      · cases a <;> simp [parseBits, Platform.longBits, hi]
    unfold intConv
    rw [arithConv_single, this]
  · obtain ⟨a, b, c, d⟩ := pl
    cases a <;> simp [hi]

/-- **C13, negation.** With a 64-bit `long`, `unsigned int` accepts a huge negative number and yields 1. -/
theorem C13_false_uint : (intConv linux64 .uint).fromString ⟨[lit " -18446744073709551615"]⟩ = .ok (.ok 1) := by
  decide +kernel

/-- **C13.** Exactly what an unsigned type accepts. -/
theorem C13_unsigned_iff {pl : Platform} {t : IntType} (ht : ¬ IsSignedParse t) {s : Bytes} {z : Int} :
    (intConv pl t).fromString ⟨[s]⟩ = .ok (.ok z) ↔ s.head? ≠ some 45 ∧ InRange pl t z ∧
      ∃ neg mag, SignedNumeral s neg mag ∧ mag < 2 ^ parseBits pl t ∧
        z = if neg then (((2 ^ parseBits pl t - mag) % 2 ^ parseBits pl t : Nat) : Int) else (mag : Int) := by
  rw [← unsigned_fromString_iff ht]
  unfold intConv
  rw [arithConv_single]
  cases t.fromString pl s <;> simp

/-- **C13, partial.** Missing: texts with white space followed by a minus sign. For texts without a minus sign an
unsigned type accepts exactly the numerals in its range, and the result is the number. -/
theorem C13_unsigned_partial {pl : Platform} {t : IntType} (ht : ¬ IsSignedParse t) {s : Bytes} {z : Int}
    (hs : (45 : Byte) ∉ s) :
    (intConv pl t).fromString ⟨[s]⟩ = .ok (.ok z) ↔ Numeral s z ∧ InRange pl t z := by
  rw [C13_unsigned_iff ht]
  have hneg : ∀ neg mag, SignedNumeral s neg mag → neg = false := by
    rintro neg mag ⟨ws, sg, ds, rfl, _, h2, _⟩
    cases h2 with
    | none => rfl
    | plus => rfl
    | minus => exact absurd (by simp) hs
  constructor
  · rintro ⟨_, h1, neg, mag, h2, _, rfl⟩
    exact ⟨⟨neg, mag, h2, by simp [hneg _ _ h2]⟩, h1⟩
  · rintro ⟨⟨neg, mag, h2, rfl⟩, h1⟩
    have := hneg _ _ h2
    subst this
    refine ⟨?_, h1, false, mag, h2, ?_, rfl⟩
    · intro h
      exact hs (List.mem_of_head? h)
    · have h3 := hi_lt pl ht
      have h4 := h1.2
      have hcast : ((2 ^ parseBits pl t : Nat) : Int) = (2 : Int) ^ parseBits pl t := by norm_cast
      rw [← hcast] at h3
      simp at h4
      omega

/-- **C13, partial.** Missing: texts that begin with white space. For all others the claim of the property holds: only
non-negative numbers in range are accepted, with their value. -/
theorem C13_no_leading_space_partial {pl : Platform} {t : IntType} (ht : ¬ IsSignedParse t) {s : Bytes} {z : Int}
    (hs : ∀ c, s.head? = some c → ¬ CSpace c)
    (h : (intConv pl t).fromString ⟨[s]⟩ = .ok (.ok z)) : Numeral s z ∧ InRange pl t z := by
  obtain ⟨h0, h1, neg, mag, h2, _, rfl⟩ := (C13_unsigned_iff ht).1 h
  have : neg = false := by
    obtain ⟨ws, sg, ds, rfl, g1, g2, _⟩ := h2
    cases ws with
    | nil =>
      cases g2 with
      | none => rfl
      | plus => rfl
      | minus => simp at h0
    | cons c ws => exact absurd (g1 c (by simp)) (hs c rfl)
  subst this
  exact ⟨⟨false, mag, h2, rfl⟩, h1⟩

/-- **C13.** Whatever is accepted, the result is a value of the type. -/
theorem C13_result_in_range {pl : Platform} {t : IntType} {s : Bytes} {z : Int}
    (h : (intConv pl t).fromString ⟨[s]⟩ = .ok (.ok z)) : InRange pl t z := by
  by_cases ht : IsSignedParse t
  · exact ((C12_signed_iff ht).1 h).2
  · exact ((C13_unsigned_iff ht).1 h).2.1

example : (intConv linux64 .uchar).fromString ⟨[lit "255"]⟩ = .ok (.ok 255) := by decide +kernel
example : (intConv linux64 .uchar).fromString ⟨[lit "256"]⟩ =
    .ok (.error (lit "Unable to convert '256' to type 'unsigned char'")) := by decide +kernel
example : (intConv linux64 .uint).fromString ⟨[lit "-1"]⟩ =
    .ok (.error (lit "Unable to convert '-1' to type 'unsigned int'")) := by decide +kernel
example : (45 : Byte) ∉ lit " +7" ∧ ∀ c, (lit "+7").head? = some c → ¬ CSpace c := by
  refine ⟨by decide, ?_⟩
  intro c h
  have : c = 43 := by simpa [lit] using h.symm
  subst this
  unfold CSpace
  decide

/-! ## C14 -/

theorem boolConv_cases {pl : Platform} {s : Bytes} {r1 r2 : Bool}
    (h1 : equalCaseInsensitive pl.charSigned s (lit "true") = .ok r1)
    (h2 : equalCaseInsensitive pl.charSigned s (lit "false") = .ok r2) :
    (boolConv pl).fromString ⟨[s]⟩ =
      if s = lit "1" ∨ r1 = true ∧ s ≠ lit "0" then .ok (.ok true)
      else if s = lit "0" ∨ r2 = true then .ok (.ok false)
      else .ok (.error (cannotConvert (cstr s) (lit "bool"))) := by
  have he : genericError (lit "bool") ⟨[s]⟩ [] = cannotConvert (cstr s) (lit "bool") := by
    rw [genericError_nil, cstr_of_nulFree (s := lit "bool") (by unfold NulFree; decide)]
    simp [joined]
  simp only [boolConv, h1, h2, Res.bind_ok, he]
  by_cases a : s = lit "1"
  · simp [a]
  · by_cases b : s = lit "0"
    · have : lit "0" ≠ lit "1" := by decide
      simp [b, this]
    · cases r1 <;> cases r2 <;> simp [a, b]

/-- **C14, negation.** With signed `char`, converting the four bytes `tru\x80` to `bool` is undefined. -/
theorem C14_false : (boolConv linux64).fromString ⟨[lit "tru" ++ [128]]⟩ = .ub .toLowerRange := by decide +kernel

/-- **C14, partial.** Missing: texts with bytes above 127 where `char` is signed. For all others conversion is defined
and accepts exactly the documented words. -/
theorem C14_bool_iff_partial {pl : Platform} {s : Bytes} (hs : pl.charSigned = false ∨ ∀ c ∈ s, c < 128) (b : Bool) :
    (boolConv pl).fromString ⟨[s]⟩ = .ok (.ok b) ↔ BoolWord s b := by
  obtain ⟨r1, h1, i1⟩ := equalCI_ascii (b := lit "true") hs lower_true
  obtain ⟨r2, h2, i2⟩ := equalCI_ascii (b := lit "false") hs lower_false
  rw [boolConv_cases h1 h2]
  have hlen : ∀ {w : Bytes}, Forall2 SameLetter s w → s.length = w.length := forall2_length
  have l1 : r1 = true → s.length = 4 := fun h => hlen (i1.1 h)
  have l2 : r2 = true → s.length = 5 := fun h => hlen (i2.1 h)
  constructor
  · intro h
    split at h
    · rename_i hc
      simp at h
      subst h
      rcases hc with rfl | ⟨hc, _⟩
      · exact .one
      · exact .true (i1.1 hc)
    · split at h
      · rename_i hc
        simp at h
        subst h
        rcases hc with rfl | hc
        · exact .zero
        · exact .false (i2.1 hc)
      · simp at h
  · intro h
    cases h with
    | one => simp
    | zero =>
      have n1 : lit "0" ≠ lit "1" := by decide
      simp [n1]
    | true h =>
      have h4 := hlen h
      have hr := i1.2 h
      have n0 : s ≠ lit "0" := by rintro rfl; simp [lit] at h4
      simp [hr, n0]
    | false h =>
      have h5 := hlen h
      have hr := i2.2 h
      have n1 : s ≠ lit "1" := by rintro rfl; simp [lit] at h5
      have nr : r1 ≠ true := by
        intro h'
        have := l1 h'
        rw [h5] at this
        simp [lit] at this
      simp [hr, n1, nr]

/-- **C14, partial.** Every other text, under the same condition, is rejected with an error that quotes it. -/
theorem C14_bool_reject_partial {pl : Platform} {s : Bytes} (hs : pl.charSigned = false ∨ ∀ c ∈ s, c < 128)
    (h : ∀ b, ¬ BoolWord s b) :
    (boolConv pl).fromString ⟨[s]⟩ = .ok (.error (cannotConvert (cstr s) (lit "bool"))) := by
  obtain ⟨r1, h1, i1⟩ := equalCI_ascii (b := lit "true") hs lower_true
  obtain ⟨r2, h2, i2⟩ := equalCI_ascii (b := lit "false") hs lower_false
  rw [boolConv_cases h1 h2, if_neg, if_neg]
  · rintro (rfl | hr)
    · exact h _ .zero
    · exact h _ (.false (i2.1 hr))
  · rintro (rfl | ⟨hr, _⟩)
    · exact h _ .one
    · exact h _ (.true (i1.1 hr))

/-- **C14.** On every platform and for every text: conversion succeeds exactly for the documented words, with their meaning. -/
theorem C14_bool_accept_iff {pl : Platform} {s : Bytes} {b : Bool} : (boolConv pl).fromString ⟨[s]⟩ = .ok (.ok b) ↔ BoolWord s b := by
  have small : ∀ {s w : Bytes}, Forall2 SameLetter s w → (∀ d ∈ w, ¬ (65 ≤ d ∧ d ≤ 90) ∧ d < 128) → ∀ c ∈ s, c < 128 := by
    intro s w h
    induction h with
    | nil => intro _ c hc; cases hc
    | @cons c d s w hcd _ ih =>
      intro hw x hx
      rcases List.mem_cons.1 hx with rfl | hx
      · have hd := (hw d (by simp)).2
        rcases hcd with rfl | ⟨_, h2, h3⟩
        · exact hd
        · rw [UInt8.lt_iff_toNat_lt]
          show _ < 128
          omega
      · exact ih (fun d hd => hw d (by simp [hd])) x hx
  have loop : ∀ {s w : Bytes}, s.length = w.length → (∀ d ∈ w, ¬ (65 ≤ d ∧ d ≤ 90) ∧ d < 128) → equalLoop pl.charSigned s w = .ok true →
      Forall2 SameLetter s w := by
    intro s
    induction s with
    | nil => intro w hl _ _; cases w with
      | nil => exact .nil
      | cons => cases hl
    | cons c s ih =>
      intro w hl hw h
      cases w with
      | nil => cases hl
      | cons d w =>
        have hd := (hw d (by simp)).1
        have low : ∀ {c x : Byte}, toLowerC pl.charSigned c = .ok x → x = if 65 ≤ c ∧ c ≤ 90 then c + 32 else c := by
          intro c x hx
          unfold toLowerC at hx
          split at hx
          · cases hx
          · exact (Res.ok.inj hx).symm
        simp only [equalLoop] at h
        obtain ⟨x, hx, h⟩ := Res.bind_eq_ok.1 h
        obtain ⟨y, hy, h⟩ := Res.bind_eq_ok.1 h
        have ey := low hy
        rw [if_neg hd] at ey
        split at h
        · cases h
        · rename_i hne
          have e : x = y := Classical.not_not.1 hne
          rw [low hx, ey] at e
          exact .cons ((sameLetter_iff hd).2 e) (ih (by simpa using hl) (fun x hx => hw x (by simp [hx])) h)
  have equal : ∀ {w : Bytes}, (∀ d ∈ w, ¬ (65 ≤ d ∧ d ≤ 90) ∧ d < 128) → equalCaseInsensitive pl.charSigned s w = .ok true → Forall2 SameLetter s w := by
    intro w hw h
    unfold equalCaseInsensitive at h
    split at h
    · cases h
    · rename_i hl
      exact loop (by simpa using Eq.symm (Classical.not_not.1 hl)) hw h
  constructor
  · intro h
    simp only [boolConv] at h
    split at h
    · rename_i e; subst e; cases h; exact .one
    · split at h
      · rename_i e; subst e; cases h; exact .zero
      · obtain ⟨r1, h1, h⟩ := Res.bind_eq_ok.1 h
        cases r1 with
        | true => cases h; exact .true (equal lower_true h1)
        | false =>
          obtain ⟨r2, h2, h⟩ := Res.bind_eq_ok.1 h
          cases r2 with
          | true => cases h; exact .false (equal lower_false h2)
          | false => cases h
  · intro h
    refine (C14_bool_iff_partial (.inr ?_) b).2 h
    cases h with
    | one => decide
    | zero => decide
    | true h => exact small h lower_true
    | false h => exact small h lower_false

/-- **C14.** Exactly when conversion to `bool` is undefined: signed `char`, and after a (possibly empty) prefix of
`true` or `false`, in any letter case, there is a byte in 0x80..0xFE, in a text as long as that word. -/
theorem C14_bool_ub_iff {pl : Platform} {s : Bytes} :
    (boolConv pl).fromString ⟨[s]⟩ = .ub .toLowerRange ↔ pl.charSigned = true ∧
      ∃ w, (w = lit "true" ∨ w = lit "false") ∧ s.length = w.length ∧
        ∃ p c r p' d r', s = p ++ c :: r ∧ w = p' ++ d :: r' ∧ Forall2 SameLetter p p' ∧ 128 ≤ c ∧ c ≠ 255 := by
  have hub : ∀ {w : Bytes}, equalCaseInsensitive pl.charSigned s w = .ub .toLowerRange →
      pl.charSigned = true ∧ w.length = s.length ∧ equalLoop true s w = .ub .toLowerRange := by
    intro w h
    unfold equalCaseInsensitive at h
    split at h
    · simp at h
    · rename_i hl
      have hl : w.length = s.length := by simpa using hl
      cases hcs : pl.charSigned with
      | true => exact ⟨rfl, hl, hcs ▸ h⟩
      | false =>
        obtain ⟨r, hr⟩ := equalLoop_unsigned s w
        rw [hcs, hr] at h
        simp at h
  have tot : ∀ {w : Bytes}, (∃ r, equalCaseInsensitive pl.charSigned s w = .ok r) ∨
      equalCaseInsensitive pl.charSigned s w = .ub .toLowerRange := by
    intro w
    unfold equalCaseInsensitive
    split
    · exact .inl ⟨_, rfl⟩
    · exact equalLoop_total _ s w
  have start : (boolConv pl).fromString ⟨[s]⟩ = .ub .toLowerRange ↔
      equalCaseInsensitive pl.charSigned s (lit "true") = .ub .toLowerRange ∨
      equalCaseInsensitive pl.charSigned s (lit "false") = .ub .toLowerRange := by
    by_cases a : s = lit "1"
    · subst a
      simp [boolConv, equalCaseInsensitive, lit]
    · by_cases b : s = lit "0"
      · subst b
        simp [boolConv, equalCaseInsensitive, lit]
      · simp only [boolConv, a, b, if_false]
        rcases tot (w := lit "true") with ⟨r1, h1⟩ | h1
        · rcases tot (w := lit "false") with ⟨r2, h2⟩ | h2
          · cases r1 <;> cases r2 <;> simp [h1, h2]
          · cases r1 with
            | false => simp [h1, h2]
            | true =>
              exfalso
              have l1 : (lit "true").length = s.length := by
                unfold equalCaseInsensitive at h1
                split at h1
                · simp at h1
                · rename_i h; simpa using h
              have l2 := (hub h2).2.1
              rw [← l1] at l2
              simp [lit] at l2
        · simp [h1]
  rw [start]
  constructor
  · rintro (h | h)
    · obtain ⟨h1, h2, h3⟩ := hub h
      obtain ⟨p, c, r, p', d, r', e1, e2, e3, e4, e5⟩ := (equalLoop_ub_iff h2.symm lower_true).1 h3
      exact ⟨h1, _, .inl rfl, h2.symm, p, c, r, p', d, r', e1, e2, e3, e4, e5⟩
    · obtain ⟨h1, h2, h3⟩ := hub h
      obtain ⟨p, c, r, p', d, r', e1, e2, e3, e4, e5⟩ := (equalLoop_ub_iff h2.symm lower_false).1 h3
      exact ⟨h1, _, .inr rfl, h2.symm, p, c, r, p', d, r', e1, e2, e3, e4, e5⟩
  · rintro ⟨h1, w, hw, hl, p, c, r, p', d, r', e1, e2, e3, e4, e5⟩
    have : equalCaseInsensitive pl.charSigned s w = .ub .toLowerRange := by
      unfold equalCaseInsensitive
      rw [if_neg (by simp [hl]), h1]
      refine (equalLoop_ub_iff hl ?_).2 ⟨p, c, r, p', d, r', e1, e2, e3, e4, e5⟩
      rcases hw with rfl | rfl
      · exact lower_true
      · exact lower_false
    rcases hw with rfl | rfl
    · exact .inl this
    · exact .inr this

/-- **C14.** `bool` to text and back. -/
theorem C14_bool_roundtrip (pl : Platform) (b : Bool) :
    (boolConv pl).fromString ⟨[(boolConv pl).toString b]⟩ = .ok (.ok b) := by
  refine (C14_bool_iff_partial (.inr ?_) b).2 ?_
  · have : ∀ b : Bool, ∀ c ∈ (if b then lit "true" else lit "false"), c < 128 := by decide
    exact this b
  · cases b
    · exact .false (.cons (.inl rfl) (.cons (.inl rfl) (.cons (.inl rfl) (.cons (.inl rfl) (.cons (.inl rfl) .nil)))))
    · exact .true (.cons (.inl rfl) (.cons (.inl rfl) (.cons (.inl rfl) (.cons (.inl rfl) .nil))))

example : (boolConv linux64).fromString ⟨[lit "TrUe"]⟩ = .ok (.ok true) := by decide +kernel
example : (boolConv linux64).fromString ⟨[lit "yes"]⟩ =
    .ok (.error (lit "Unable to convert 'yes' to type 'bool'")) := by decide +kernel
example : BoolWord (lit "fAlSE") false :=
  (C14_bool_iff_partial (pl := linux64) (.inr (by decide)) false).1 (by decide +kernel)

/-! ## C15 -/

/-- **C15.** Integers reject every value without exactly one sub-value; the error states both numbers. -/
theorem C15_int {pl : Platform} {t : IntType} {v : Value} (h : v.subvalues.length ≠ 1) :
    (intConv pl t).fromString v = .ok (.error (cannotConvertBecause (cstr (joined v.subvalues)) (t.name pl)
      (wrongSubvalues 1 v.subvalues.length))) := by
  unfold intConv
  rw [arithConv_other _ _ _ h, cstr_of_nulFree (intName_nulFree pl t)]

/-- **C15.** Floating-point types. -/
theorem C15_float {α : Type} {lib : FloatLib α} {name : Bytes} (hn : NulFree name) {v : Value} (h : v.subvalues.length ≠ 1) :
    (floatConv name lib).fromString v = .ok (.error (cannotConvertBecause (cstr (joined v.subvalues)) name
      (wrongSubvalues 1 v.subvalues.length))) := by
  unfold floatConv
  rw [arithConv_other _ _ _ h, cstr_of_nulFree hn]

/-- **C15.** `bool`. -/
theorem C15_bool {pl : Platform} {v : Value} (h : v.subvalues.length ≠ 1) :
    (boolConv pl).fromString v = .ok (.error (cannotConvertBecause (cstr (joined v.subvalues)) (lit "bool")
      (wrongSubvalues 1 v.subvalues.length))) := by
  have hn : cstr (lit "bool") = lit "bool" := by decide
  obtain ⟨l⟩ := v
  match l with
  | [] => simp [boolConv, mismatchError_eq, hn]
  | [s] => simp at h
  | a :: b :: l => simp [boolConv, mismatchError_eq, hn]

/-- **C15.** String types. -/
theorem C15_string {v : Value} (h : v.subvalues.length ≠ 1) :
    stringConv.fromString v = .ok (.error (cannotConvertBecause (cstr (joined v.subvalues)) (lit "string")
      (wrongSubvalues 1 v.subvalues.length))) := by
  have hn : cstr (lit "string") = lit "string" := by decide
  obtain ⟨l⟩ := v
  match l with
  | [] => simp [stringConv, mismatchError_eq, hn]
  | [s] => simp at h
  | a :: b :: l => simp [stringConv, mismatchError_eq, hn]

example : (intConv linux64 .int).fromString ⟨[lit "1", lit "2"]⟩ =
    .ok (.error (lit "Unable to convert '1 2' to type 'int': Expected 1 subvalues, got 2")) := by decide +kernel
example : (boolConv linux64).fromString ⟨[]⟩ =
    .ok (.error (lit "Unable to convert '' to type 'bool': Expected 1 subvalues, got 0")) := by decide +kernel

/-! ## C16 -/

/-- **C16.** A string parameter receives exactly the bytes of the single sub-value - any bytes. -/
theorem C16_string_in (v : Value) (s : Bytes) : stringConv.fromString v = .ok (.ok s) ↔ v.subvalues = [s] := by
  obtain ⟨l⟩ := v
  match l with
  | [] => simp [stringConv]
  | [x] => simp [stringConv]
  | a :: b :: l => simp [stringConv]

/-- **C16.** A returned string is reported unchanged, and returning a received one gives it back. -/
theorem C16_string_out (s : Bytes) : stringConv.toString s = s ∧
    stringConv.fromString ⟨[stringConv.toString s]⟩ = .ok (.ok s) :=
  ⟨rfl, (C16_string_in _ _).2 rfl⟩

example : stringConv.fromString ⟨[[0, 255, 39]]⟩ = .ok (.ok [0, 255, 39]) := by decide +kernel

/-! ## C17 -/

/-- **C17.** A vector conversion succeeds exactly when every sub-value converts, element by element in order. Any
element type, also user-defined ones, except `Value` (see C58). -/
theorem C17_vector_ok_iff {α : Type} (c : Conv α) (hc : c.byRef = false) (v : Value) (xs : List α) :
    (vecConv c).fromString v = .ok (.ok xs) ↔
      Forall2 (fun s x => c.fromString ⟨[s]⟩ = .ok (.ok x)) v.subvalues xs := by
  simp only [vecConv]
  rw [vecLoop_ok_iff hc]
  simp

/-- **C17.** On failure the error is built from the error of the first sub-value that does not convert. -/
theorem C17_vector_error_iff {α : Type} (c : Conv α) (hc : c.byRef = false) (v : Value) (m : Bytes) :
    (vecConv c).fromString v = .ok (.error m) ↔
      ∃ pre s post xs e, v.subvalues = pre ++ s :: post ∧
        Forall2 (fun s x => c.fromString ⟨[s]⟩ = .ok (.ok x)) pre xs ∧
        c.fromString ⟨[s]⟩ = .ok (.error e) ∧
        m = if e = [] then cannotConvert (cstr (joined v.subvalues)) (cstr (lit "vector<" ++ c.name ++ lit ">"))
          else cannotConvertBecause (cstr (joined v.subvalues)) (cstr (lit "vector<" ++ c.name ++ lit ">")) (cstr e) := by
  have key : ∀ e, genericError (lit "vector<" ++ c.name ++ lit ">") v e =
      if e = [] then cannotConvert (cstr (joined v.subvalues)) (cstr (lit "vector<" ++ c.name ++ lit ">"))
      else cannotConvertBecause (cstr (joined v.subvalues)) (cstr (lit "vector<" ++ c.name ++ lit ">")) (cstr e) := by
    intro e
    split
    · rename_i h
      rw [h, genericError_nil]
    · rename_i h
      rw [genericError_cons _ _ h]
  simp only [← key]
  simp only [vecConv]
  exact vecLoop_error_iff hc

/-- **C17.** The result has one element per sub-value. -/
theorem C17_vector_length {α : Type} {c : Conv α} (hc : c.byRef = false) {v : Value} {xs : List α} (h : (vecConv c).fromString v = .ok (.ok xs)) :
    xs.length = v.subvalues.length := (forall2_length ((C17_vector_ok_iff c hc v xs).1 h)).symm

example : (vecConv (intConv linux64 .int)).fromString ⟨[lit "1", lit "-2", lit "3"]⟩ = .ok (.ok [1, -2, 3]) := by decide +kernel
example : (vecConv (intConv linux64 .int)).fromString ⟨[lit "1", lit "x", lit "y"]⟩ = .ok (.error
    (lit "Unable to convert '1 x y' to type 'vector<int>': Unable to convert 'x' to type 'int'")) := by decide +kernel

/-! ## C18 -/

/-- **C18, negation.** `(1 2)` converts to the optional integer 1: the 2 is dropped. -/
theorem C18_false : (optConv (intConv linux64 .int)).fromString ⟨[lit "1", lit "2"]⟩ = .ok (.ok (some 1)) := by
  decide +kernel

/-- **C18, negation.** For every element type, extra sub-values never matter. -/
theorem C18_false_any {α : Type} (c : Conv α) {s : Bytes} {rest rest' : List Bytes} {o : Option α} :
    (optConv c).fromString ⟨s :: rest⟩ = .ok (.ok o) ↔ (optConv c).fromString ⟨s :: rest'⟩ = .ok (.ok o) := by
  simp only [optConv]
  split
  · rfl
  · rename_i hs
    rcases h : c.onTemporary s with (e | x) | _ | _ <;> simp

/-- **C18, partial.** Missing: values with several sub-values, and optionals of `Value` (see C58). An empty value, or an empty text, gives the empty
optional; any other single text converts exactly if it converts to the element type. -/
theorem C18_optional_partial {α : Type} (c : Conv α) (hc : c.byRef = false) {v : Value} (hv : v.subvalues.length ≤ 1) (o : Option α) :
    (optConv c).fromString v = .ok (.ok o) ↔
      (o = none ∧ (v.subvalues = [] ∨ v.subvalues = [[]])) ∨
      (∃ s x, v.subvalues = [s] ∧ s ≠ [] ∧ c.fromString ⟨[s]⟩ = .ok (.ok x) ∧ o = some x) := by
  obtain ⟨l⟩ := v
  match l with
  | [] => simp [optConv, eq_comm]
  | [s] =>
    simp only [optConv, onTemporary_eq hc]
    split
    · rename_i h
      subst h
      simp [eq_comm]
    · rename_i h
      rcases h' : c.fromString ⟨[s]⟩ with (e | x) | _ | _ <;> simp [h, h', eq_comm]
  | a :: b :: l => simp at hv

/-- **C18.** A failed conversion of an optional reports the element's error. -/
theorem C18_optional_error {α : Type} (c : Conv α) {s e : Bytes} {rest : List Bytes} (hs : s ≠ []) (he : e ≠ [])
    (h : c.fromString ⟨[s]⟩ = .ok (.error e)) :
    (optConv c).fromString ⟨s :: rest⟩ = .ok (.error (cannotConvertBecause (cstr (joined (s :: rest)))
      (cstr (lit "optional<" ++ c.name ++ lit ">")) (cstr e))) := by
  simp only [optConv, hs, if_false, onTemporary_error h, Res.bind_ok]
  rw [genericError_cons _ _ he]

example : (optConv (intConv linux64 .int)).fromString ⟨[lit "7"]⟩ = .ok (.ok (some 7)) := by decide +kernel
example : (optConv (intConv linux64 .int)).fromString ⟨[]⟩ = .ok (.ok none) := by decide +kernel

/-! ## C19 -/

/-- **C19.** A floating-point conversion succeeds exactly when the C library function uses the whole non-empty text without
a range error, and then yields its result. The C library function is arbitrary. -/
theorem C19_float_iff {α : Type} (name : Bytes) (lib : FloatLib α) (s : Bytes) (x : α) :
    (floatConv name lib).fromString ⟨[s]⟩ = .ok (.ok x) ↔
      s ≠ [] ∧ (lib.strtox (cstr s)).errno = false ∧ (lib.strtox (cstr s)).stop = s.length ∧
        (lib.strtox (cstr s)).value = x := by
  unfold floatConv
  rw [arithConv_single]
  unfold floatFromString
  by_cases h : s = []
  · simp [h]
  · cases he : (lib.strtox (cstr s)).errno
    · by_cases hl : (lib.strtox (cstr s)).stop = s.length <;> simp [h, he, hl]
    · simp [h, he]

/-- **C19.** Every other text is rejected with an error. -/
theorem C19_float_reject {α : Type} {name : Bytes} (hn : NulFree name) (lib : FloatLib α) {s : Bytes}
    (h : s = [] ∨ (lib.strtox (cstr s)).errno = true ∨ (lib.strtox (cstr s)).stop ≠ s.length) :
    (floatConv name lib).fromString ⟨[s]⟩ = .ok (.error (cannotConvert (cstr s) name)) := by
  unfold floatConv
  rw [arithConv_single, cstr_of_nulFree hn]
  have : floatFromString lib.strtox s = none := by
    unfold floatFromString
    rcases h with h | h | h
    · simp [h]
    · simp [h]
    · simp [h]
  rw [this]

/-- **C19.** A text with an embedded NUL byte never converts to a number, whatever follows the NUL, given only that
the C library function does not read past the terminator. -/
theorem C19_nul_rejected {α : Type} {name : Bytes} (hn : NulFree name) (lib : FloatLib α)
    (hlib : ∀ s, (lib.strtox s).stop ≤ s.length) {s : Bytes} (h : ¬ NulFree s) :
    (floatConv name lib).fromString ⟨[s]⟩ = .ok (.error (cannotConvert (cstr s) name)) := by
  refine C19_float_reject hn lib (.inr (.inr ?_))
  have h1 := hlib (cstr s)
  have h2 : (cstr s).length < s.length := by
    have h0 : (0 : Byte) ∈ s := by simpa [NulFree] using h
    clear h h1
    induction s with
    | nil => simp at h0
    | cons c s ih =>
      by_cases hc : c = 0
      · simp [cstr, hc]
      · have := ih (by
          rcases List.mem_cons.1 h0 with h | h
          · exact absurd h.symm hc
          · exact h)
        unfold cstr at this ⊢
        rw [List.takeWhile_cons_of_pos (by simpa using hc)]
        simp only [List.length_cons]
        omega
  omega

/-- A toy C library function: integers only. -/
def toyFloat : FloatLib Int where
  strtox s := strtol 64 s
  almostZero z := z == 0
  printG := intDec

example : (floatConv (lit "double") toyFloat).fromString ⟨[lit "12"]⟩ = .ok (.ok 12) := by decide +kernel
example : (floatConv (lit "double") toyFloat).fromString ⟨[lit "12x"]⟩ =
    .ok (.error (lit "Unable to convert '12x' to type 'double'")) := by decide +kernel

/-! ## C43, conversion part -/

/-- **C43, negation.** An error about a text with a NUL byte quotes only the part before it. -/
theorem C43_conversion_false : ∃ s : Bytes, (intConv linux64 .int).fromString ⟨[s]⟩ =
    .ok (.error (lit "Unable to convert '1' to type 'int'")) ∧ s ≠ lit "1" :=
  ⟨[49, 0, 50], by decide +kernel, by decide⟩

/-- **C43, partial.** Missing: texts with NUL bytes. The error quotes the text form of the value in full. -/
theorem C43_conversion_partial {n : Bytes} (hn : NulFree n) {v : Value} (hv : ∀ s ∈ v.subvalues, NulFree s) {d : Bytes}
    (hd : NulFree d) (hne : d ≠ []) :
    genericError n v [] = cannotConvert (joined v.subvalues) n ∧
    genericError n v d = cannotConvertBecause (joined v.subvalues) n d := by
  have : NulFree (joined v.subvalues) := by
    intro h
    have hj : ∀ l : List Bytes, (∀ s ∈ l, NulFree s) → NulFree (joined l) := by
      intro l hl
      induction l with
      | nil => simp [joined, NulFree]
      | cons a l ih =>
        cases l with
        | nil => simpa [joined] using hl a (by simp)
        | cons b l =>
          have := ih (fun s hs => hl s (by simp [List.mem_cons.1 hs]))
          unfold joined at *
          rw [List.intercalate_cons_cons]
          simp only [nulFree_append]
          exact ⟨⟨hl a (by simp), by unfold NulFree; decide⟩, this⟩
    exact hj _ hv h
  constructor
  · rw [genericError_nil, cstr_of_nulFree this, cstr_of_nulFree hn]
  · rw [genericError_cons _ _ hne, cstr_of_nulFree this, cstr_of_nulFree hn, cstr_of_nulFree hd]

example : genericError (lit "point") ⟨[lit "1", lit "2"]⟩ (lit "bad") =
    lit "Unable to convert '1 2' to type 'point': bad" := by decide +kernel

/-! ## C50 -/

/-- **C50.** The text form of a value is its sub-values joined by single spaces. -/
theorem C50_str (v : Value) : v.str = joined v.subvalues := str_eq_joined v

/-- **C50.** It is what conversion errors quote (up to a NUL byte, see C43). -/
theorem C50_quoted (n : Bytes) (v : Value) (d : Bytes) :
    ∃ rest, genericError n v d = lit "Unable to convert '" ++ cstr v.str ++ lit "' to type '" ++ rest := by
  by_cases h : d = []
  · subst h
    exact ⟨cstr n ++ lit "'", by simp [genericError]⟩
  · exact ⟨cstr n ++ lit "': " ++ cstr d, by simp [genericError, h]⟩

/-- **C50.** A value parameter of type `coil::Value` gets the value itself and prints as its text form. -/
theorem C50_value_param (v : Value) : valueConv.fromString v = .ok (.ok v) ∧ valueConv.toString v = joined v.subvalues :=
  ⟨rfl, str_eq_joined v⟩

example : GValue.str ⟨[lit "a", lit "", lit "c"]⟩ = lit "a  c" := by decide +kernel

end Coil
