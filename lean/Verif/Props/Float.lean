import Verif.Proofs.FloatTrip
import Verif.Props.Conv

/-!
# Floating-point numbers as arguments and results

The serializers of `float`, `double` and `long double` with the C library of `Model/Float.lean`.
-/

namespace Coil.Floats
open Spec Fl

variable {F : Fmt} {tiny : Nat → Nat → Bool} {neg : Bool}

/-! ## C68: reading -/

/-- **C68.** There is always one nearest number. -/
theorem C68_nearest (hF : Fmt.Proper F) {q : ℚ} (hq : 0 ≤ q) :
    ∃ m e, Nearest F q m e ∧ ∀ m' e', Nearest F q m' e' → m' = m ∧ e' = e := by
  obtain ⟨m, e, h⟩ := nearest_exists hF hq
  exact ⟨m, e, h, fun _ _ h' => nearest_unique hF h' h⟩

theorem conv_iff (name : Bytes) {s : Bytes} {d : Denotes} (h : FloatText s neg d) (x : Fl) :
    (floatConv name (lib F tiny)).fromString ⟨[s]⟩ = .ok (.ok x) ↔
      (strtofl F tiny s).errno = false ∧ (strtofl F tiny s).value = x := by
  rw [C19_float_iff, cstr_of_nulFree (floatText_nulFree h)]
  have := (strtofl_complete (F := F) (tiny := tiny) h).1
  constructor
  · rintro ⟨_, h1, _, h2⟩
    exact ⟨h1, h2⟩
  · rintro ⟨h1, h2⟩
    exact ⟨floatText_ne_nil h, h1, this, h2⟩

/-- **C68.** Every text of a number within the range of the format is accepted, and the result is the nearest number of the format: with its
sign, from any decimal or hexadecimal notation. -/
theorem C68_accept (hF : Fmt.Proper F) (name : Bytes) {s : Bytes} {q : ℚ} (h : FloatText s neg (.number q)) {m : Nat} {e : Int}
    (hN : Nearest F q m e) (he : e ≤ F.emax) (hq : leastNormal F ≤ q ∨ q = mag m e) :
    (floatConv name (lib F tiny)).fromString ⟨[s]⟩ = .ok (.ok (.fin neg m e)) := by
  obtain ⟨_, n, d, hd, rfl, ho⟩ := strtofl_complete (F := F) (tiny := tiny) h
  rw [ofFrac_fin hF hd hN he] at ho
  have hu : underflows F n d m e = false := by
    by_contra hc
    have := (underflows_iff (F := F) hd).1 (by simpa using hc)
    rcases hq with hq | hq
    · exact absurd this.1 (not_lt.2 hq)
    · exact this.2 hq
  rw [hu, Bool.false_and, Prod.mk.injEq] at ho
  exact (conv_iff name h _).2 ⟨ho.2.symm, ho.1.symm⟩

/-- **C68.** Infinities and NaNs are accepted too. -/
theorem C68_special (name : Bytes) {s : Bytes} :
    (FloatText s neg .infinity → (floatConv name (lib F tiny)).fromString ⟨[s]⟩ = .ok (.ok (.inf neg))) ∧
    (FloatText s neg .notANumber → (floatConv name (lib F tiny)).fromString ⟨[s]⟩ = .ok (.ok (.nan neg))) := by
  constructor
  · intro h
    obtain ⟨_, h1, h2⟩ := strtofl_complete (F := F) (tiny := tiny) h
    exact (conv_iff name h _).2 ⟨h2, h1⟩
  · intro h
    obtain ⟨_, h1, h2⟩ := strtofl_complete (F := F) (tiny := tiny) h
    exact (conv_iff name h _).2 ⟨h2, h1⟩

/-- **C68.** A text of a number too great for the format is rejected, not turned into an infinity. -/
theorem C68_overflow (hF : Fmt.Proper F) {name : Bytes} (hn : NulFree name) {s : Bytes} {q : ℚ} (h : FloatText s neg (.number q))
    {m : Nat} {e : Int} (hN : Nearest F q m e) (he : F.emax < e) :
    (floatConv name (lib F tiny)).fromString ⟨[s]⟩ = .ok (.error (cannotConvert s name)) := by
  obtain ⟨_, n, d, hd, rfl, ho⟩ := strtofl_complete (F := F) (tiny := tiny) h
  rw [ofFrac_inf hF hd hN he, Prod.mk.injEq] at ho
  have hc := cstr_of_nulFree (floatText_nulFree h)
  have := C19_float_reject hn (lib F tiny) (s := s) (.inr (.inl (by rw [hc]; exact ho.2.symm)))
  rwa [hc] at this

/-- **C68.** Whatever is accepted is a text of a number, and the result is the nearest number of the format, an infinity or a NaN as the text
says. -/
theorem C68_sound (hF : Fmt.Proper F) (name : Bytes) {s : Bytes} {x : Fl}
    (h : (floatConv name (lib F tiny)).fromString ⟨[s]⟩ = .ok (.ok x)) : ∃ neg d, FloatText s neg d ∧ Rounded F neg d x := by
  obtain ⟨h0, h1, h2, h3⟩ := (C19_float_iff _ _ _ _).1 h
  change (strtofl F tiny (cstr s)).stop = s.length at h2
  have hle := strtofl_le (F := F) (tiny := tiny) (cstr s)
  have hc : cstr s = s := by
    have hl : (cstr s).length = s.length := by
      have : (cstr s).length ≤ s.length := by
        unfold cstr
        exact (List.takeWhile_sublist _).length_le
      omega
    unfold cstr at hl ⊢
    exact (List.takeWhile_prefix _).eq_of_length hl
  rw [hc] at h1 h2 h3
  obtain ⟨neg, d, ht, ho⟩ := strtofl_sound h0 h2
  change (strtofl F tiny s).errno = false at h1
  change (strtofl F tiny s).value = x at h3
  rw [h1, h3] at ho
  refine ⟨neg, d, ht, ?_⟩
  cases d with
  | number q =>
    obtain ⟨n, d, hd, rfl, ho⟩ := ho
    have hN := roundFmt_nearest hF (n := n) hd
    by_cases he : (roundFmt F n d).2 ≤ F.emax
    · rw [ofFrac_fin hF hd hN he, Prod.mk.injEq] at ho
      exact ⟨_, _, ho.1.symm, hN, he⟩
    · rw [ofFrac_inf hF hd hN (by omega)] at ho
      cases ho
  | infinity => exact ho.1
  | notANumber => exact ho.1

/-- **C68.** Where the C library does not report underflow, exactly the texts of numbers up to the greatest one of the format are accepted. -/
theorem C68_iff (hF : Fmt.Proper F) (name : Bytes) {s : Bytes} {x : Fl} :
    (floatConv name (lib F (fun _ _ => false))).fromString ⟨[s]⟩ = .ok (.ok x) ↔
      ∃ neg d, FloatText s neg d ∧ Rounded F neg d x := by
  constructor
  · exact C68_sound hF name
  · rintro ⟨neg, d, ht, hr⟩
    cases d with
    | number q =>
      obtain ⟨m, e, rfl, hN, he⟩ := hr
      obtain ⟨_, n, d, hd, rfl, ho⟩ := strtofl_complete (F := F) (tiny := fun _ _ => false) ht
      rw [ofFrac_fin hF hd hN he, Bool.and_false, Prod.mk.injEq] at ho
      exact (conv_iff name ht _).2 ⟨ho.2.symm, ho.1.symm⟩
    | infinity => rw [show x = .inf neg from hr]; exact (C68_special name).1 ht
    | notANumber => rw [show x = .nan neg from hr]; exact (C68_special name).2 ht

/-- **C68.** Any other text is rejected with a message. -/
theorem C68_reject (hF : Fmt.Proper F) {name : Bytes} (hn : NulFree name) {s : Bytes} (h : ¬ ∃ neg d, FloatText s neg d) :
    (floatConv name (lib F tiny)).fromString ⟨[s]⟩ = .ok (.error (cannotConvert (cstr s) name)) := by
  by_cases hr : s = [] ∨ (strtofl F tiny (cstr s)).errno = true ∨ (strtofl F tiny (cstr s)).stop ≠ s.length
  · exact C19_float_reject hn (lib F tiny) hr
  · push Not at hr
    obtain ⟨h0, h1, h2⟩ := hr
    have := (C19_float_iff name (lib F tiny) s (strtofl F tiny (cstr s)).value).2 ⟨h0, Bool.eq_false_iff.2 h1, h2, rfl⟩
    obtain ⟨neg, d, ht, _⟩ := C68_sound hF name this
    exact absurd ⟨neg, d, ht⟩ h

/-- **C68.** Whole numbers up to `2^prec` are exact. -/
theorem C68_whole (hF : Fmt.Proper F) (h0 : F.emin ≤ 0) (h1 : 0 < F.emax) (name : Bytes) {n : Nat} (hn : n ≤ 2 ^ F.prec) (neg : Bool) :
    ∃ m e, (floatConv name (lib F tiny)).fromString ⟨[signText neg ++ natDec n]⟩ = .ok (.ok (.fin neg m e)) ∧ mag m e = n := by
  have hw : FloatWord (natDec n) (.number n) := by
    obtain ⟨h1, h2⟩ := decimal_iff.1 (natDec_decimal n)
    have := FloatWord.decimal (.whole h1 h2) (.none (lower := 101) (upper := 69))
    simpa using this
  have hmem : Member F (n : ℚ) := by
    have := member_top hF h0 hn
    simpa [mag] using this
  obtain ⟨m, e, hN⟩ := nearest_exists hF (q := (n : ℚ)) (by positivity)
  have hv := nearest_member hN hmem
  refine ⟨m, e, C68_accept hF name (floatText_signed hw) hN ?_ (.inr hv.symm), hv⟩
  refine nearest_fits hF hN ?_
  unfold mag
  have hp : 2 ≤ F.prec := hF.1
  have h2 : (n : ℚ) ≤ 2 ^ F.prec := by exact_mod_cast hn
  have h3 : (2 : ℚ) ≤ 2 ^ F.emax := by
    calc (2 : ℚ) = 2 ^ (1 : Int) := by norm_num
      _ ≤ 2 ^ F.emax := zpow_le_zpow_right₀ (by norm_num) (by omega)
  have h4 : (1 : Nat) ≤ 2 ^ F.prec := Nat.one_le_two_pow
  have h5 : (4 : ℚ) ≤ 2 ^ F.prec := by
    calc (4 : ℚ) = 2 ^ 2 := by norm_num
      _ ≤ 2 ^ F.prec := pow_le_pow_right₀ (by norm_num) hp
  push_cast [Nat.cast_sub h4]
  nlinarith

theorem proper_single : Fmt.Proper .single := by constructor <;> decide

theorem proper_double : Fmt.Proper .double := by constructor <;> decide

theorem proper_extended : Fmt.Proper .extended := by constructor <;> decide

/-- **C68.** With a C library that reports underflow, as glibc does, a number within the range of `double` can be rejected. -/
theorem C68_tiny_false : ∃ s q m e, FloatText s false (.number q) ∧ Nearest .double q m e ∧ e ≤ Fmt.double.emax ∧ 0 < m ∧
    (floatConv (lit "double") (lib .double (fun _ _ => true))).fromString ⟨[s]⟩ = .ok (.error (cannotConvert s (lit "double"))) := by
  have hw : FloatWord (lit "1" ++ lit "e-310") (.number ((1 : Nat) * 10 ^ (-310 - ((0 : Nat) : Int)))) :=
    .decimal (.whole ((digits_iff base10).2 ⟨by decide, by decide⟩) (by decide))
      (.some (c := 101) (sg := [45]) (ds := lit "310") (v := 310) (neg := true) (.inl rfl) .minus
        (decimal_iff.2 ⟨(digits_iff base10).2 ⟨by decide, by decide⟩, by decide⟩))
  have hq : ((1 : Nat) : ℚ) * 10 ^ (-310 - ((0 : Nat) : Int)) = ((1 : Nat) : ℚ) / ((10 ^ 310 : Nat) : ℚ) := by
    rw [show (-310 - ((0 : Nat) : Int)) = -((310 : Nat) : Int) by norm_num, zpow_neg, zpow_natCast, Nat.cast_one, one_mul,
      Nat.cast_pow, one_div, show ((10 : Nat) : ℚ) = 10 by norm_num]
  have hN := roundFmt_nearest proper_double (n := 1) (d := 10 ^ 310) (by positivity)
  rw [← hq] at hN
  refine ⟨_, _, _, _, floatText_signed (neg := false) hw, hN, by decide +kernel, by decide +kernel, by decide +kernel⟩

/-- The same number is accepted if underflow is not reported. -/
example : (floatConv (lit "double") (lib .double (fun _ _ => false))).fromString ⟨[lit "1e-310"]⟩ =
    .ok (.ok (.fin false 20240225330731 (-1074))) := by decide +kernel

example : (floatConv (lit "double") (lib .double (fun _ _ => true))).fromString ⟨[lit "0.1"]⟩ =
    .ok (.ok (.fin false 7205759403792794 (-56))) := by decide +kernel

example : (floatConv (lit "float") (lib .single (fun _ _ => true))).fromString ⟨[lit " -0x1.8P1"]⟩ =
    .ok (.ok (.fin true 12582912 (-22))) := by decide +kernel

example : (floatConv (lit "float") (lib .single (fun _ _ => true))).fromString ⟨[lit "3.5e38"]⟩ =
    .ok (.error (cannotConvert (lit "3.5e38") (lit "float"))) := by decide +kernel

example : (floatConv (lit "float") (lib .single (fun _ _ => true))).fromString ⟨[lit "1.5f"]⟩ =
    .ok (.error (cannotConvert (lit "1.5f") (lit "float"))) := by decide +kernel

example : (floatConv (lit "double") (lib .double (fun _ _ => true))).fromString ⟨[lit "-INF"]⟩ = .ok (.ok (.inf true)) := by
  decide +kernel

/-- `C68_accept` for one third in the shortest format. -/
example : Nearest .single ((1 : Nat) / (3 : Nat)) 11184811 (-25) := by
  have h : roundFmt .single 1 3 = (11184811, -25) := by decide +kernel
  have := roundFmt_nearest proper_single (n := 1) (d := 3) (by norm_num)
  rwa [h] at this

end Coil.Floats
