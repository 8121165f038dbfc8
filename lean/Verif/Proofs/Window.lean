import Mathlib.Data.Rat.Floor
import Verif.Model.Window
import Verif.Proofs.FloatSum

/-!
# Products, quotients and conversions of floating-point numbers
-/

namespace Coil.Floats
open Spec Fl

variable {F : Fmt} {nan : Fl → Fl → Bool} {tiny : Nat → Nat → Bool}

theorem nearest_double {q : ℚ} {m : Nat} {e : Int} (h : Nearest F q m e) (hq : 0 ≤ q) : mag m e ≤ 2 * q := by
  have := h.near 0 ⟨0, F.emin, Nat.two_pow_pos _, le_refl _, by simp [mag]⟩
  rw [zero_sub, abs_neg, abs_of_nonneg hq] at this
  have h2 := le_abs_self (mag m e - q)
  linarith

/-- A rounded exact value with its sign. -/
theorem roundTo_signed (hF : Fmt.Proper F) {n d : Nat} {neg : Bool} {v : ℚ} (hd : 0 < d) (hv : (n : ℚ) / d = |v|) (hs : v = if neg then -|v| else |v|)
    (hq : |v| ≤ greatest F) :
    Finite F (roundTo F neg (n, d)) ∧ (NotTiny F v → |val (roundTo F neg (n, d)) - v| ≤ roundoff F * |v|) ∧
      (Member F |v| → val (roundTo F neg (n, d)) = v) ∧ |val (roundTo F neg (n, d))| ≤ 2 * |v| := by
  obtain ⟨m, e, hr, hN, hf⟩ := roundTo_nearest (neg := neg) hF (n := n) hd (by rwa [hv])
  rw [hv] at hN
  have hd' : |val (.fin neg m e) - v| = |mag m e - (|v|)| := by
    rw [val_fin]
    unfold finVal
    rw [hs]
    cases neg
    · simp
    · simp only [if_true, abs_neg, abs_abs]
      rw [show -mag m e - -|v| = -(mag m e - |v|) by ring, abs_neg]
  have hex : Member F |v| → val (.fin neg m e) = v := by
    intro h
    have := nearest_member hN h
    rw [this, sub_self, abs_zero, abs_eq_zero, sub_eq_zero] at hd'
    exact hd'
  rw [hr]
  refine ⟨⟨_, _, _, rfl, hf⟩, ?_, hex, ?_⟩
  · rintro (h | h)
    · rw [hd']
      exact le_roundoff (nearest_error hF hN h)
    · rw [hex h, sub_self, abs_zero]
      exact mul_nonneg roundoff_nonneg (abs_nonneg _)
  · rw [val_fin, abs_finVal]
    exact nearest_double hN (abs_nonneg _)

theorem finVal_sign (s : Bool) (m : Nat) (e : Int) : finVal s m e = if s then -mag m e else mag m e := rfl

/-- A product. -/
theorem mul_fin (hF : Fmt.Proper F) {a b : Fl} (ha : Finite F a) (hb : Finite F b) (hq : |val a * val b| ≤ greatest F) :
    Finite F (mul F nan a b) ∧ (NotTiny F (val a * val b) → |val (mul F nan a b) - val a * val b| ≤ roundoff F * |val a * val b|) ∧
      (Member F |val a * val b| → val (mul F nan a b) = val a * val b) ∧ |val (mul F nan a b)| ≤ 2 * |val a * val b| := by
  obtain ⟨s, m, e, rfl, _⟩ := ha
  obtain ⟨t, n, f, rfl, _⟩ := hb
  have hv : |val (.fin s m e) * val (.fin t n f)| = mag m e * mag n f := by
    rw [abs_mul, val_fin, val_fin, abs_finVal, abs_finVal]
  refine roundTo_signed (n := (frac 2 (m * n) (e + f)).1) (d := (frac 2 (m * n) (e + f)).2) hF (frac_pos (by norm_num)) ?_ ?_ hq
  · rw [frac_val, hv]
    unfold mag
    push_cast
    rw [zpow_add₀ (by norm_num)]
    ring
  · rw [hv, val_fin, val_fin, finVal_sign, finVal_sign]
    cases s <;> cases t <;> simp

/-- A quotient. -/
theorem div_fin (hF : Fmt.Proper F) {a b : Fl} (ha : Finite F a) (hb : Finite F b) (hb0 : val b ≠ 0) (hq : |val a / val b| ≤ greatest F) :
    Finite F (div F nan a b) ∧ (NotTiny F (val a / val b) → |val (div F nan a b) - val a / val b| ≤ roundoff F * |val a / val b|) ∧
      (Member F |val a / val b| → val (div F nan a b) = val a / val b) ∧ |val (div F nan a b)| ≤ 2 * |val a / val b| := by
  obtain ⟨s, m, e, rfl, _⟩ := ha
  obtain ⟨t, n, f, rfl, _⟩ := hb
  have hn : n ≠ 0 := by
    rintro rfl
    apply hb0
    rw [val_fin, finVal_sign]
    unfold mag
    cases t <;> simp
  have hv : |val (.fin s m e) / val (.fin t n f)| = mag m e / mag n f := by
    rw [abs_div, val_fin, val_fin, abs_finVal, abs_finVal]
  simp only [div, if_neg hn]
  have hn' : (n : ℚ) ≠ 0 := by exact_mod_cast hn
  refine roundTo_signed hF (Nat.mul_pos (frac_pos (by norm_num)) (by omega)) ?_ ?_ hq
  · have hfv := frac_val (b := 2) (n := m) (e := e - f)
    push_cast at hfv ⊢
    rw [hv, ← div_div, hfv]
    unfold mag
    rw [zpow_sub₀ (by norm_num)]
    have h2 : (2 : ℚ) ^ f ≠ 0 := by positivity
    field_simp
  · rw [hv, val_fin, val_fin, finVal_sign, finVal_sign]
    cases s <;> cases t <;> simp [neg_div, div_neg]

/-- The conversion of an integer that is not too great. -/
theorem ofNat_fin (hF : Fmt.Proper F) (h0 : F.emin ≤ 0) (h1 : 0 < F.emax) {n : Nat} (hn : n ≤ 2 ^ F.prec) :
    Finite F (ofNat F n) ∧ val (ofNat F n) = n := by
  have habs : |((n : Int) : ℚ)| = n := by simp
  have hm := member_whole hF h0 (z := n) (by simpa using hn)
  have hg := natAbs_le_greatest (F := F) h1 hF.1 (z := n) (by simpa using hn)
  obtain ⟨r1, _, r3, _⟩ := roundTo_signed hF (n := n) (d := 1) (neg := false) (v := ((n : Int) : ℚ)) (by norm_num)
    (by rw [habs]; simp) (by simp) hg
  exact ⟨r1, by have := r3 hm; rw [Int.cast_natCast] at this; exact this⟩

/-- The conversion to an unsigned integer drops the fraction. -/
theorem toUnsigned_ok {b : Nat} {x : Fl} (hx : Finite F x) {n : Nat} (h1 : (n : ℚ) ≤ |val x|) (h2 : |val x| < n + 1) (h3 : n = 0 ∨ 0 < val x)
    (hb : n < 2 ^ b) : toUnsigned b x = .ok n := by
  obtain ⟨s, m, e, rfl, _⟩ := hx
  rw [val_fin, abs_finVal] at h1 h2
  have hd : 0 < (frac 2 m e).2 := frac_pos (by norm_num)
  have hfv := frac_val (b := 2) (n := m) (e := e)
  have ht : (frac 2 m e).1 / (frac 2 m e).2 = n := by
    have hdq : (0 : ℚ) < (frac 2 m e).2 := by exact_mod_cast hd
    unfold mag at h1 h2
    push_cast at hfv
    rw [← hfv] at h1 h2
    rw [le_div_iff₀ hdq] at h1
    rw [div_lt_iff₀ hdq] at h2
    rw [Nat.div_eq_iff hd]
    have h1' : n * (frac 2 m e).2 ≤ (frac 2 m e).1 := by exact_mod_cast h1
    have h2' : (frac 2 m e).1 < (n + 1) * (frac 2 m e).2 := by exact_mod_cast h2
    have : (n + 1) * (frac 2 m e).2 = n * (frac 2 m e).2 + (frac 2 m e).2 := by ring
    omega
  simp only [toUnsigned, ht]
  rw [if_pos]
  rcases h3 with h3 | h3
  · exact .inl h3
  · refine .inr ⟨?_, hb⟩
    cases s with
    | false => rfl
    | true =>
      rw [val_fin, finVal_sign, if_pos rfl] at h3
      have := mag_nonneg m e
      linarith

/-- A number that is not representable. -/
theorem toUnsigned_ub {b : Nat} {x : Fl} (hx : Finite F x) (h : val x ≤ -1 ∨ 2 ^ b ≤ val x) : toUnsigned b x = .ub .castRange := by
  obtain ⟨s, m, e, rfl, _⟩ := hx
  have hd : 0 < (frac 2 m e).2 := frac_pos (by norm_num)
  have hfv := frac_val (b := 2) (n := m) (e := e)
  push_cast at hfv
  have hdq : (0 : ℚ) < (frac 2 m e).2 := by exact_mod_cast hd
  have hm := mag_nonneg m e
  have hge : ∀ k : Nat, (k : ℚ) ≤ mag m e → k ≤ (frac 2 m e).1 / (frac 2 m e).2 := by
    intro k hk
    unfold mag at hk
    rw [← hfv, le_div_iff₀ hdq] at hk
    rw [Nat.le_div_iff_mul_le hd]
    exact_mod_cast hk
  have h2b : (0 : ℚ) < 2 ^ b := by positivity
  simp only [toUnsigned]
  rw [val_fin, finVal_sign] at h
  rw [if_neg]
  rintro (ht | ⟨hs, ht⟩)
  · cases s with
    | true =>
      simp only [if_true] at h
      have := hge 1 (by rcases h with h | h <;> push_cast <;> linarith)
      omega
    | false =>
      simp only [Bool.false_eq_true, if_false] at h
      have := hge (2 ^ b) (by rcases h with h | h <;> push_cast <;> linarith)
      have := Nat.two_pow_pos b
      omega
  · subst hs
    simp only [Bool.false_eq_true, if_false] at h
    have := hge (2 ^ b) (by rcases h with h | h <;> push_cast <;> linarith)
    omega

/-- A product that is not tiny, of any magnitude. -/
theorem mul_either (hF : Fmt.Proper F) {a b : Fl} (ha : Finite F a) (hb : Finite F b) (hq : leastNormal F ≤ |val a * val b|) :
    (∃ s, mul F nan a b = .inf s) ∨
      Finite F (mul F nan a b) ∧ |val (mul F nan a b) - val a * val b| ≤ roundoff F * |val a * val b| := by
  obtain ⟨s, m, e, rfl, _⟩ := ha
  obtain ⟨t, n, f, rfl, _⟩ := hb
  have hv : |val (.fin s m e) * val (.fin t n f)| = mag m e * mag n f := by
    rw [abs_mul, val_fin, val_fin, abs_finVal, abs_finVal]
  have hs : val (.fin s m e) * val (.fin t n f) = if s ^^ t then -(mag m e * mag n f) else mag m e * mag n f := by
    rw [val_fin, val_fin, finVal_sign, finVal_sign]
    cases s <;> cases t <;> simp
  have hfv : ((frac 2 (m * n) (e + f)).1 : ℚ) / (frac 2 (m * n) (e + f)).2 = mag m e * mag n f := by
    rw [frac_val]
    unfold mag
    push_cast
    rw [zpow_add₀ (by norm_num)]
    ring
  obtain ⟨m', e', hN, hr⟩ := roundTo_cases (neg := s ^^ t) hF (n := (frac 2 (m * n) (e + f)).1)
    (d := (frac 2 (m * n) (e + f)).2) (frac_pos (by norm_num))
  have hr : mul F nan (.fin s m e) (.fin t n f) = if e' ≤ F.emax then .fin (s ^^ t) m' e' else .inf (s ^^ t) := hr
  rw [hfv] at hN
  by_cases he : e' ≤ F.emax
  · rw [if_pos he] at hr
    rw [hr]
    refine .inr ⟨⟨_, _, _, rfl, hN.stored, he⟩, ?_⟩
    have herr := le_roundoff (nearest_error hF hN (hv ▸ hq))
    rw [hv, hs, val_fin, finVal_sign]
    cases s ^^ t
    · exact herr
    · simp only [if_true]
      rw [show -mag m' e' - -(mag m e * mag n f) = -(mag m' e' - mag m e * mag n f) by ring, abs_neg]
      exact herr
  · rw [if_neg he] at hr
    exact .inl ⟨_, hr⟩

/-! ## The window -/

theorem single_facts : Fmt.single.emin ≤ 0 ∧ 0 < Fmt.single.emax := by decide

theorem roundoff_single : roundoff .single = 1 / 16777216 := by
  unfold roundoff
  norm_num [Fmt.single]

theorem leastNormal_single : leastNormal .single ≤ 1 / 16777216 := by
  unfold leastNormal
  rw [show (1 : ℚ) / 16777216 = 2 ^ (-24 : Int) by norm_num]
  exact zpow_le_zpow_right₀ (by norm_num) (by decide)

theorem greatest_single : (2 : ℚ) ^ 100 ≤ greatest .single := by
  unfold greatest mag
  rw [← zpow_natCast]
  have h1 : (2 : ℚ) ^ ((100 : Nat) : Int) ≤ 2 ^ Fmt.single.emax := zpow_le_zpow_right₀ (by norm_num) (by decide)
  have h2 : (1 : ℚ) ≤ ((2 ^ Fmt.single.prec - 1 : Nat) : ℚ) := by exact_mod_cast (by decide : 1 ≤ 2 ^ Fmt.single.prec - 1)
  nlinarith [show (0 : ℚ) < 2 ^ Fmt.single.emax by positivity]

theorem ofNat_single {n : Nat} (hn : n ≤ 16777216) : Finite .single (ofNat .single n) ∧ val (ofNat .single n) = n :=
  ofNat_fin proper_single single_facts.1 single_facts.2 (by simpa [Fmt.single] using hn)

/-- Setting the aspect. -/
theorem setAspect_ok {w : Window} (hh : w.height ≤ 16777216) {x : Fl} (hx : Finite .single x) (h0 : 0 ≤ val x)
    (hb : val x * w.height + 1 ≤ 16777216) :
    ∃ n : Nat, w.setAspect nan x = .ok { w with width := n } ∧ n ≤ 16777216 ∧
      |(n : ℚ) - val x * w.height| ≤ 1 + 1 / 16777216 * (val x * w.height) := by
  obtain ⟨f1, f2⟩ := ofNat_single hh
  have hP0 : 0 ≤ val x * w.height := by positivity
  have hg := greatest_single
  obtain ⟨m1, m2, _, m4⟩ := mul_fin (nan := nan) proper_single hx f1 (by
    rw [f2, abs_of_nonneg hP0]
    refine le_trans ?_ hg
    norm_num
    linarith)
  rw [f2] at m2 m4
  rw [abs_of_nonneg hP0] at m2 m4
  unfold Window.setAspect
  generalize mul .single nan x (ofNat .single w.height) = y at *
  generalize val x * w.height = Q at *
  rw [roundoff_single] at m2
  by_cases ht : NotTiny .single Q
  · have m2 := abs_le.1 (m2 ht)
    have hy0 : 0 ≤ val y := by linarith
    have hfl : ((⌊val y⌋₊ : Nat) : ℚ) ≤ val y := Nat.floor_le hy0
    have hfl2 : val y < (⌊val y⌋₊ : Nat) + 1 := Nat.lt_floor_add_one _
    have hle : ⌊val y⌋₊ ≤ 16777216 := by
      have : ((⌊val y⌋₊ : Nat) : ℚ) ≤ (16777216 : Nat) := by push_cast; linarith
      exact_mod_cast this
    have hu : toUnsigned 64 y = .ok ⌊val y⌋₊ := by
      refine toUnsigned_ok m1 (by rwa [abs_of_nonneg hy0]) (by rwa [abs_of_nonneg hy0]) ?_ (by omega)
      rcases Nat.eq_zero_or_pos ⌊val y⌋₊ with h | h
      · exact .inl h
      · refine .inr ?_
        have : (1 : ℚ) ≤ ⌊val y⌋₊ := by exact_mod_cast h
        linarith
    refine ⟨⌊val y⌋₊, by rw [hu]; rfl, hle, ?_⟩
    rw [abs_le]
    constructor <;> linarith
  · have hl : Q < leastNormal .single := by
      unfold NotTiny at ht
      rw [abs_of_nonneg hP0] at ht
      exact not_le.1 fun h => ht (.inl h)
    have hl := lt_of_lt_of_le hl leastNormal_single
    have hu : toUnsigned 64 y = .ok 0 := by
      refine toUnsigned_ok m1 (by simp) ?_ (.inl rfl) (by norm_num)
      push_cast
      linarith
    refine ⟨0, by rw [hu]; rfl, by omega, ?_⟩
    rw [Nat.cast_zero, zero_sub, abs_neg, abs_of_nonneg hP0]
    linarith

theorem oneF_finite : Finite .single oneF ∧ val oneF = 1 := by
  refine ⟨⟨_, _, _, rfl, ?_⟩, ?_⟩
  · show Stored .single (2 ^ 23) (-23) ∧ (-23 : Int) ≤ Fmt.single.emax
    unfold Stored
    decide
  · rw [oneF, val_fin, finVal_sign]
    unfold mag
    norm_num

/-- `1.0f * n`. -/
theorem one_mul_single {n : Nat} (hn : n ≤ 16777216) :
    Finite .single (mul .single nan oneF (ofNat .single n)) ∧ val (mul .single nan oneF (ofNat .single n)) = n := by
  obtain ⟨f1, f2⟩ := ofNat_single hn
  obtain ⟨o1, o2⟩ := oneF_finite
  have hn' : n ≤ 2 ^ Fmt.single.prec := by simpa [Fmt.single] using hn
  have hm := member_whole proper_single single_facts.1 (z := n) (by simpa using hn')
  have hgr := natAbs_le_greatest (F := .single) single_facts.2 proper_single.1 (z := n) (by simpa using hn')
  rw [Int.cast_natCast] at hm hgr
  obtain ⟨m1, _, m3, _⟩ := mul_fin (nan := nan) proper_single o1 f1 (by rw [o2, f2, one_mul]; exact hgr)
  rw [o2, f2, one_mul] at m3
  exact ⟨m1, m3 hm⟩

/-- Reading the aspect. -/
theorem aspect_near {w : Window} (hw : w.width ≤ 16777216) (hh : w.height ≤ 16777216) (h0 : 0 < w.height) :
    Finite .single (w.aspect nan) ∧
      |val (w.aspect nan) - (w.width : ℚ) / w.height| ≤ 1 / 16777216 * ((w.width : ℚ) / w.height) := by
  obtain ⟨f1, f2⟩ := ofNat_single hh
  obtain ⟨o1, o2⟩ := one_mul_single (nan := nan) hw
  have hh0 : (1 : ℚ) ≤ w.height := by exact_mod_cast h0
  have hwq : (w.width : ℚ) ≤ 16777216 := by exact_mod_cast hw
  have hhq : (w.height : ℚ) ≤ 16777216 := by exact_mod_cast hh
  have hnn : 0 ≤ (w.width : ℚ) / w.height := by positivity
  obtain ⟨d1, d2, _, _⟩ := div_fin (nan := nan) proper_single o1 f1 (by rw [f2]; linarith) (by
    rw [o2, f2, abs_of_nonneg hnn]
    refine le_trans ?_ greatest_single
    rw [div_le_iff₀ (by linarith)]
    norm_num
    nlinarith)
  rw [o2, f2, abs_of_nonneg hnn, roundoff_single] at d2
  refine ⟨d1, d2 ?_⟩
  unfold NotTiny
  rw [abs_of_nonneg hnn]
  rcases Nat.eq_zero_or_pos w.width with h | h
  · rw [h]
    exact .inr ⟨0, Fmt.single.emin, Nat.two_pow_pos _, le_refl _, by simp [mag]⟩
  · refine .inl (leastNormal_single.trans ?_)
    have : (1 : ℚ) ≤ w.width := by exact_mod_cast h
    rw [le_div_iff₀ (by linarith)]
    linarith

/-- Setting the aspect to a number that was read, and printing it. -/
theorem aspect_trip {w : Window} (hh : w.height ≤ 16777216) (hh0 : 0 < w.height) {t : Bytes} {q : ℚ} (ht : ReadsNumber t q)
    (h0 : 0 ≤ q) (hq : NotTiny .single q) (hb : q * w.height + 2 ≤ 16777216) :
    ∃ x n, (singleConv tiny).fromString ⟨[t]⟩ = .ok (.ok x) ∧ w.setAspect nan x = .ok { w with width := n } ∧
      |(n : ℚ) - q * w.height| ≤ 1 + 2 / 10 ^ 7 * (q * w.height) ∧
      ∃ r, ReadsNumber ((singleConv tiny).toString (Window.aspect nan { w with width := n })) r ∧
        |r - q| ≤ 6 / 10 ^ 6 * q + (1 + 1 / 10 ^ 5) / w.height + 1 / 10 ^ 6 := by
  have hhq : (1 : ℚ) ≤ w.height := by exact_mod_cast hh0
  have hqg : |q| ≤ greatest .single := by
    rw [abs_of_nonneg h0]
    refine le_trans ?_ greatest_single
    norm_num
    nlinarith
  obtain ⟨x, x1, x2, x3, _⟩ := read_error (tiny := tiny) proper_single (lit "float") ht hq hqg
  rw [abs_of_nonneg h0, roundoff_single] at x3
  have x3 := abs_le.1 x3
  have hQ0 : 0 ≤ q * w.height := by positivity
  have hxq : |val x * w.height - q * w.height| ≤ 1 / 16777216 * (q * w.height) := by
    rw [abs_le]
    constructor <;> nlinarith
  have hxq' := abs_le.1 hxq
  obtain ⟨n, n1, n2, n3⟩ := setAspect_ok (nan := nan) (w := w) hh x2 (by linarith) (by linarith)
  have n3' := abs_le.1 n3
  have hnq : |(n : ℚ) - q * w.height| ≤ 1 + 2 / 10 ^ 7 * (q * w.height) := by
    rw [abs_le]
    norm_num
    constructor <;> linarith
  refine ⟨x, n, x1, n1, hnq, ?_⟩
  obtain ⟨a1, a2⟩ := aspect_near (nan := nan) (w := { w with width := n }) n2 hh hh0
  obtain ⟨r, r1, r2⟩ := text_accuracy (tiny := tiny) (lit "float") a1
  refine ⟨r, r1, ?_⟩
  simp only at a2 r2
  generalize val (Window.aspect nan { w with width := n }) = y at *
  have hN : |(n : ℚ) / w.height - q| ≤ 1 / w.height + 2 / 10 ^ 7 * q := by
    have e : (n : ℚ) / w.height - q = ((n : ℚ) - q * w.height) / w.height := by field_simp
    have e2 : 1 / (w.height : ℚ) + 2 / 10 ^ 7 * q = (1 + 2 / 10 ^ 7 * (q * w.height)) / w.height := by field_simp
    rw [e, e2, abs_div, abs_of_nonneg (a := (w.height : ℚ)) (by linarith)]
    exact div_le_div_of_nonneg_right hnq (by linarith)
  have hsplit : (1 + 1 / 10 ^ 5) / (w.height : ℚ) = (1 + 1 / 10 ^ 5) * (1 / w.height) := by ring
  rw [hsplit]
  have hi0 : 0 ≤ 1 / (w.height : ℚ) := by positivity
  have hN0 : 0 ≤ (n : ℚ) / w.height := by positivity
  generalize 1 / (w.height : ℚ) = i at *
  generalize (n : ℚ) / w.height = N at *
  have hN' := abs_le.1 hN
  have a2' := abs_le.1 a2
  have hy0 : 0 ≤ y := by linarith
  rw [abs_of_nonneg hy0] at r2
  have r2' := abs_le.1 r2
  norm_num at *
  rw [abs_le]
  constructor <;> linarith

/-- Setting the aspect to a number for which no width is representable. -/
theorem setAspect_ub {w : Window} (hh : w.height ≤ 16777216) {t : Bytes} {q : ℚ} (ht : ReadsNumber t q)
    (hq : |q| ≤ greatest .single) (hb : q * w.height ≤ -2 ∨ 2 ^ 65 ≤ q * w.height) :
    ∃ x, (singleConv tiny).fromString ⟨[t]⟩ = .ok (.ok x) ∧ w.setAspect nan x = .ub .castRange := by
  have hh' : (w.height : ℚ) ≤ 16777216 := by exact_mod_cast hh
  have hh0 : (0 : ℚ) ≤ w.height := by positivity
  have hqn : leastNormal .single ≤ |q| := by
    refine leastNormal_single.trans ?_
    have h1 := neg_abs_le q
    have h2 := le_abs_self q
    have h3 := abs_nonneg q
    norm_num at hb
    rcases hb with hb | hb <;> nlinarith
  obtain ⟨x, x1, x2, x3, _⟩ := read_error (tiny := tiny) proper_single (lit "float") ht (.inl hqn) hq
  refine ⟨x, x1, ?_⟩
  obtain ⟨f1, f2⟩ := ofNat_single hh
  rw [roundoff_single] at x3
  have hxh : |val x * w.height - q * w.height| ≤ 1 / 16777216 * |q * w.height| := by
    rw [← sub_mul, abs_mul, abs_mul, abs_of_nonneg hh0]
    nlinarith
  generalize hQ : q * (w.height : ℚ) = Q at *
  have hxh' := abs_le.1 hxh
  have hbig : leastNormal .single ≤ |val x * val (ofNat .single w.height)| := by
    rw [f2]
    refine leastNormal_single.trans ?_
    norm_num at hb
    rcases hb with hb | hb
    · rw [abs_of_neg (by linarith)] at hxh'
      refine le_trans ?_ (neg_le_abs _)
      linarith
    · rw [abs_of_nonneg (by linarith)] at hxh'
      refine le_trans ?_ (le_abs_self _)
      linarith
  have hmul := mul_either (nan := nan) proper_single x2 f1 hbig
  unfold Window.setAspect
  have : toUnsigned 64 (mul .single nan x (ofNat .single w.height)) = .ub .castRange := by
    rcases hmul with ⟨s, hs⟩ | ⟨m1, m2⟩
    · rw [hs]
      rfl
    · refine toUnsigned_ub m1 ?_
      rw [f2, roundoff_single] at m2
      have m2' := abs_le.1 m2
      norm_num at hb
      rcases hb with hb | hb
      · left
        rw [abs_of_neg (by linarith)] at hxh'
        rw [abs_of_neg (by linarith)] at m2'
        linarith
      · right
        rw [abs_of_nonneg (by linarith)] at hxh'
        rw [abs_of_nonneg (by linarith)] at m2'
        norm_num
        linarith
  rw [this]
  rfl

end Coil.Floats
