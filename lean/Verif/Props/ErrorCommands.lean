import Verif.Spec.ErrorCommands
import Verif.Proofs.Sqrt
import Verif.Props.Particles

/-!
# Commands that report errors (C109)
-/

namespace Coil
open Spec Floats

namespace Demo

/-- The commands of the example. -/
def PErr (k : Nat) : FunctorDef Unit Nat Nat :=
  [sqrtContextDef (fun _ _ => true) (fun _ => false), sqrtExceptDef (fun _ _ => true) (fun _ => false), getFloatDef (fun _ _ => true),
    getTypeNameDef linux64 (fun _ _ => true), testNamedArgsDef linux64 (fun _ _ => true)].getD k namedUnit

def startErr : Res (Sys Reg Unit Nat Nat) := do
  let m ← UMap.create (djb2 true) 1
  let s ← bindingsAdd ops ⟨m, some (lexRead (LexCfg.default true)), (), [], 0, [], []⟩ (lit "sqrt_context") [(0, 0)]
  let s ← bindingsAdd ops s (lit "sqrt_except") [(1, 0)]
  let s ← bindingsAdd ops s (lit "get_float") [(2, 0)]
  let s ← bindingsAdd ops s (lit "get_type_name") [(3, 0)]
  bindingsAdd ops s (lit "test_named_args") [(4, 0)]

def execErr (catching : Bool) (lines : List String) : Res (List (Option (Answer × Bytes))) := do
  let s ← startErr
  let (_, os) ← executeAll PErr ops catching 3 s (lines.map fun t => .line (lit t))
  .ok (os.map answer)

end Demo

variable {S W C D : Type} {P : C → FunctorDef W C D} {ops : RegOps S C D} {catching : Bool} {fuel depth : Nat}
  {s : Sys S W C D} {req : Request} {name : Bytes} {f : Inst C D} {named : List Named} {tiny : Nat → Nat → Bool} {nan : Fl → Bool} {pl : Platform}
  {t : Bytes} {q : ℚ} {v : Value}

section Helpers

/-- The text of the root. -/
theorem root_text (h : FloatFits t q) (h0 : 0 ≤ q) :
    ∃ x text, (singleConv tiny).fromString ⟨[t]⟩ = .ok (.ok x) ∧ Fl.isNegative x = false ∧
      (singleConv tiny).toString (Fl.sqrt .single nan x) = text ∧ TellsRoot text q ∧
      ∀ n : Nat, q = n * n → n ≤ 4096 → text = natDec n := by
  obtain ⟨x, x1, x2, x3, x4⟩ := read_error (tiny := tiny) proper_single (lit "float") h.1 h.2.1 h.2.2
  rw [roundoff_single, abs_of_nonneg h0] at x3
  have hx0 : 0 ≤ val x := by
    have := (abs_le.1 x3).1
    norm_num at this
    nlinarith
  obtain ⟨r1, r2, r3, r4, r5⟩ := sqrt_single (nan := nan) x2 hx0
  obtain ⟨r, t1, t2⟩ := text_accuracy (tiny := tiny) (lit "float") r2
  refine ⟨x, _, x1, r1, rfl, ⟨r, t1, ?_⟩, ?_⟩
  · generalize val (Fl.sqrt .single nan x) = y at *
    have hq0 : (0 : ℝ) ≤ q := by exact_mod_cast h0
    have hs0 : (0 : ℝ) ≤ √(q : ℝ) := Real.sqrt_nonneg _
    have hss : √(q : ℝ) * √(q : ℝ) = q := Real.mul_self_sqrt hq0
    have x3' : |((val x : ℚ) : ℝ) - q| ≤ 1 / 16777216 * q := by
      have := (Rat.cast_le (K := ℝ)).2 x3
      push_cast at this
      exact this
    obtain ⟨b1, b2⟩ := abs_le.1 x3'
    have u1 : √((val x : ℚ) : ℝ) ≤ (1 + 1 / 16777216) * √(q : ℝ) := Real.sqrt_le_iff.2 ⟨by positivity, by nlinarith⟩
    have u2 : (1 - 1 / 16777216) * √(q : ℝ) ≤ √((val x : ℚ) : ℝ) := Real.le_sqrt_of_sq_le (by nlinarith)
    have t2' : |(r : ℝ) - y| ≤ 1 / 10 ^ 6 + 5 / 10 ^ 6 * y := by
      rw [abs_of_nonneg r3] at t2
      have := (Rat.cast_le (K := ℝ)).2 t2
      push_cast at this
      exact this
    norm_num at r4
    have a1 := abs_sub_le (r : ℝ) y √(q : ℝ)
    have a2 := abs_sub_le (y : ℝ) √((val x : ℚ) : ℝ) √(q : ℝ)
    have a3 : |√((val x : ℚ) : ℝ) - √(q : ℝ)| ≤ 1 / 16777216 * √(q : ℝ) := abs_le.2 ⟨by linarith, by linarith⟩
    have a4 : (y : ℝ) - √(q : ℝ) ≤ |(y : ℝ) - √(q : ℝ)| := le_abs_self _
    norm_num at t2' ⊢
    linarith
  · rintro n rfl hn
    have hn' : ((n : Int)).natAbs ≤ 2 ^ 24 := by simp; omega
    have m1 : Member .single |((n * n : Nat) : ℚ)| := by
      have := member_whole (F := .single) proper_single single_facts.1 (z := ((n * n : Nat) : Int)) (by
        rw [Int.natAbs_natCast]
        calc n * n ≤ 4096 * 4096 := Nat.mul_le_mul hn hn
          _ = _ := by decide)
      simpa using this
    have m2 : Member .single (n : ℚ) := by
      have := member_whole (F := .single) proper_single single_facts.1 (z := (n : Int)) (by simp [Fmt.single]; omega)
      simpa using this
    have hv : val x = (n : ℚ) * n := x4 (by simpa using m1)
    have := r5 n (by positivity) m2 hv
    have := toString_whole (tiny := tiny) (lit "float") r2 (z := (n : Int)) (by simpa using this) (by simp; omega)
    exact this

theorem bad_float {m : Bytes} (h : BadFloat v m) : (singleConv tiny).fromString v = .ok (.error m) := by
  cases h with
  | text h => exact C68_reject proper_single float_nulFree h
  | large h1 h2 h3 => exact C68_overflow proper_single float_nulFree h1 h2 h3
  | parts h => exact C15_float float_nulFree h

theorem negative_read (h : FloatFits t q) (h0 : q < 0) : ∃ x, (singleConv tiny).fromString ⟨[t]⟩ = .ok (.ok x) ∧ Fl.isNegative x = true := by
  obtain ⟨x, x1, x2, x3, x4⟩ := read_error (tiny := tiny) proper_single (lit "float") h.1 h.2.1 h.2.2
  rw [roundoff_single, abs_of_neg h0] at x3
  refine ⟨x, x1, negative_single x2 ?_⟩
  have := (abs_le.1 x3).2
  norm_num at this
  linarith

theorem printG_leading (x : Fl) : SixLeading x (Fl.printG x) := by
  cases x with
  | inf neg => cases neg <;> rfl
  | nan neg => cases neg <;> rfl
  | fin neg m e =>
    rcases Nat.eq_zero_or_pos m with rfl | hm
    · refine ⟨0, ⟨neg, 0, ?_, by simp⟩, by simp [finVal, mag]⟩
      exact floatText_signed word_zero
    · obtain ⟨D, X, htext, h5, h6, k, k1, k2, herr, hX⟩ := printG_six (neg := neg) (e := e) hm
      show ∃ r, _ ∧ _
      rw [htext, abs_finVal]
      refine ⟨_, ⟨neg, _, floatText_signed (layoutG_word h5 h6), rfl⟩, ?_⟩
      have := six_error k1 herr
      unfold finVal
      cases neg
      · exact this
      · rw [if_pos rfl, if_pos rfl, neg_sub_neg, abs_sub_comm]
        exact this

theorem int_defined (v : Value) : ∃ r, (intConv pl .int).fromString v = .ok r := by
  simp only [intConv, arithConv]
  split
  · split
    · exact ⟨_, rfl⟩
    · exact ⟨_, rfl⟩
  · exact ⟨_, rfl⟩

end Helpers

/-! ## C109 -/

/-- **C109.** `sqrt_context` and `sqrt_except` tell the root of a number that is not negative. -/
theorem C109_root {d : FunctorDef W C D} (hd : d = sqrtContextDef tiny nan ∨ d = sqrtExceptDef tiny nan) (h : OneForm P ops s name d f)
    (hm : Means s.lexer req ⟨name, [⟨[t]⟩], named⟩) (ht : FloatFits t q) (h0 : 0 ≤ q) :
    ∃ r text, (nested P ops catching (fuel + 1) depth).exec s req = .ok ({ s with calls := s.calls ++ [(depth, f.id)] }, .ok r) ∧
      r.errors = [] ∧ r.returnValue = some text ∧ r.output = [] ∧ TellsRoot text q ∧ ∀ n : Nat, q = n * n → n ≤ 4096 → text = natDec n := by
  obtain ⟨x, text, x1, x2, x3, x4, x5⟩ := root_text (tiny := tiny) (nan := nan) ht h0
  rcases hd with rfl | rfl
  · have hr : Runs ops (nested P ops catching fuel (depth + 1)) f named [] ((sqrtContextDef (W := W) (C := C) (D := D) tiny nan).body (x, ()))
        { s with calls := s.calls ++ [(depth, f.id)] } [] (.ret (Fl.sqrt .single nan x)) { s with calls := s.calls ++ [(depth, f.id)] } := by
      simp only [sqrtContextDef, x2]
      exact .ret
    exact ⟨_, text, h.returns hm (xs := (x, ())) ⟨x1, trivial⟩ hr, rfl, congrArg some x3, rfl, x4, x5⟩
  · have hr : Runs ops (nested P ops catching fuel (depth + 1)) f named [] ((sqrtExceptDef (W := W) (C := C) (D := D) tiny nan).body (x, ()))
        { s with calls := s.calls ++ [(depth, f.id)] } [] (.ret (Fl.sqrt .single nan x)) { s with calls := s.calls ++ [(depth, f.id)] } := by
      simp only [sqrtExceptDef, x2]
      exact .ret
    exact ⟨_, text, h.returns hm (xs := (x, ())) ⟨x1, trivial⟩ hr, rfl, congrArg some x3, rfl, x4, x5⟩

/-- **C109.** `sqrt_context` of a negative number is an error. -/
theorem C109_negative (h : OneForm P ops s name (sqrtContextDef tiny nan) f) (hm : Means s.lexer req ⟨name, [⟨[t]⟩], named⟩)
    (ht : FloatFits t q) (h0 : q < 0) :
    ∃ r, (nested P ops catching (fuel + 1) depth).exec s req = .ok ({ s with calls := s.calls ++ [(depth, f.id)] }, .ok r) ∧
      r.errors = [lit "Value should be non-negative!"] ∧ r.returnValue = none ∧ r.output = [] := by
  obtain ⟨x, x1, x2⟩ := negative_read (tiny := tiny) ht h0
  have hr : Runs ops (nested P ops catching fuel (depth + 1)) f named [] ((sqrtContextDef (W := W) (C := C) (D := D) tiny nan).body (x, ()))
      { s with calls := s.calls ++ [(depth, f.id)] } [.error (lit "Value should be non-negative!")] (.ret zeroF)
      { s with calls := s.calls ++ [(depth, f.id)] } := by
    simp only [sqrtContextDef, x2]
    exact .reportError .ret
  exact ⟨_, h.returns hm (xs := (x, ())) ⟨x1, trivial⟩ hr, rfl, rfl, rfl⟩

/-- **C109.** `sqrt_except` of a negative number throws; if exceptions are caught it is an error with another text, otherwise the exception goes on to
the caller. -/
theorem C109_throws (h : OneForm P ops s name (sqrtExceptDef tiny nan) f) (hm : Means s.lexer req ⟨name, [⟨[t]⟩], named⟩)
    (ht : FloatFits t q) (h0 : q < 0) :
    ∃ out, (nested P ops catching (fuel + 1) depth).exec s req = .ok ({ s with calls := s.calls ++ [(depth, f.id)] }, out) ∧
      (catching = true → ∃ r, out = .ok r ∧ r.errors = [lit "Exception caught during execution: Value should be non-negative!"] ∧
        r.returnValue = none ∧ r.output = []) ∧
      (catching = false → out = .error (.std (lit "Value should be non-negative!"))) := by
  obtain ⟨x, x1, x2⟩ := negative_read (tiny := tiny) ht h0
  have hr : Runs ops (nested P ops catching fuel (depth + 1)) f named [] ((sqrtExceptDef (W := W) (C := C) (D := D) tiny nan).body (x, ()))
      { s with calls := s.calls ++ [(depth, f.id)] } [] (.exn (.std (lit "Value should be non-negative!")))
      { s with calls := s.calls ++ [(depth, f.id)] } := by
    simp only [sqrtExceptDef, x2]
    exact .throw
  refine ⟨_, h.returns hm (xs := (x, ())) ⟨x1, trivial⟩ hr, ?_, ?_⟩
  · rintro rfl
    refine ⟨_, rfl, ?_, rfl, rfl⟩
    show [] ++ [_] = [_]
    decide +kernel
  · rintro rfl
    rfl

/-- **C109.** An argument that is not a number is refused by both, and nothing is called. -/
theorem C109_refused {d : FunctorDef W C D} (hd : d = sqrtContextDef tiny nan ∨ d = sqrtExceptDef tiny nan) (h : OneForm P ops s name d f)
    (hm : Means s.lexer req ⟨name, [v], named⟩) {m : Bytes} (hv : BadFloat v m) :
    (nested P ops catching (fuel + 1) depth).exec s req = .ok (s, .ok ⟨⟨name, [v], named⟩, [m], none, []⟩) := by
  have hb := bad_float (tiny := tiny) hv
  have h2 : conversionErrors d.params [v] = [m] := by rcases hd with rfl | rfl <;> simp [conversionErrors, sqrtContextDef, sqrtExceptDef, hb]
  have h1 : ConversionsDefined d.params [v] := by rcases hd with rfl | rfl <;> exact ⟨⟨_, hb⟩, trivial⟩
  rw [h.rejected (catching := catching) (fuel := fuel) (depth := depth) hm h1 (by rw [h2]; simp), h2]

/-- **C109.** `get_float` tells a number, rounded to six digits, or why the argument is none. -/
theorem C109_float (h : OneForm P ops s name (getFloatDef tiny) f) (hm : Means s.lexer req ⟨name, [v], named⟩) :
    ∃ r, (nested P ops catching (fuel + 1) depth).exec s req = .ok ({ s with calls := s.calls ++ [(depth, f.id)] }, .ok r) ∧ r.output = [] ∧
      (∀ t q, v = ⟨[t]⟩ → FloatFits t q → r.errors = [] ∧ ∃ text p, r.returnValue = some text ∧ ReadsNumber text p ∧
        |p - q| ≤ 6 / 10 ^ 6 * |q| + 1 / 10 ^ 6 ∧ ∀ z : Int, q = z → z.natAbs ≤ 999999 → text = intDec z) ∧
      (∀ m, BadFloat v m → r.errors = [m] ∧ r.returnValue = none) := by
  have hx : ConvertTo (getFloatDef (W := W) (C := C) (D := D) tiny).params [v] (v, ()) := ⟨rfl, trivial⟩
  obtain ⟨res, hres⟩ := single_defined (tiny := tiny) v
  cases res with
  | ok x =>
    have hr : Runs ops (nested P ops catching fuel (depth + 1)) f named [] ((getFloatDef (W := W) (C := C) (D := D) tiny).body (v, ()))
        { s with calls := s.calls ++ [(depth, f.id)] } [] (.ret x) { s with calls := s.calls ++ [(depth, f.id)] } := by
      simp only [getFloatDef, hres]
      exact .ret
    refine ⟨_, h.returns hm hx hr, rfl, ?_, ?_⟩
    · rintro t q rfl ht
      refine ⟨rfl, (singleConv tiny).toString x, ?_⟩
      obtain ⟨y, y1, y2, y3, y4⟩ := read_error (tiny := tiny) proper_single (lit "float") ht.1 ht.2.1 ht.2.2
      obtain rfl : x = y := by
        have := hres.symm.trans y1
        simpa using this
      obtain ⟨p, p1, p2⟩ := text_accuracy (tiny := tiny) (lit "float") y2
      rw [roundoff_single] at y3
      refine ⟨p, rfl, p1, ?_, ?_⟩
      · have a1 := abs_sub_le p (val x) q
        have a2 := abs_sub_abs_le_abs_sub (val x) q
        have a3 := abs_nonneg q
        norm_num at p2 y3 ⊢
        linarith
      · rintro z rfl hz
        exact toString_whole (lit "float") y2 (y4 (member_whole proper_single single_facts.1 (hz.trans (by decide)))) hz
    · intro m hb
      have := hres.symm.trans (bad_float hb)
      simp at this
  | error e =>
    have hr : Runs ops (nested P ops catching fuel (depth + 1)) f named [] ((getFloatDef (W := W) (C := C) (D := D) tiny).body (v, ()))
        { s with calls := s.calls ++ [(depth, f.id)] } [.error e] (.ret zeroF) { s with calls := s.calls ++ [(depth, f.id)] } := by
      simp only [getFloatDef, hres]
      exact .reportError .ret
    refine ⟨_, h.returns hm hx hr, rfl, ?_, ?_⟩
    · rintro t q rfl ht
      obtain ⟨y, y1, _⟩ := read_error (tiny := tiny) proper_single (lit "float") ht.1 ht.2.1 ht.2.2
      have := hres.symm.trans y1
      simp at this
    · intro m hb
      obtain rfl : e = m := by
        have := hres.symm.trans (bad_float hb)
        simpa using this
      exact ⟨rfl, rfl⟩

/-- **C109.** `get_type_name` tells the first of the types `bool`, `int` and `float` that the argument is a text of. A hypothesis excludes the texts
on which the conversion to `bool` is undefined (C14). -/
theorem C109_type (h : OneForm P ops s name (getTypeNameDef pl tiny) f) (hm : Means s.lexer req ⟨name, [v], named⟩)
    (hs : pl.charSigned = false ∨ ∀ t ∈ v.subvalues, ∀ c ∈ t, c < 128) {es : List Bytes} {told : Option Bytes} (ht : TypeTold pl v es told) :
    ∃ r, (nested P ops catching (fuel + 1) depth).exec s req = .ok ({ s with calls := s.calls ++ [(depth, f.id)] }, .ok r) ∧
      r.errors = es ∧ r.returnValue = told ∧ r.output = [] := by
  have hx : ConvertTo (getTypeNameDef (W := W) (C := C) (D := D) pl tiny).params [v] (v, ()) := ⟨rfl, trivial⟩
  have done : ∀ ev text, errorsOf ev = es → outputOf ev = [] → told = (if es = [] then some text else none) →
      Runs ops (nested P ops catching fuel (depth + 1)) f named [] ((getTypeNameDef (W := W) (C := C) (D := D) pl tiny).body (v, ()))
        { s with calls := s.calls ++ [(depth, f.id)] } ev (.ret text) { s with calls := s.calls ++ [(depth, f.id)] } →
      ∃ r, (nested P ops catching (fuel + 1) depth).exec s req = .ok ({ s with calls := s.calls ++ [(depth, f.id)] }, .ok r) ∧
        r.errors = es ∧ r.returnValue = told ∧ r.output = [] := by
    intro ev text h1 h2 h3 hr
    refine ⟨_, h.returns hm hx hr, h1, ?_, h2⟩
    rw [h3, ← h1]
    rfl
  have hs' : ∀ t, v = ⟨[t]⟩ → pl.charSigned = false ∨ ∀ c ∈ t, c < 128 := by
    rintro t rfl
    exact hs.imp id fun h => h t (by simp)
  have noBool : ∀ t, v = ⟨[t]⟩ → ¬ IsBool t → (boolConv pl).fromString ⟨[t]⟩ = .ok (.error (cannotConvert (cstr t) (lit "bool"))) :=
    fun t hv h => C14_bool_reject_partial (hs' t hv) fun b hb => h ⟨b, hb⟩
  have noInt : ∀ t, ¬ IsInt pl t → (intConv pl .int).fromString ⟨[t]⟩ = .ok (.error (cannotConvert (cstr t) (IntType.int.name pl))) :=
    fun t h => C12_signed_reject (t := .int) trivial h
  cases ht with
  | @bool t hb =>
    obtain ⟨b, hb⟩ := hb
    refine done [] (lit "bool") rfl rfl rfl ?_
    simp only [getTypeNameDef, (C14_bool_iff_partial (hs' t rfl) b).2 hb]
    exact .ret
  | @int t h1 h2 =>
    obtain ⟨z, hz⟩ := h2
    refine done [] (lit "int") rfl rfl rfl ?_
    simp only [getTypeNameDef, noBool t rfl h1, Prog.ofRes, Prog.bind, (C12_signed_iff (t := .int) (pl := pl) trivial).2 hz]
    exact .ret
  | @float t h1 h2 h3 =>
    have : ∃ x, (singleConv tiny).fromString ⟨[t]⟩ = .ok (.ok x) := by
      rcases h3 with ⟨q, hq⟩ | ⟨neg, d, hd, rfl | rfl⟩
      · obtain ⟨y, y1, _⟩ := read_error (tiny := tiny) proper_single (lit "float") hq.1 hq.2.1 hq.2.2
        exact ⟨y, y1⟩
      · exact ⟨_, (C68_special (lit "float")).1 hd⟩
      · exact ⟨_, (C68_special (lit "float")).2 hd⟩
    obtain ⟨x, hx⟩ := this
    refine done [] (lit "float") rfl rfl rfl ?_
    simp only [getTypeNameDef, noBool t rfl h1, noInt t h2, Prog.ofRes, Prog.bind, hx]
    exact .ret
  | @unknown t h1 h2 h3 =>
    refine done [.error _, .error _, .error _, .error _] [] rfl rfl rfl ?_
    simp only [getTypeNameDef, noBool t rfl h1, noInt t h2, Prog.ofRes, Prog.bind, bad_float (tiny := tiny) (.text h3)]
    exact .reportError (.reportError (.reportError (.reportError .ret)))
  | parts h1 =>
    refine done [.error _, .error _, .error _, .error _] [] rfl rfl rfl ?_
    simp only [getTypeNameDef, C15_bool h1, C15_int h1, Prog.ofRes, Prog.bind, bad_float (tiny := tiny) (.parts h1)]
    exact .reportError (.reportError (.reportError (.reportError .ret)))

/-- What `test_named_args` does. -/
theorem named_told {ne : Nested S W C D} {self : Inst C D} {σ : Sys S W C D} (named : List Named) :
    ∃ ev, Runs ops ne self named [] ((testNamedArgsDef (W := W) (C := C) (D := D) pl tiny).body ()) σ ev (.ret ()) σ ∧
      NamedTold pl tiny named (errorsOf ev) (outputOf ev) := by
  have kf : ∀ k, k ∈ [lit "float_arg", lit "int_arg"] → NulFree k := by unfold NulFree; decide
  rcases C37_dichotomy (lit "any_arg") named with h1 | ⟨v, h1⟩
  · refine ⟨[.error (lit "Missing named argument 'any_arg'")], ?_, .missing h1⟩
    simp only [testNamedArgsDef, namedGetOrReport, namedGet, Prog.bind]
    refine .named ?_
    rw [show namedFind (lit "any_arg") (namedAfter named []) = none from namedFind_none.2 h1]
    exact .reportError .ret
  obtain ⟨e1, x, h2⟩ := asked_total (singleConv tiny) (lit "float_arg") true none named single_defined
  obtain ⟨e2, z, h3⟩ := asked_total (intConv pl .int) (lit "int_arg") false none named int_defined
  have ha : e1 = [] ∧ (∃ y, x = some y) ∨ e1 ≠ [] ∧ x = none := by cases h2 <;> simp_all
  rcases ha with ⟨rfl, x, rfl⟩ | ⟨he, rfl⟩
  swap
  · refine ⟨[] ++ (e1.map .error ++ []), Runs.bind_ret (named_there h1) ?_, ?_⟩
    · show Runs _ _ _ _ (([] : List Bytes).map .error) (Prog.bind _ _) _ _ _ _
      exact asked_bind (before := []) (kf _ (by simp)) h2 .ret
    simp only [List.nil_append, List.append_nil, errorsOf_errors, outputOf_errors]
    exact .noFloat h1 h2
  have key : ∀ ev, Runs ops ne self named (([] ++ [] ++ e2).map .error)
        (.hasErrors fun wrong => if wrong then .ret () else .log (cstr v.str ++ lit ", " ++ Fl.printG x) <|
            match z with
            | none => .ret ()
            | some z => .log (lit ", " ++ intDec z) (.ret ())) σ ev (.ret ()) σ →
      NamedTold pl tiny named (e2 ++ errorsOf ev) (outputOf ev) →
      ∃ ev, Runs ops ne self named [] ((testNamedArgsDef (W := W) (C := C) (D := D) pl tiny).body ()) σ ev (.ret ()) σ ∧
        NamedTold pl tiny named (errorsOf ev) (outputOf ev) := by
    intro ev hr ht
    refine ⟨[] ++ (([] : List Bytes).map .error ++ (e2.map .error ++ ev)), Runs.bind_ret (named_there h1)
      (asked_bind (before := []) (kf _ (by simp)) h2 (asked_bind (before := [] ++ []) (kf _ (by simp)) h3 hr)), ?_⟩
    simpa only [List.nil_append, List.map_nil, errorsOf_append, outputOf_append, errorsOf_errors, outputOf_errors] using ht
  rw [str_eq_joined] at key
  have lead := printG_leading x
  cases h3 with
  | absent h4 =>
    refine key [.log _] (.hasErrors (.log .ret)) ?_
    simpa [errorsOf, outputOf, CtxEvent.text] using NamedTold.noInt (pl := pl) h1 h2 h4 lead
  | missing _ h4 => cases h4
  | bad h4 h5 => exact key [] (.hasErrors .ret) (.badInt h1 h2 (.bad h4 h5))
  | good h4 h5 =>
    refine key [.log _, .log _] (.hasErrors (.log (.log .ret))) ?_
    simpa [errorsOf, outputOf, CtxEvent.text] using NamedTold.all h1 h2 (.good h4 h5) lead

/-- **C109.** `test_named_args` stops at the first thing that is wrong, and tells it; otherwise it shows the arguments. -/
theorem C109_named (h : OneForm P ops s name (testNamedArgsDef pl tiny) f) (hm : Means s.lexer req ⟨name, [], named⟩) :
    ∃ r, (nested P ops catching (fuel + 1) depth).exec s req = .ok ({ s with calls := s.calls ++ [(depth, f.id)] }, .ok r) ∧
      r.returnValue = none ∧ NamedTold pl tiny named r.errors r.output := by
  obtain ⟨ev, hr, ht⟩ := named_told (ops := ops) (ne := nested P ops catching fuel (depth + 1)) (self := f) (pl := pl) (tiny := tiny)
    (σ := { s with calls := s.calls ++ [(depth, f.id)] }) named
  exact ⟨_, h.returns hm (xs := ()) trivial hr, ite_self _, ht⟩

namespace Demo

example : (execErr true ["foo arg", "ns.foo arg=", "sqrt_context 9.8596", "sqrt_context -1", "sqrt_except 9.8596", "sqrt_except -1", "get_float 0.1",
      "get_float true", "get_type_name true", "get_type_name 3.14", "get_type_name string"]) =
    .ok [some (⟨[lit "No function 'foo' is registered"], none⟩, []), some (⟨[lit "Syntax error: Expected an argument value, found end of string"], none⟩, []),
      some (⟨[], some (lit "3.14")⟩, []), some (⟨[lit "Value should be non-negative!"], none⟩, []), some (⟨[], some (lit "3.14")⟩, []),
      some (⟨[lit "Exception caught during execution: Value should be non-negative!"], none⟩, []), some (⟨[], some (lit "0.1")⟩, []),
      some (⟨[lit "Unable to convert 'true' to type 'float'"], none⟩, []), some (⟨[], some (lit "bool")⟩, []), some (⟨[], some (lit "float")⟩, []),
      some (⟨[lit "Unknown type", lit "Unable to convert 'string' to type 'bool'", lit "Unable to convert 'string' to type 'int'",
        lit "Unable to convert 'string' to type 'float'"], none⟩, [])] := by
  decide +kernel

example : (execErr true ["test_named_args", "test_named_args any_arg=something", "test_named_args any_arg=something float_arg=non-float",
      "test_named_args any_arg=something float_arg=3.14", "test_named_args any_arg=something float_arg=3.14 int_arg=non-int",
      "test_named_args any_arg=something float_arg=3.14 int_arg=42", "test_named_args any_arg=(foo, bar) float_arg=3.14 int_arg=42"]) =
    .ok [some (⟨[lit "Missing named argument 'any_arg'"], none⟩, []), some (⟨[lit "Missing named argument 'float_arg'"], none⟩, []),
      some (⟨[lit "Unable to convert 'non-float' to type 'float'"], none⟩, []), some (⟨[], none⟩, lit "something, 3.14"),
      some (⟨[lit "Unable to convert 'non-int' to type 'int'"], none⟩, []), some (⟨[], none⟩, lit "something, 3.14, 42"),
      some (⟨[], none⟩, lit "foo bar, 3.14, 42")] := by
  decide +kernel

/-- Without catching, the exception leaves `execute`. -/
example : (execErr false ["sqrt_except -1", "sqrt_except 16777216", "sqrt_context 2"]) =
    .ok [none, some (⟨[], some (lit "4096")⟩, []), some (⟨[], some (lit "1.41421")⟩, [])] := by
  decide +kernel

/-- The hypotheses of the theorems hold for arguments of the example. -/
example : FloatFits (lit "16") 16 ∧ (16 : ℚ) = (4 : Nat) * (4 : Nat) ∧ BadFloat ⟨[lit "0", lit "1"]⟩
      (lit "Unable to convert '0 1' to type 'float': Expected 1 subvalues, got 2") ∧
    TypeTold linux64 ⟨[lit "1"]⟩ [] (some (lit "bool")) ∧
    NamedTold linux64 (fun _ _ => true) [⟨lit "any_arg", ⟨[lit "x"]⟩⟩] [lit "Missing named argument 'float_arg'"] [] := by
  refine ⟨⟨⟨false, 16, floatText_signed (neg := false) ?_, rfl⟩, .inr ?_, ?_⟩, by norm_num, ?_, .bool ⟨true, .one⟩, ?_⟩
  · have h := FloatWord.decimal (a := lit "16") (x := []) (m := 16) (k := 0)
      (.whole ((digits_iff base10).2 ⟨by decide, by decide⟩) (by decide)) (.none (lower := 101) (upper := 69))
    rw [List.append_nil] at h
    norm_num at h
    exact h
  · have := member_whole (F := .single) proper_single single_facts.1 (z := 16) (by decide)
    simpa using this
  · have := natAbs_le_greatest (F := .single) (by decide) (by decide) (z := 16) (by decide)
    simpa using this
  · exact .parts (by decide)
  · exact .noFloat (v := ⟨[lit "x"]⟩) ⟨[], [], rfl, by simp⟩ (.missing (by unfold NotNamed; decide) rfl)

end Demo

end Coil
