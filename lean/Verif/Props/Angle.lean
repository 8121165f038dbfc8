import Verif.Proofs.Angle
import Verif.Proofs.OneForm
import Verif.Props.Access
import Verif.Props.Lexer

/-!
# A variable with units (C103)
-/

namespace Coil
open Spec Floats

namespace Demo

def angleAt : AngleAt Fl := ⟨id, fun _ x => x⟩

def angleUnit : FunctorDef Fl Nat Nat := ⟨[], Unit, lit "void", none, fun _ => .ret ()⟩

/-- `direction`. -/
def PAng (k : Nat) : FunctorDef Fl Nat Nat := (angleDefs (fun _ _ => true) (fun _ _ => true) angleAt).getD k angleUnit

/-- At the beginning the angle is 45 degrees. -/
def startAng : Res (Sys Reg Fl Nat Nat) := do
  let m ← UMap.create (djb2 true) 1
  bindingsAdd ops ⟨m, some (lexRead (LexCfg.default true)), .fin false 11796480 (-18), [], 0, [], []⟩ (lit "direction") [(0, 0), (1, 0)]

def execAng (lines : List String) : Res (List (Option (Answer × Bytes))) := do
  let s ← startAng
  let (_, os) ← executeAll PAng ops true 3 s (lines.map fun t => .line (lit t))
  .ok (os.map answer)

end Demo

variable {S W C D : Type} {P : C → FunctorDef W C D} {ops : RegOps S C D} {catching : Bool} {fuel depth : Nat}
  {s : Sys S W C D} {req : Request} {name : Bytes} {d0 d1 : FunctorDef W C D} {g f : Inst C D} {named : List Named}
  {tiny : Nat → Nat → Bool} {nan : Fl → Fl → Bool} {at_ : AngleAt W} {t : Bytes}

/-- The second form, called. -/
theorem angle_called (hd : angleDefs tiny nan at_ = [d0, d1]) (h : TwoForms P ops s name d0 d1 g f)
    (hm : Means s.lexer req ⟨name, [⟨[t]⟩], named⟩) {es : List CtxEvent} {text : Bytes} {s' : Sys S W C D}
    (hr : Runs ops (nested P ops catching fuel (depth + 1)) f named []
      (if t = [] then .reportError (lit "Conversion error") (.get fun w => .ret (angleToString (at_.read w)))
        else angleSet tiny nan at_ (angleSplit t).1 (angleSplit t).2)
      { s with calls := s.calls ++ [(depth, f.id)] } es (.ret text) s') :
    (nested P ops catching (fuel + 1) depth).exec s req =
      .ok (s', endResult catching ⟨name, [⟨[t]⟩], named⟩ (some stringConv.toString) es (.ret text)) := by
  simp only [angleDefs, List.cons.injEq, and_true] at hd
  obtain ⟨rfl, rfl⟩ := hd
  rw [exec_means hm]
  exact (executeInput_called_def (input := ⟨name, [⟨[t]⟩], named⟩) h.ne_nil h.found (h.first1 rfl rfl) h.live1 h.def1 (xs := (t, ()))
    ⟨rfl, trivial⟩).2 ⟨es, .ret text, hr, rfl⟩

/-- A text with a number that converts. -/
theorem angle_set (hd : angleDefs tiny nan at_ = [d0, d1]) (h : TwoForms P ops s name d0 d1 g f)
    (hm : Means s.lexer req ⟨name, [⟨[t]⟩], named⟩) (hat : ∀ u x, at_.read (at_.write u x) = x) (h0 : t ≠ []) {b : Bytes} {rad : Bool}
    (hb : angleSplit t = (b, rad)) {x : Fl} (hx : (singleConv tiny).fromString ⟨[b]⟩ = .ok (.ok x)) {y : Fl}
    (hy : (if rad then Fl.mul .single nan x (degreesPerRadian nan) else x) = y) :
    ∃ out, (nested P ops catching (fuel + 1) depth).exec s req =
        .ok ({ s with calls := s.calls ++ [(depth, f.id)], user := at_.write s.user y }, out) ∧
      answerOf out = some ⟨[], some (Fl.printG y ++ lit " degrees")⟩ := by
  have hr : Runs ops (nested P ops catching fuel (depth + 1)) f named []
      (if t = [] then .reportError (lit "Conversion error") (.get fun w => .ret (angleToString (at_.read w)))
        else angleSet tiny nan at_ (angleSplit t).1 (angleSplit t).2)
      { s with calls := s.calls ++ [(depth, f.id)] } [] (.ret (angleToString y))
      { s with calls := s.calls ++ [(depth, f.id)], user := at_.write s.user y } := by
    rw [if_neg h0, hb]
    simp only [angleSet, hx, Prog.ofRes, Prog.bind, hy]
    refine .get (.set (.get ?_))
    have : at_.read (at_.write s.user y) = y := hat _ _
    rw [this]
    exact .ret
  exact ⟨_, angle_called hd h hm hr, rfl⟩

/-- A text that is refused. -/
theorem angle_refused (hd : angleDefs tiny nan at_ = [d0, d1]) (h : TwoForms P ops s name d0 d1 g f)
    (hm : Means s.lexer req ⟨name, [⟨[t]⟩], named⟩) {e : Bytes}
    (he : t = [] ∧ e = lit "Conversion error" ∨ t ≠ [] ∧ (singleConv tiny).fromString ⟨[(angleSplit t).1]⟩ = .ok (.error e)) :
    ∃ out, (nested P ops catching (fuel + 1) depth).exec s req = .ok ({ s with calls := s.calls ++ [(depth, f.id)] }, out) ∧
      answerOf out = some ⟨[e], none⟩ := by
  have hr : Runs ops (nested P ops catching fuel (depth + 1)) f named []
      (if t = [] then .reportError (lit "Conversion error") (.get fun w => .ret (angleToString (at_.read w)))
        else angleSet tiny nan at_ (angleSplit t).1 (angleSplit t).2)
      { s with calls := s.calls ++ [(depth, f.id)] } [.error e] (.ret (angleToString (at_.read s.user)))
      { s with calls := s.calls ++ [(depth, f.id)] } := by
    rcases he with ⟨h0, rfl⟩ | ⟨h0, he⟩
    · rw [if_pos h0]
      exact .reportError (.get .ret)
    · rw [if_neg h0]
      simp only [angleSet, he, Prog.ofRes, Prog.bind]
      exact .reportError (.get .ret)
  exact ⟨_, angle_called hd h hm hr, rfl⟩

/-! ## C103 -/

/-- **C103.** Without an argument the command answers with the angle, to six digits, and changes nothing. -/
theorem C103_read (hd : angleDefs tiny nan at_ = [d0, d1]) (h : TwoForms P ops s name d0 d1 g f) (hm : Means s.lexer req ⟨name, [], named⟩)
    (hx : Finite .single (at_.read s.user)) :
    ∃ out text r, (nested P ops catching (fuel + 1) depth).exec s req = .ok ({ s with calls := s.calls ++ [(depth, g.id)] }, out) ∧
      answerOf out = some ⟨[], some (text ++ lit " degrees")⟩ ∧ ReadsNumber text r ∧
      |r - val (at_.read s.user)| ≤ 5 / 10 ^ 6 * |val (at_.read s.user)| := by
  obtain ⟨r, h1, h2⟩ := printG_accuracy hx
  simp only [angleDefs, List.cons.injEq, and_true] at hd
  obtain ⟨rfl, rfl⟩ := hd
  have hr : Runs ops (nested P ops catching fuel (depth + 1)) g named [] (.get fun w => .ret (angleToString (at_.read w)))
      { s with calls := s.calls ++ [(depth, g.id)] } [] (.ret (angleToString (at_.read s.user))) { s with calls := s.calls ++ [(depth, g.id)] } :=
    .get .ret
  refine ⟨endResult catching ⟨name, [], named⟩ (some stringConv.toString) [] (.ret (angleToString (at_.read s.user))),
    Fl.printG (at_.read s.user), r, ?_, rfl, h1, h2⟩
  rw [exec_means hm]
  exact (executeInput_called_def (input := ⟨name, [], named⟩) h.ne_nil h.found (h.first0 rfl) h.live0 h.def0 (xs := ()) trivial).2
    ⟨[], .ret _, hr, rfl⟩

/-- **C103.** A number, or a number and `d`, sets the angle to that many degrees, up to one rounding, and the answer tells so. A number without
unit is read like this unless it ends in `d`, as hexadecimal numbers may. -/
theorem C103_degrees_partial (hd : angleDefs tiny nan at_ = [d0, d1]) (h : TwoForms P ops s name d0 d1 g f)
    (hm : Means s.lexer req ⟨name, [⟨[t]⟩], named⟩) (hat : ∀ u x, at_.read (at_.write u x) = x) {b : Bytes} {q : ℚ} (hq : ReadsNumber b q)
    (ht : t = b ++ lit "d" ∨ t = b ∧ b.getLast? ≠ some 100) (h0 : NotTiny .single q) (hg : |q| ≤ greatest .single) :
    ∃ y out text r, (nested P ops catching (fuel + 1) depth).exec s req =
        .ok ({ s with calls := s.calls ++ [(depth, f.id)], user := at_.write s.user y }, out) ∧
      Finite .single y ∧ |val y - q| ≤ 1 / 2 ^ 24 * |q| ∧ answerOf out = some ⟨[], some (text ++ lit " degrees")⟩ ∧
      ReadsNumber text r ∧ |r - q| ≤ 6 / 10 ^ 6 * |q| ∧ (∀ z : Int, q = z → z ≠ 0 → z.natAbs ≤ 999999 → text = intDec z) := by
  obtain ⟨x, x1, x2, x3, x4⟩ := read_error (tiny := tiny) proper_single (lit "float") hq h0 hg
  rw [roundoff_single] at x3
  have hs : t ≠ [] ∧ angleSplit t = (b, false) := by
    have hb : b ≠ [] := by
      obtain ⟨_, _, hf, _⟩ := hq
      exact floatText_ne_nil hf
    rcases ht with rfl | ⟨rfl, ht⟩
    · exact ⟨by simp [hb], angleSplit_d b⟩
    · exact ⟨hb, angleSplit_none (fun hc => number_no_r hq (List.mem_of_getLast? hc)) ht⟩
  obtain ⟨out, e1, e2⟩ := angle_set (catching := catching) (fuel := fuel) (depth := depth) hd h hm hat hs.1 hs.2 x1 (y := x) rfl
  obtain ⟨r, h1, h2⟩ := printG_accuracy x2
  refine ⟨x, out, _, r, e1, x2, by norm_num at x3 ⊢; exact x3, e2, h1, ?_, ?_⟩
  · have a1 := abs_sub_le r (val x) q
    have a2 := abs_sub_abs_le_abs_sub (val x) q
    have a3 := abs_nonneg q
    linarith
  · rintro z rfl hz hl
    have hm := member_whole proper_single single_facts.1 (z := z) (by norm_num [Fmt.single]; omega)
    exact printG_whole x2 (x4 hm) hl hz

/-- **C103.** A number and `r` sets the angle to that many radians, in degrees, with seven digits; `p` is any number that agrees with the constant
of the code in the digits given there, and so does the number pi. -/
theorem C103_radians (hd : angleDefs tiny nan at_ = [d0, d1]) (h : TwoForms P ops s name d0 d1 g f) {b : Bytes}
    (hm : Means s.lexer req ⟨name, [⟨[b ++ lit "r"]⟩], named⟩) (hat : ∀ u x, at_.read (at_.write u x) = x) {q : ℚ} (hq : ReadsNumber b q)
    (h0 : q = 0 ∨ leastNormal .single ≤ |q|) (hg : 58 * |q| ≤ greatest .single) :
    ∃ y out text r, (nested P ops catching (fuel + 1) depth).exec s req =
        .ok ({ s with calls := s.calls ++ [(depth, f.id)], user := at_.write s.user y }, out) ∧
      Finite .single y ∧ answerOf out = some ⟨[], some (text ++ lit " degrees")⟩ ∧ ReadsNumber text r ∧
      ∀ p : ℚ, 314159265358979 / 10 ^ 14 ≤ p → p ≤ 314159265358980 / 10 ^ 14 →
        |val y - q * 180 / p| ≤ 2 / 10 ^ 7 * |q * 180 / p| ∧ |r - q * 180 / p| ≤ 6 / 10 ^ 6 * |q * 180 / p| := by
  obtain ⟨x, x1, x2, x3⟩ := radians_near (tiny := tiny) (nan := nan) hq h0 hg
  obtain ⟨out, e1, e2⟩ := angle_set (catching := catching) (fuel := fuel) (depth := depth) hd h hm hat (by simp [lit]) (angleSplit_r b) x1
    (if_pos rfl)
  obtain ⟨r, h1, h2⟩ := printG_accuracy x2
  refine ⟨_, out, _, r, e1, x2, e2, h1, fun p p1 p2 => ⟨x3 p p1 p2, ?_⟩⟩
  have x3 := x3 p p1 p2
  generalize q * 180 / p = d at *
  have a1 := abs_sub_le r (val (Fl.mul .single nan x (degreesPerRadian nan))) d
  have a2 := abs_sub_abs_le_abs_sub (val (Fl.mul .single nan x (degreesPerRadian nan))) d
  have a3 := abs_nonneg d
  linarith

/-- **C103.** What is neither a number nor a number and a unit is refused, and the angle stays. -/
theorem C103_refused (hd : angleDefs tiny nan at_ = [d0, d1]) (h : TwoForms P ops s name d0 d1 g f)
    (hm : Means s.lexer req ⟨name, [⟨[t]⟩], named⟩) :
    (t = [] → ∃ out, (nested P ops catching (fuel + 1) depth).exec s req = .ok ({ s with calls := s.calls ++ [(depth, f.id)] }, out) ∧
      answerOf out = some ⟨[lit "Conversion error"], none⟩) ∧
    ∀ b, (t = b ++ lit "r" ∨ t = b ++ lit "d" ∨ t = b ∧ b ≠ [] ∧ b.getLast? ≠ some 114 ∧ b.getLast? ≠ some 100) →
      (¬ ∃ neg d, FloatText b neg d) →
      ∃ out, (nested P ops catching (fuel + 1) depth).exec s req = .ok ({ s with calls := s.calls ++ [(depth, f.id)] }, out) ∧
        answerOf out = some ⟨[lit "Unable to convert '" ++ cstr b ++ lit "' to type 'float'"], none⟩ := by
  refine ⟨fun h0 => angle_refused hd h hm (.inl ⟨h0, rfl⟩), fun b hb hn => ?_⟩
  have hs : t ≠ [] ∧ (angleSplit t).1 = b := by
    rcases hb with rfl | rfl | ⟨rfl, h1, h2, h3⟩
    · exact ⟨by simp [lit], by rw [show lit "r" = [114] from rfl, angleSplit_r]⟩
    · exact ⟨by simp [lit], by rw [show lit "d" = [100] from rfl, angleSplit_d]⟩
    · exact ⟨h1, by rw [angleSplit_none h2 h3]⟩
  refine angle_refused hd h hm (.inr ⟨hs.1, ?_⟩)
  rw [hs.2]
  have := C68_reject (tiny := tiny) proper_single (name := lit "float") (by unfold NulFree; decide) hn
  simp only [cannotConvert, List.append_assoc] at this
  rw [List.append_assoc, show lit "' to type 'float'" = lit "' to type '" ++ (lit "float" ++ lit "'") by decide]
  exact this

/-- **C103, negation.** A hexadecimal number that ends in `d` loses its last digit, and the text of an answer is no argument. -/
theorem C103_false :
    ReadsNumber (lit "0x1d") 29 ∧
    Demo.execAng ["direction 0x1d", "direction 0x1dd", "direction '1 degrees'", "direction"] =
      .ok [some (⟨[], some (lit "1 degrees")⟩, []), some (⟨[], some (lit "29 degrees")⟩, []),
        some (⟨[lit "Unable to convert '1 degrees' to type 'float'"], none⟩, []), some (⟨[], some (lit "29 degrees")⟩, [])] := by
  refine ⟨⟨false, 29, ⟨[], [], lit "0x1d", rfl, by simp, .none, ?_⟩, by simp⟩, by decide +kernel⟩
  have := FloatWord.hex (c := 120) (.inl rfl) (.whole ((digits_iff base16).2
    (⟨by decide, rfl⟩ : (∀ c ∈ lit "1d", Fl.isHexDigit c = true) ∧ Fl.digitsValue 16 (lit "1d") = 29)) (by decide : lit "1d" ≠ [])) (.none (lower := 112) (upper := 80))
  rw [show lit "0x1d" = 48 :: 120 :: lit "1d" by decide]
  simpa using this

example : Demo.execAng ["direction", "direction 30", "direction 60d", "direction 3.1415926535r", "direction -1e2", "direction ''", "direction abc",
      "direction r", "direction 1rd", "direction inf", "direction -0"] =
    .ok [some (⟨[], some (lit "45 degrees")⟩, []), some (⟨[], some (lit "30 degrees")⟩, []), some (⟨[], some (lit "60 degrees")⟩, []),
      some (⟨[], some (lit "180 degrees")⟩, []), some (⟨[], some (lit "-100 degrees")⟩, []), some (⟨[lit "Conversion error"], none⟩, []),
      some (⟨[lit "Unable to convert 'abc' to type 'float'"], none⟩, []), some (⟨[lit "Unable to convert '' to type 'float'"], none⟩, []),
      some (⟨[lit "Unable to convert '1r' to type 'float'"], none⟩, []), some (⟨[], some (lit "inf degrees")⟩, []),
      some (⟨[], some (lit "-0 degrees")⟩, [])] := by
  decide +kernel

/-- The hypotheses of `C103_radians` hold for a line of the example. -/
example : ∃ s d0 d1, Demo.startAng = .ok s ∧ angleDefs (fun _ _ => true) (fun _ _ => true) Demo.angleAt = [d0, d1] ∧
    TwoForms Demo.PAng Demo.ops s (lit "direction") d0 d1 ⟨0, 0, 0⟩ ⟨1, 1, 0⟩ ∧
    Means s.lexer (.line (lit "direction 2r")) ⟨lit "direction", [⟨[lit "2r"]⟩], []⟩ := by
  refine ⟨_, _, _, rfl, rfl, ⟨by decide, ?_, rfl, rfl, by simp [idsOf], by simp [idsOf]⟩, ⟨_, rfl, ?_⟩⟩
  · have : (match Demo.startAng with
      | .ok s => Demo.ops.find s.reg (lit "direction")
      | _ => .diverge) = .ok (some ⟨lit "direction", [⟨0, 0, 0⟩, ⟨1, 1, 0⟩]⟩) := by decide +kernel
    exact this
  · have : (match lexRead (LexCfg.default true) (lit "direction 2r") with
      | .ok (.ok i) => decide (i = ⟨lit "direction", [⟨[lit "2r"]⟩], []⟩)
      | _ => false) = true := by decide +kernel
    revert this
    cases lexRead (LexCfg.default true) (lit "direction 2r") with
    | ok r => cases r with
      | ok i => intro h; simp at h; rw [h]
      | error e => simp
    | ub w => simp
    | diverge => simp

end Coil
