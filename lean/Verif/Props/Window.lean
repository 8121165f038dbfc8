import Verif.Proofs.OneForm
import Verif.Proofs.Window
import Verif.Props.Access
import Verif.Props.Lexer

/-!
# Properties of a window (C100)
-/

namespace Coil
open Spec Floats

namespace Demo

def windowAt : WindowAt Window := ⟨id, fun _ x => x⟩

def windowUnit : FunctorDef Window Nat Nat := ⟨[], Unit, lit "void", none, fun _ => .ret ()⟩

/-- `window.aspect`. -/
def PWin (k : Nat) : FunctorDef Window Nat Nat :=
  (aspectDefs (fun _ _ => true) (fun _ _ => true) windowAt).getD k windowUnit

def startWin (w : Window) : Res (Sys Reg Window Nat Nat) := do
  let m ← UMap.create (djb2 true) 1
  bindingsAdd ops ⟨m, some (lexRead (LexCfg.default true)), w, [], 0, [], []⟩ (lit "window.aspect") [(0, 0), (1, 0)]

def execWin (w : Window) (lines : List String) : Res (List (Option (Answer × Bytes)) × Window) := do
  let s ← startWin w
  let (s', os) ← executeAll PWin ops true 3 s (lines.map fun t => .line (lit t))
  .ok (os.map answer, s'.user)

end Demo

variable {S W C D : Type} {P : C → FunctorDef W C D} {ops : RegOps S C D} {catching : Bool} {fuel depth : Nat}
  {s : Sys S W C D} {req : Request} {name : Bytes} {d0 d1 : FunctorDef W C D} {g f : Inst C D} {named : List Named}
  {tiny : Nat → Nat → Bool} {nan : Fl → Fl → Bool} {hypot : Fl → Fl → Fl} {at_ : WindowAt W} {w : Window} {t : Bytes}

/-- Writing a property of the window, where the setter is defined. -/
theorem window_written {getter : Window → Fl} {setter : Window → Fl → Res Window} (hd : windowDefs tiny at_ getter setter = [d0, d1])
    (h : TwoForms P ops s name d0 d1 g f) (hm : Means s.lexer req ⟨name, [⟨[t]⟩], named⟩) (hat : ∀ u x, at_.read (at_.write u x) = x)
    {x : Fl} (hx : (singleConv tiny).fromString ⟨[t]⟩ = .ok (.ok x)) {w' : Window} (hw : setter (at_.read s.user) x = .ok w') :
    ∃ out, (nested P ops catching (fuel + 1) depth).exec s req =
        .ok ({ s with calls := s.calls ++ [(depth, f.id)], user := at_.write s.user w' }, out) ∧
      answerOf out = some ⟨[], some ((singleConv tiny).toString (getter w'))⟩ := by
  have h1 : Runs ops (nested P ops catching fuel (depth + 1)) f named []
      (.get fun w => (Prog.ofRes (setter (at_.read w) x)).bind fun x => .set (at_.write w x) (.ret ()))
      { s with calls := s.calls ++ [(depth, f.id)] } [] (.ret ())
      { s with calls := s.calls ++ [(depth, f.id)], user := at_.write s.user w' } := by
    refine .get ?_
    simp only [hw, Prog.ofRes, Prog.bind]
    exact .set .ret
  have h2 : Runs ops (nested P ops catching fuel (depth + 1)) f named [] (.get fun w => .ret (getter (at_.read w)))
      { s with calls := s.calls ++ [(depth, f.id)], user := at_.write s.user w' } [] (.ret (getter w'))
      { s with calls := s.calls ++ [(depth, f.id)], user := at_.write s.user w' } := by
    have : at_.read (at_.write s.user w') = w' := hat _ _
    refine .get ?_
    rw [this]
    exact .ret
  exact ⟨_, (C36_write hd h hm rfl rfl hx).2 (.inr ⟨[], _, [], .ret (getter w'), h1, h2, rfl⟩), rfl⟩

/-- Writing a property of the window, where the setter is undefined. -/
theorem window_undefined {getter : Window → Fl} {setter : Window → Fl → Res Window} (hd : windowDefs tiny at_ getter setter = [d0, d1])
    (h : TwoForms P ops s name d0 d1 g f) (hm : Means s.lexer req ⟨name, [⟨[t]⟩], named⟩)
    {x : Fl} (hx : (singleConv tiny).fromString ⟨[t]⟩ = .ok (.ok x)) {u : UB} (hw : setter (at_.read s.user) x = .ub u) :
    (nested P ops catching (fuel + 1) depth).exec s req = .ub u := by
  simp only [windowDefs, propertyDefs, List.cons.injEq, and_true] at hd
  obtain ⟨rfl, rfl⟩ := hd
  refine h.undefined rfl hm rfl (xs := (x, ())) ⟨hx, trivial⟩ ?_
  simp only [Prog.run, Prog.bind, hw, Prog.ofRes]

/-! ## C100 -/

/-- **C100.** `window.aspect q` makes the width `q` times the height, up to one pixel and a relative error of `2/10^7`; the height stays. The
answer is the text of a number near `q`. This is for `0 ≤ q` and sizes of at most `2^24`. -/
theorem C100_aspect_partial (hd : aspectDefs tiny nan at_ = [d0, d1]) (h : TwoForms P ops s name d0 d1 g f)
    (hm : Means s.lexer req ⟨name, [⟨[t]⟩], named⟩) (hat : ∀ u x, at_.read (at_.write u x) = x) (hw : at_.read s.user = w)
    (hh : w.height ≤ 2 ^ 24) (hh0 : 0 < w.height) {q : ℚ} (ht : ReadsNumber t q) (h0 : 0 ≤ q) (hq : NotTiny .single q)
    (hb : q * w.height + 2 ≤ 2 ^ 24) :
    ∃ (n : Nat) (out : ExecOut) (text : Bytes) (r : ℚ), (nested P ops catching (fuel + 1) depth).exec s req =
        .ok ({ s with calls := s.calls ++ [(depth, f.id)], user := at_.write s.user ⟨n, w.height⟩ }, out) ∧
      |(n : ℚ) - q * w.height| ≤ 1 + 2 / 10 ^ 7 * (q * w.height) ∧
      answerOf out = some ⟨[], some text⟩ ∧ ReadsNumber text r ∧
      |r - q| ≤ 6 / 10 ^ 6 * q + (1 + 1 / 10 ^ 5) / w.height + 1 / 10 ^ 6 := by
  obtain ⟨x, n, h1, h2, h3, r, h4, h5⟩ := aspect_trip (tiny := tiny) (nan := nan) (w := w) (by omega) hh0 ht h0 hq (by norm_num at hb; linarith)
  obtain ⟨out, e1, e2⟩ := window_written (catching := catching) (fuel := fuel) (depth := depth) hd h hm hat h1 (by rw [hw]; exact h2)
  exact ⟨n, out, _, r, e1, h3, e2, h4, h5⟩

/-- **C100.** Numbers for which the width is not representable are accepted all the same, and the behaviour is undefined: for negative
numbers, for too great ones, for infinities and for NaNs. -/
theorem C100_undefined (hd : aspectDefs tiny nan at_ = [d0, d1]) (h : TwoForms P ops s name d0 d1 g f)
    (hm : Means s.lexer req ⟨name, [⟨[t]⟩], named⟩) (hw : at_.read s.user = w) (hh : w.height ≤ 2 ^ 24)
    (ht : (∃ q, ReadsNumber t q ∧ |q| ≤ greatest .single ∧ (q * w.height ≤ -2 ∨ 2 ^ 65 ≤ q * w.height)) ∨
      ∃ neg, FloatText t neg .infinity ∨ FloatText t neg .notANumber) :
    (nested P ops catching (fuel + 1) depth).exec s req = .ub .castRange := by
  subst hw
  rcases ht with ⟨q, h1, h2, h3⟩ | ⟨neg, h1 | h1⟩
  · obtain ⟨x, e1, e2⟩ := setAspect_ub (tiny := tiny) (nan := nan) (w := at_.read s.user) (by omega) h1 h2 h3
    exact window_undefined hd h hm e1 e2
  · refine window_undefined hd h hm ((C68_special (lit "float")).1 h1) ?_
    obtain ⟨_, m, e, hf, _⟩ := (ofNat_single (n := (at_.read s.user).height) (by omega)).1
    simp only [Window.setAspect, hf, Fl.mul]
    split <;> rfl
  · refine window_undefined hd h hm ((C68_special (lit "float")).2 h1) ?_
    simp only [Window.setAspect, Fl.mul]
    rfl

/-- **C100, negation.** -/
theorem C100_false :
    Demo.execWin ⟨1920, 1080⟩ ["window.aspect -1"] = .ub .castRange ∧
    Demo.execWin ⟨1920, 1080⟩ ["window.aspect 1e20"] = .ub .castRange ∧
    Demo.execWin ⟨1920, 1080⟩ ["window.aspect nan"] = .ub .castRange ∧
    Demo.execWin ⟨1920, 0⟩ ["window.aspect 1"] = .ok ([some (⟨[], some (lit "-nan")⟩, [])], ⟨0, 0⟩) := by
  refine ⟨?_, ?_, ?_, ?_⟩ <;> decide +kernel

/-- **C100, negation.** `window.diagonal 0` makes the window vanish, and it does not come back: after that `window.diagonal q` is undefined
for each positive number. All that is assumed of `std::hypotf` is that it gives 0 for zeros, and a number that is not 0 for the window before. -/
theorem C100_diagonal_false (hd : diagonalDefs tiny nan hypot at_ = [d0, d1]) (h : TwoForms P ops s name d0 d1 g f)
    (hm : Means s.lexer req ⟨name, [⟨[t]⟩], named⟩) (hw : at_.read s.user = w) (hh : w.height ≤ 2 ^ 24) (hw' : w.width ≤ 2 ^ 24) :
    (∀ neg m e, w.diagonal nan hypot = .fin neg m e → 0 < m → Finite .single (w.diagonal nan hypot) → ReadsNumber t 0 →
      (∀ u x, at_.read (at_.write u x) = x) →
      ∃ out, (nested P ops catching (fuel + 1) depth).exec s req =
        .ok ({ s with calls := s.calls ++ [(depth, f.id)], user := at_.write s.user ⟨0, 0⟩ }, out)) ∧
    (∀ neg e q, w = ⟨0, 0⟩ → w.diagonal nan hypot = .fin neg 0 e → ReadsNumber t q → leastNormal .single ≤ q → q ≤ greatest .single →
      (nested P ops catching (fuel + 1) depth).exec s req = .ub .castRange) := by
  subst hw
  constructor
  · intro neg m e hdg hm0 hfin ht hat
    obtain ⟨x, x1, x2, _, x4⟩ := read_error (tiny := tiny) proper_single (lit "float") ht
      (.inr ⟨0, Fmt.single.emin, Nat.two_pow_pos _, le_refl _, by simp [mag]⟩)
      (by rw [abs_zero]; exact le_trans (by positivity) greatest_single)
    have x5 := x4 (by rw [abs_zero]; exact ⟨0, Fmt.single.emin, Nat.two_pow_pos _, le_refl _, by simp [mag]⟩)
    have hset : (at_.read s.user).setDiagonal nan hypot x = .ok ⟨0, 0⟩ := by
      have hv0 : val ((at_.read s.user).diagonal nan hypot) ≠ 0 := by
        rw [hdg, val_fin, ← abs_pos, abs_finVal]
        unfold mag
        positivity
      have hg0 : (0 : ℚ) ≤ greatest .single := le_trans (by positivity) greatest_single
      obtain ⟨q1, _, _, q4⟩ := div_fin (nan := nan) proper_single x2 hfin hv0 (by rw [x5, zero_div, abs_zero]; exact hg0)
      rw [x5, zero_div, abs_zero, mul_zero] at q4
      have q5 := abs_eq_zero.1 (le_antisymm q4 (abs_nonneg _))
      have key : ∀ n, n ≤ 2 ^ 24 → Fl.toUnsigned 64 (Fl.mul .single nan (Fl.ofNat .single n)
          (Fl.div .single nan x ((at_.read s.user).diagonal nan hypot))) = .ok 0 := by
        intro n hn
        obtain ⟨f1, _⟩ := ofNat_single (n := n) (by omega)
        obtain ⟨m1, _, _, m4⟩ := mul_fin (nan := nan) proper_single f1 q1 (by rw [q5, mul_zero, abs_zero]; exact hg0)
        rw [q5, mul_zero, abs_zero, mul_zero] at m4
        exact toUnsigned_ok m1 (by simp) (by push_cast; linarith) (.inl rfl) (by norm_num)
      simp only [Window.setDiagonal, key _ hw', key _ hh]
      rfl
    obtain ⟨out, e1, _⟩ := window_written (catching := catching) (fuel := fuel) (depth := depth) hd h hm hat x1 hset
    exact ⟨out, e1⟩
  · intro neg e q hw0 hdg ht hq1 hq2
    have hq0 : 0 < q := lt_of_lt_of_le (by unfold leastNormal; positivity) hq1
    obtain ⟨x, x1, x2, x3, _⟩ := read_error (tiny := tiny) proper_single (lit "float") ht (.inl (by rwa [abs_of_pos hq0]))
      (by rwa [abs_of_pos hq0])
    refine window_undefined hd h hm x1 ?_
    rw [abs_of_pos hq0, roundoff_single] at x3
    have x3 := abs_le.1 x3
    obtain ⟨xs, xm, xe, rfl, _⟩ := x2
    have hxm : xm ≠ 0 := by
      rintro rfl
      rw [val_fin, finVal_sign] at x3
      unfold mag at x3
      cases xs <;> simp at x3 <;> linarith
    have ha : Fl.ofNat .single 0 = .fin false 0 (-149) := by decide +kernel
    rw [hw0] at hdg ⊢
    have hdiv : Fl.div .single nan (.fin xs xm xe) (.fin neg 0 e) = .inf (xs ^^ neg) := by
      simp only [Fl.div, if_true, if_neg hxm]
    have hmul : Fl.toUnsigned 64 (Fl.mul .single nan (.fin false 0 (-149)) (.inf (xs ^^ neg))) = .ub .castRange := rfl
    simp only [Window.setDiagonal, hdg, hdiv, ha, hmul]
    rfl

example : Demo.execWin ⟨1920, 1080⟩ ["window.aspect", "window.aspect 1.3", "window.aspect 0", "window.aspect abc", "window.aspect -0.0001"] =
    .ok ([some (⟨[], some (lit "1.77778")⟩, []), some (⟨[], some (lit "1.3")⟩, []), some (⟨[], some (lit "0")⟩, []),
      some (⟨[lit "Unable to convert 'abc' to type 'float'"], none⟩, []), some (⟨[], some (lit "0")⟩, [])], ⟨0, 1080⟩) := by
  decide +kernel

example : Demo.execWin ⟨1920, 1080⟩ ["window.aspect 1.3"] = .ok ([some (⟨[], some (lit "1.3")⟩, [])], ⟨1404, 1080⟩) := by
  decide +kernel

/-- The hypotheses of `C100_aspect_partial` hold for a line of the example. -/
example : ∃ s d0 d1, Demo.startWin ⟨1920, 1080⟩ = .ok s ∧ aspectDefs (fun _ _ => true) (fun _ _ => true) Demo.windowAt = [d0, d1] ∧
    TwoForms Demo.PWin Demo.ops s (lit "window.aspect") d0 d1 ⟨0, 0, 0⟩ ⟨1, 1, 0⟩ ∧
    Means s.lexer (.line (lit "window.aspect 1.3")) ⟨lit "window.aspect", [⟨[lit "1.3"]⟩], []⟩ := by
  refine ⟨_, _, _, rfl, rfl, ⟨by decide, ?_, rfl, rfl, by simp [idsOf], by simp [idsOf]⟩, ⟨_, rfl, ?_⟩⟩
  · have : (match Demo.startWin ⟨1920, 1080⟩ with
      | .ok s => Demo.ops.find s.reg (lit "window.aspect")
      | _ => .diverge) = .ok (some ⟨lit "window.aspect", [⟨0, 0, 0⟩, ⟨1, 1, 0⟩]⟩) := by decide +kernel
    exact this
  · have : (match lexRead (LexCfg.default true) (lit "window.aspect 1.3") with
      | .ok (.ok i) => decide (i = ⟨lit "window.aspect", [⟨[lit "1.3"]⟩], []⟩)
      | _ => false) = true := by decide +kernel
    revert this
    cases lexRead (LexCfg.default true) (lit "window.aspect 1.3") with
    | ok r => cases r with
      | ok i => intro h; simp at h; rw [h]
      | error e => simp
    | ub w => simp
    | diverge => simp

end Coil
