import Verif.Proofs.Again
import Verif.Props.NamedCommands
import Verif.Props.Plain
import Verif.Spec.Particles

/-!
# Particles (C106)
-/

namespace Coil
open Spec Floats

namespace Demo

def particleRef : VarRef Particle Particle := ⟨id, fun p _ => p⟩

def particleUnit : FunctorDef Particle Nat Nat := ⟨[], Unit, lit "void", none, fun _ => .ret ()⟩

/-- The commands of the example. -/
def PPar (k : Nat) : FunctorDef Particle Nat Nat :=
  (spawnDef (fun _ _ => true) particleRef :: posAtDef (fun _ _ => true) (fun _ _ => true) particleRef ::
    lastPosDefs (fun _ _ => true) particleRef).getD k particleUnit

def zeroF : Fl := .fin false 0 Fmt.single.emin

def startPar : Res (Sys Reg Particle Nat Nat) := do
  let m ← UMap.create (djb2 true) 1
  let s ← bindingsAdd ops ⟨m, some (lexRead (LexCfg.default true)), ⟨⟨zeroF, zeroF⟩, ⟨zeroF, zeroF⟩⟩, [], 0, [], []⟩ (lit "spawn") [(0, 0)]
  let s ← bindingsAdd ops s (lit "get_pos_at") [(1, 0)]
  bindingsAdd ops s (lit "last_particle_pos") [(2, 0), (3, 0)]

def execPar (lines : List String) : Res (List (Option (Answer × Bytes))) := do
  let s ← startPar
  let (_, os) ← executeAll PPar ops true 3 s (lines.map fun t => .line (lit t))
  .ok (os.map answer)

end Demo

variable {S W C D : Type} {P : C → FunctorDef W C D} {ops : RegOps S C D} {catching : Bool} {fuel depth : Nat}
  {s : Sys S W C D} {req : Request} {name : Bytes} {d0 d1 : FunctorDef W C D} {g f : Inst C D} {named : List Named}
  {tiny : Nat → Nat → Bool} {nan : Fl → Fl → Bool} {v : VarRef W Particle} {a b t : Bytes} {p q : ℚ}

section Helpers

theorem vec2_defined (v : Value) : ∃ r, (vec2Conv tiny).fromString v = .ok r := by
  unfold vec2Conv
  simp only
  split
  · rename_i a b _
    obtain ⟨x, hx⟩ := single_defined (tiny := tiny) ⟨[a]⟩
    obtain ⟨y, hy⟩ := single_defined (tiny := tiny) ⟨[b]⟩
    rw [hx, hy]
    cases x <;> cases y <;> exact ⟨_, rfl⟩
  · exact ⟨_, rfl⟩

theorem vec2_ok {x y : Fl} (hx : (singleConv tiny).fromString ⟨[a]⟩ = .ok (.ok x)) (hy : (singleConv tiny).fromString ⟨[b]⟩ = .ok (.ok y)) :
    (vec2Conv tiny).fromString ⟨[a, b]⟩ = .ok (.ok ⟨x, y⟩) := by
  simp only [vec2Conv, hx, hy, Res.bind_ok]

theorem pairText (v : Vec2) : PairText v ((vec2Conv tiny).toString v) := ⟨_, _, rfl, printF_places _, printF_places _⟩

theorem float_nulFree : NulFree (lit "float") := by unfold NulFree; decide

theorem badPair {w : Value} {m : Bytes} (h : BadPair w m) : (vec2Conv tiny).fromString w = .ok (.error m) := by
  have hv : NulFree (lit "Vec2") := by unfold NulFree; decide
  have hc : ∀ a : Bytes, NulFree (cannotConvert (cstr a) (lit "float")) := by
    intro a
    have h0 : NulFree (cstr a) := by
      induction a with
      | nil => unfold NulFree; decide
      | cons c a ih =>
        unfold NulFree cstr at ih ⊢
        rw [List.takeWhile_cons]
        split
        · rename_i hc
          rw [List.mem_cons, not_or]
          exact ⟨fun h => by simp [← h] at hc, ih⟩
        · simp
    simp only [cannotConvert, nulFree_append]
    refine ⟨⟨⟨⟨?_, h0⟩, ?_⟩, float_nulFree⟩, ?_⟩ <;> (unfold NulFree; decide)
  cases h with
  | @count v h =>
    obtain ⟨l⟩ := w
    have : mismatchError (lit "Vec2") ⟨l⟩ 2 = _ := mismatchError_eq _ _ _
    rw [cstr_of_nulFree hv] at this
    rw [← this]
    match l, h with
    | [], _ => rfl
    | [_], _ => rfl
    | _ :: _ :: _ :: _, _ => rfl
  | @first a b h =>
    have hx := C68_reject (tiny := tiny) proper_single float_nulFree h
    obtain ⟨y, hy⟩ := single_defined (tiny := tiny) ⟨[b]⟩
    have := genericError_cons (lit "Vec2") ⟨[a, b]⟩ (d := cannotConvert (cstr a) (lit "float")) (by simp [cannotConvert, lit])
    rw [cstr_of_nulFree hv, cstr_of_nulFree (hc a)] at this
    rw [← this]
    change (singleConv tiny).fromString _ = _ at hx
    simp only [vec2Conv, hx, hy, Res.bind_ok]
  | @second a b q ha h =>
    obtain ⟨x, hx, _⟩ := read_error (tiny := tiny) proper_single (lit "float") ha.1 ha.2.1 ha.2.2
    have hy := C68_reject (tiny := tiny) proper_single float_nulFree h
    have := genericError_cons (lit "Vec2") ⟨[a, b]⟩ (d := cannotConvert (cstr b) (lit "float")) (by simp [cannotConvert, lit])
    rw [cstr_of_nulFree hv, cstr_of_nulFree (hc b)] at this
    rw [← this]
    change (singleConv tiny).fromString _ = _ at hx
    change (singleConv tiny).fromString _ = _ at hy
    simp only [vec2Conv, hx, hy, Res.bind_ok]

theorem leastNormal_billionth : leastNormal .single ≤ 1 / 10 ^ 9 := by
  have h : leastNormal .single ≤ (2 : ℚ) ^ (-30 : Int) := zpow_le_zpow_right₀ (by norm_num) (by decide)
  refine h.trans (by norm_num)

/-- One coordinate of a position. -/
theorem coordinate {x w r : Fl} (hx : Finite .single x) (hw : Finite .single w) (hr : Finite .single r)
    (hq : |val r - q| ≤ 1 / 16777216 * |q|) (hg : |val x| + 3 * |val w * q| ≤ greatest .single) :
    Finite .single (Fl.add .single nan x (Fl.mul .single nan w r)) ∧
      |val (Fl.add .single nan x (Fl.mul .single nan w r)) - (val x + val w * q)| ≤ 1 / 2 ^ 22 * (|val x| + |val w * q|) + 1 / 10 ^ 7 ∧
      ∀ z1 z2 : Int, val r = q → val w * q = z1 → z1.natAbs ≤ 2 ^ 24 → val x = z2 → (z2 + z1).natAbs ≤ 2 ^ 24 →
        val (Fl.add .single nan x (Fl.mul .single nan w r)) = ((z2 + z1 : Int) : ℚ) := by
  have hp : |val w * val r - val w * q| ≤ 1 / 16777216 * |val w * q| := by
    rw [← mul_sub, abs_mul, abs_mul]
    have := mul_le_mul_of_nonneg_left hq (abs_nonneg (val w))
    linarith
  have n1 := abs_nonneg (val w * q)
  have n2 := abs_nonneg (val x)
  have hp' : |val w * val r| ≤ (1 + 1 / 16777216) * |val w * q| := by
    have := abs_sub_abs_le_abs_sub (val w * val r) (val w * q)
    linarith
  obtain ⟨m1, m2, m3, m4⟩ := mul_fin (nan := nan) proper_single hw hr (by linarith)
  have n3 := abs_nonneg (val w * val r)
  have hm : |val (Fl.mul .single nan w r) - val w * val r| ≤ 1 / 16777216 * |val w * val r| + 3 / 10 ^ 9 := by
    by_cases ht : NotTiny .single (val w * val r)
    · have := m2 ht
      rw [roundoff_single] at this
      linarith
    · have : |val w * val r| < leastNormal .single := by
        by_contra hc
        exact ht (.inl (not_lt.1 hc))
      have hl := leastNormal_billionth
      have := abs_sub (val (Fl.mul .single nan w r)) (val w * val r)
      linarith
  have hs : |val x + val (Fl.mul .single nan w r)| ≤ |val x| + |val (Fl.mul .single nan w r)| := abs_add_le _ _
  obtain ⟨a1, a2, a3⟩ := add_fin (nan := nan) proper_single hx m1 (by linarith)
  refine ⟨a1, ?_, ?_⟩
  · have a2' : |val (Fl.add .single nan x (Fl.mul .single nan w r)) - (val x + val (Fl.mul .single nan w r))| ≤
        1 / 16777216 * |val x + val (Fl.mul .single nan w r)| := by
      have : (2 : ℚ) ^ Fmt.single.prec = 16777216 := by norm_num [Fmt.single]
      rw [this] at a2
      linarith
    have t1 := abs_sub_le (val (Fl.add .single nan x (Fl.mul .single nan w r))) (val x + val (Fl.mul .single nan w r)) (val x + val w * q)
    have t2 : |val x + val (Fl.mul .single nan w r) - (val x + val w * q)| ≤
        |val (Fl.mul .single nan w r) - val w * val r| + |val w * val r - val w * q| := by
      rw [add_sub_add_left_eq_sub]
      exact abs_sub_le _ _ _
    have t3 := abs_sub_abs_le_abs_sub (val (Fl.mul .single nan w r)) (val w * val r)
    rw [show (1 : ℚ) / 2 ^ 22 = 4 / 16777216 by norm_num]
    linarith
  · intro z1 z2 h1 h2 h3 h4 h5
    have e1 : val (Fl.mul .single nan w r) = z1 := by
      rw [m3 (by rw [h1, h2]; exact member_whole proper_single single_facts.1 h3), h1, h2]
    rw [a3 (by rw [e1, h4, ← Int.cast_add]; exact member_whole proper_single single_facts.1 h5), e1, h4, Int.cast_add]

/-- What a text with six places tells. -/
theorem places_tell {x : Fl} (hx : Finite .single x) {q err : ℚ} (h : |val x - q| ≤ err) {t : Bytes} (ht : SixPlaces x t) :
    Tells t q (err + 5 / 10 ^ 7) ∧ ∀ z : Int, val x = z → z ≠ 0 → t = intDec z ++ lit ".000000" := by
  obtain ⟨neg, m, e, rfl, _⟩ := hx
  obtain ⟨_, _, r, _, _, h3, h4, h5⟩ := ht
  rw [val_fin] at h
  refine ⟨⟨r, h3, ?_⟩, h5⟩
  have := abs_sub_le r (finVal neg m e) q
  linarith

/-- The characters of numbers. -/
def numeral (c : Byte) : Bool := c == 45 || c == 46 || isDigit c || c == 97 || c == 102 || c == 105 || c == 110

theorem lastDigits_numeral (k n : Nat) : ∀ c ∈ lastDigits k n, isDigit c = true := by
  have := (digits_iff base10).1 (digits_last (.nil : Digits 10 [] 0) k n)
  simpa using this.1

theorem natDec_numeral' (n : Nat) : ∀ c ∈ natDec n, isDigit c = true :=
  ((digits_iff base10).1 (decimal_iff.1 (natDec_decimal n)).1).1

theorem printF_numeral (x : Fl) : (∀ c ∈ Fl.printF x, numeral c = true) ∧ Fl.printF x ≠ [] := by
  have dig : ∀ c, isDigit c = true → numeral c = true := by intro c h; simp [numeral, h]
  cases x with
  | inf neg => cases neg <;> decide
  | nan neg => cases neg <;> decide
  | fin neg m e =>
    constructor
    · intro c hc
      simp only [Fl.printF, List.mem_append, List.mem_cons] at hc
      rcases hc with hc | hc | hc | hc
      · cases neg
        · cases hc
        · simp [Fl.signText] at hc
          subst hc
          decide
      · exact dig c (natDec_numeral' _ c hc)
      · subst hc; decide
      · exact dig c (lastDigits_numeral _ _ c hc)
    · simp [Fl.printF]

theorem bare_class (sg : Bool) (hn : Bare name) : ∀ c ∈ name, Ordinary (delims (LexCfg.default sg)) c ∧ ¬ Separator (delims (LexCfg.default sg)) c := by
  intro c hc
  obtain ⟨h1, h2, h3, h4⟩ := C59_classes sg c
  have := hn.2 c hc
  unfold Ordinary Separator
  rw [h1, h2, h3, h4]
  have hl : lit " \t\n\r,;|()'\"=" = [32, 9, 10, 13, 44, 59, 124, 40, 41, 39, 34, 61] := by decide
  rw [hl] at this
  simp only [List.mem_cons, List.not_mem_nil, or_false, not_or] at this
  obtain ⟨n1, n2, n3, n4, n5, n6, n7, n8, n9, n10, n11, n12⟩ := this
  simp [n1, n2, n3, n4, n5, n6, n7, n8, n9, n10, n11, n12]

/-- A line with a name only. -/
theorem line_name (sg : Bool) (hn : Bare name) : lexRead (LexCfg.default sg) name = .ok (.ok ⟨name, [], []⟩) := by
  have cls := bare_class sg hn
  obtain ⟨n, w, rfl⟩ : ∃ c w, name = c :: w := by
    cases name with
    | nil => exact absurd rfl hn.1
    | cons c w => exact ⟨c, w, rfl⟩
  have hline : Tokens (delims (LexCfg.default sg)) (n :: (w ++ [])) [.word (n :: w)] :=
    .bare (cls n (by simp)).1 (fun x hx => (cls x (by simp [hx])).1) (fun c hc => by simp at hc) (fun x hx => (cls x (by simp [hx])).2) .nil
  rw [List.append_nil] at hline
  exact lexRead_accepts (proper_default sg) ⟨_, hline, .cmd .nil⟩

/-- A line with a name and two numbers in parentheses. -/
theorem line_pair (sg : Bool) (hn : Bare name) (ha : (∀ c ∈ a, numeral c = true) ∧ a ≠ []) (hb : (∀ c ∈ b, numeral c = true) ∧ b ≠ []) :
    lexRead (LexCfg.default sg) (name ++ lit " " ++ (lit "(" ++ a ++ lit ", " ++ b ++ lit ")")) = .ok (.ok ⟨name, [⟨[a, b]⟩], []⟩) := by
  have num : ∀ c, numeral c = true → c ∉ (delims (LexCfg.default sg)).parens ∧ c ∉ (delims (LexCfg.default sg)).quotes ∧
      ¬ Separator (delims (LexCfg.default sg)) c := by
    intro c hc
    obtain ⟨h1, h2, h3, h4⟩ := C59_classes sg c
    unfold Separator
    rw [h1, h2, h3, h4]
    refine ⟨?_, ?_, ?_⟩
    · rintro (rfl | rfl) <;> (revert hc; decide)
    · rintro (rfl | rfl) <;> (revert hc; decide)
    · rintro ((rfl | rfl | rfl | rfl) | rfl | rfl | rfl) <;> (revert hc; decide)
  have raw : ∀ t : Bytes, (∀ c ∈ t, numeral c = true) ∧ t ≠ [] → RawPart (delims (LexCfg.default sg)) t ∧
      quoteCount (delims (LexCfg.default sg)) t % 2 = 0 ∧ Unquote (delims (LexCfg.default sg)) t t := by
    rintro t ⟨h1, h2⟩
    obtain ⟨c, w, rfl⟩ : ∃ c w, t = c :: w := by
      cases t with
      | nil => exact absurd rfl h2
      | cons c w => exact ⟨c, w, rfl⟩
    have hc := num c (h1 c (by simp))
    refine ⟨⟨⟨c, w, rfl, hc.2.2⟩, ?_⟩, ?_, .plainHead hc.2.1⟩
    · intro x y z hx hy
      exact absurd hy (num y (h1 y (by rw [hx]; simp))).2.2
    · have : quoteCount (delims (LexCfg.default sg)) (c :: w) = 0 := by
        unfold quoteCount
        rw [List.countP_eq_zero]
        intro y hy
        simpa using (num y (h1 y hy)).2.1
      rw [this]
  have cls := bare_class sg hn
  have c32 := C59_classes sg 32
  have c40 := C59_classes sg 40
  have c41 := C59_classes sg 41
  have c44 := C59_classes sg 44
  have hbody : ∀ c ∈ a ++ 44 :: 32 :: b, c ∉ (delims (LexCfg.default sg)).parens := by
    intro c hc
    rcases List.mem_append.1 hc with h | h
    · exact (num c (ha.1 c h)).1
    · rcases List.mem_cons.1 h with rfl | h
      · rw [c44.2.2.1]; decide
      · rcases List.mem_cons.1 h with rfl | h
        · rw [c32.2.2.1]; decide
        · exact (num c (hb.1 c h)).1
  have hgroup : Tokens (delims (LexCfg.default sg)) (40 :: ((a ++ 44 :: 32 :: b) ++ 41 :: [])) [.compound (a ++ 44 :: 32 :: b)] :=
    .group (c40.2.2.1.2 (.inl rfl)) (c41.2.2.1.2 (.inr rfl)) hbody .nil
  obtain ⟨n, w, rfl⟩ : ∃ c w, name = c :: w := by
    cases name with
    | nil => exact absurd rfl hn.1
    | cons c w => exact ⟨c, w, rfl⟩
  have hline : Tokens (delims (LexCfg.default sg)) (n :: (w ++ (32 :: (40 :: ((a ++ 44 :: 32 :: b) ++ 41 :: []))))) [.word (n :: w), .compound (a ++ 44 :: 32 :: b)] := by
    refine .bare (cls n (by simp)).1 (fun x hx => (cls x (by simp [hx])).1) ?_ (fun x hx => (cls x (by simp [hx])).2) (.space (c32.1.2 (.inl rfl)) hgroup)
    intro c hc
    simp only [List.head?_cons, Option.some.injEq] at hc
    subst hc
    exact fun ho => ho.2.1 (c32.1.2 (.inl rfl))
  have hvals : SubValues (delims (LexCfg.default sg)) (a ++ 44 :: 32 :: b) [a, b] :=
    ⟨[a, b], .cons (raw a ha).1 (raw a ha).2.1 (.inr (c44.2.2.2.2 (.inl rfl))) (.sep (.inl (c32.1.2 (.inl rfl))) (.last (raw b hb).1)),
      .cons (raw a ha).2.2 (.cons (raw b hb).2.2 .nil)⟩
  have := lexRead_accepts (proper_default sg) ⟨_, hline, .cmd (.positional (.compound hvals) .nil)⟩
  rw [← this]
  congr 1
  simp [lit]

theorem lastPos_read (hd : lastPosDefs tiny v = [d0, d1]) (h : TwoForms P ops s name d0 d1 g f) (hm : Means s.lexer req ⟨name, [], named⟩) :
    ∃ out, (nested P ops catching (fuel + 1) depth).exec s req = .ok ({ s with calls := s.calls ++ [(depth, g.id)] }, out) ∧
      answerOf out = some ⟨[], some ((vec2Conv tiny).toString (v.read s.user).pos)⟩ := by
  simp only [lastPosDefs, variableDefs, List.cons.injEq, and_true] at hd
  obtain ⟨rfl, rfl⟩ := hd
  have hr : Runs ops (nested P ops catching fuel (depth + 1)) g named [] (.get fun w => .ret ((posRef v).read w))
      { s with calls := s.calls ++ [(depth, g.id)] } [] (.ret (v.read s.user).pos) { s with calls := s.calls ++ [(depth, g.id)] } := .get .ret
  refine ⟨endResult catching ⟨name, [], named⟩ (some (vec2Conv tiny).toString) [] (.ret (v.read s.user).pos), ?_, rfl⟩
  rw [exec_means hm]
  exact (executeInput_called_def (input := ⟨name, [], named⟩) h.ne_nil h.found (h.first0 rfl) h.live0 h.def0 (xs := ()) trivial).2
    ⟨[], .ret _, hr, rfl⟩

theorem lastPos_write (hd : lastPosDefs tiny v = [d0, d1]) (h : TwoForms P ops s name d0 d1 g f) {w : Value}
    (hm : Means s.lexer req ⟨name, [w], named⟩) (hv : ∀ p u, v.read (v.write p u) = p) {pos : Vec2}
    (hx : (vec2Conv tiny).fromString w = .ok (.ok pos)) :
    ∃ out, (nested P ops catching (fuel + 1) depth).exec s req =
        .ok ({ s with calls := s.calls ++ [(depth, f.id)], user := v.write ⟨pos, (v.read s.user).vel⟩ s.user }, out) ∧
      answerOf out = some ⟨[], some ((vec2Conv tiny).toString pos)⟩ := by
  simp only [lastPosDefs, variableDefs, List.cons.injEq, and_true] at hd
  obtain ⟨rfl, rfl⟩ := hd
  have hr : Runs ops (nested P ops catching fuel (depth + 1)) f named []
      (.get fun w => .set ((posRef v).write pos w) (.get fun w' => .ret ((posRef v).read w')))
      { s with calls := s.calls ++ [(depth, f.id)] } [] (.ret pos)
      { s with calls := s.calls ++ [(depth, f.id)], user := v.write ⟨pos, (v.read s.user).vel⟩ s.user } := by
    refine .get (.set (.get ?_))
    have : (posRef v).read ((posRef v).write pos s.user) = pos := by simp only [posRef, hv]
    rw [this]
    exact .ret
  refine ⟨endResult catching ⟨name, [w], named⟩ (some (vec2Conv tiny).toString) [] (.ret pos), ?_, rfl⟩
  rw [exec_means hm]
  exact (executeInput_called_def (input := ⟨name, [w], named⟩) h.ne_nil h.found (h.first1 rfl rfl) h.live1 h.def1 (xs := (pos, ()))
    ⟨hx, trivial⟩).2 ⟨[], .ret _, hr, rfl⟩

end Helpers

/-! ## C106 -/

/-- **C106.** Two numbers are read as the coordinates, each one up to one rounding. -/
theorem C106_convert (ha : FloatFits a p) (hb : FloatFits b q) :
    ∃ w, (vec2Conv tiny).fromString ⟨[a, b]⟩ = .ok (.ok w) ∧ Finite .single w.x ∧ Finite .single w.y ∧
      |val w.x - p| ≤ 1 / 2 ^ 24 * |p| ∧ |val w.y - q| ≤ 1 / 2 ^ 24 * |q| := by
  obtain ⟨x, x1, x2, x3, _⟩ := read_error (tiny := tiny) proper_single (lit "float") ha.1 ha.2.1 ha.2.2
  obtain ⟨y, y1, y2, y3, _⟩ := read_error (tiny := tiny) proper_single (lit "float") hb.1 hb.2.1 hb.2.2
  rw [roundoff_single] at x3 y3
  refine ⟨⟨x, y⟩, vec2_ok x1 y1, x2, y2, ?_, ?_⟩
  · norm_num at x3 ⊢
    exact x3
  · norm_num at y3 ⊢
    exact y3

/-- **C106.** What is read is a value of type `float`. -/
theorem C106_floats {w : Value} {pos : Vec2} (h : (vec2Conv tiny).fromString w = .ok (.ok pos)) :
    IsFloat .single pos.x ∧ IsFloat .single pos.y := by
  have key : ∀ (a : Bytes) (x : Fl), (singleConv tiny).fromString ⟨[a]⟩ = .ok (.ok x) → IsFloat .single x := by
    intro a x hx
    obtain ⟨neg, d, _, hr⟩ := C68_sound proper_single (lit "float") hx
    cases d with
    | number q =>
      obtain ⟨m, e, rfl, hN, he⟩ := hr
      exact ⟨hN.stored, he⟩
    | infinity => rw [hr]; trivial
    | notANumber => rw [hr]; trivial
  unfold vec2Conv at h
  simp only at h
  split at h
  · rename_i a b _
    obtain ⟨x, hx⟩ := single_defined (tiny := tiny) ⟨[a]⟩
    obtain ⟨y, hy⟩ := single_defined (tiny := tiny) ⟨[b]⟩
    rw [hx, hy] at h
    cases x with
    | error e => cases y <;> cases h
    | ok x =>
      cases y with
      | error e => cases h
      | ok y =>
        cases h
        exact ⟨key _ _ hx, key _ _ hy⟩
  · cases h

/-- **C106.** `particles.spawn` replaces the particle by the one that is asked for. It answers nothing. -/
theorem C106_spawn (h : OneForm P ops s name (spawnDef tiny v) f) {w1 w2 : Value} (hm : Means s.lexer req ⟨name, [w1, w2], named⟩)
    {pos vel : Vec2} (h1 : (vec2Conv tiny).fromString w1 = .ok (.ok pos)) (h2 : (vec2Conv tiny).fromString w2 = .ok (.ok vel)) :
    ∃ out, (nested P ops catching (fuel + 1) depth).exec s req =
        .ok ({ s with calls := s.calls ++ [(depth, f.id)], user := v.write ⟨pos, vel⟩ s.user }, out) ∧ answerOf out = some ⟨[], none⟩ := by
  have hr : Runs ops (nested P ops catching fuel (depth + 1)) f named [] ((spawnDef (W := W) (C := C) (D := D) tiny v).body (pos, vel, ()))
      { s with calls := s.calls ++ [(depth, f.id)] } [] (.ret ())
      { s with calls := s.calls ++ [(depth, f.id)], user := v.write ⟨pos, vel⟩ s.user } := .get (.set .ret)
  exact ⟨_, h.returns hm (xs := (pos, vel, ())) ⟨h1, h2, trivial⟩ hr, rfl⟩

/-- **C106.** Arguments that are not two numbers are refused, each one with its error, and there is no new particle. -/
theorem C106_refused (h : OneForm P ops s name (spawnDef tiny v) f) {w1 w2 : Value} (hm : Means s.lexer req ⟨name, [w1, w2], named⟩)
    {m1 m2 : Bytes} :
    (BadPair w1 m1 → (∃ vel, (vec2Conv tiny).fromString w2 = .ok (.ok vel)) → ∃ out,
      (nested P ops catching (fuel + 1) depth).exec s req = .ok (s, out) ∧ answerOf out = some ⟨[m1], none⟩) ∧
    ((∃ pos, (vec2Conv tiny).fromString w1 = .ok (.ok pos)) → BadPair w2 m2 → ∃ out,
      (nested P ops catching (fuel + 1) depth).exec s req = .ok (s, out) ∧ answerOf out = some ⟨[m2], none⟩) ∧
    (BadPair w1 m1 → BadPair w2 m2 → ∃ out,
      (nested P ops catching (fuel + 1) depth).exec s req = .ok (s, out) ∧ answerOf out = some ⟨[m1, m2], none⟩) := by
  have key : ∀ ms : List Bytes, ms ≠ [] → conversionErrors (spawnDef (W := W) (C := C) (D := D) tiny v).params [w1, w2] = ms → ∃ out,
      (nested P ops catching (fuel + 1) depth).exec s req = .ok (s, out) ∧ answerOf out = some ⟨ms, none⟩ := by
    rintro _ h0 rfl
    exact ⟨_, h.rejected hm ⟨vec2_defined _, vec2_defined _, trivial⟩ h0, rfl⟩
  refine ⟨?_, ?_, ?_⟩
  · rintro b1 ⟨vel, h2⟩
    exact key [m1] (by simp) (by simp [conversionErrors, spawnDef, badPair b1, h2])
  · rintro ⟨pos, h1⟩ b2
    exact key [m2] (by simp) (by simp [conversionErrors, spawnDef, badPair b2, h1])
  · rintro b1 b2
    exact key [m1, m2] (by simp) (by simp [conversionErrors, spawnDef, badPair b1, badPair b2])

/-- **C106.** `particles.get_pos_at` tells where the particle is after a time, up to rounding, and changes nothing. With whole numbers it is exact. -/
theorem C106_position (h : OneForm P ops s name (posAtDef tiny nan v) f) (hm : Means s.lexer req ⟨name, [⟨[t]⟩], named⟩) (ht : FloatFits t q)
    {px py vx vy : Fl} (hp : v.read s.user = ⟨⟨px, py⟩, ⟨vx, vy⟩⟩) (fx : Finite .single px ∧ Finite .single vx)
    (fy : Finite .single py ∧ Finite .single vy) (gx : |val px| + 3 * |val vx * q| ≤ greatest .single)
    (gy : |val py| + 3 * |val vy * q| ≤ greatest .single) :
    ∃ out a b, (nested P ops catching (fuel + 1) depth).exec s req = .ok ({ s with calls := s.calls ++ [(depth, f.id)] }, out) ∧
      answerOf out = some ⟨[], some (lit "(" ++ a ++ lit ", " ++ b ++ lit ")")⟩ ∧
      Tells a (val px + val vx * q) (1 / 2 ^ 22 * (|val px| + |val vx * q|) + 6 / 10 ^ 7) ∧
      Tells b (val py + val vy * q) (1 / 2 ^ 22 * (|val py| + |val vy * q|) + 6 / 10 ^ 7) ∧
      ∀ n : Int, q = n → n.natAbs ≤ 2 ^ 24 →
        (∀ z1 z2 : Int, val vx * q = z1 → z1.natAbs ≤ 2 ^ 24 → val px = z2 → (z2 + z1).natAbs ≤ 2 ^ 24 → z2 + z1 ≠ 0 →
          a = intDec (z2 + z1) ++ lit ".000000") ∧
        (∀ z1 z2 : Int, val vy * q = z1 → z1.natAbs ≤ 2 ^ 24 → val py = z2 → (z2 + z1).natAbs ≤ 2 ^ 24 → z2 + z1 ≠ 0 →
          b = intDec (z2 + z1) ++ lit ".000000") := by
  obtain ⟨r, r1, r2, r3, r4⟩ := read_error (tiny := tiny) proper_single (lit "float") ht.1 ht.2.1 ht.2.2
  rw [roundoff_single] at r3
  obtain ⟨x1, x2, x3⟩ := coordinate (nan := nan) fx.1 fx.2 r2 r3 gx
  obtain ⟨y1, y2, y3⟩ := coordinate (nan := nan) fy.1 fy.2 r2 r3 gy
  obtain ⟨tx, tx'⟩ := places_tell x1 x2 (printF_places _)
  obtain ⟨ty, ty'⟩ := places_tell y1 y2 (printF_places _)
  have hr : Runs ops (nested P ops catching fuel (depth + 1)) f named [] ((posAtDef (W := W) (C := C) (D := D) tiny nan v).body (r, ()))
      { s with calls := s.calls ++ [(depth, f.id)] } []
      (.ret ⟨Fl.add .single nan px (Fl.mul .single nan vx r), Fl.add .single nan py (Fl.mul .single nan vy r)⟩)
      { s with calls := s.calls ++ [(depth, f.id)] } := by
    refine .get ?_
    simp only [hp]
    exact .ret
  refine ⟨_, _, _, h.returns hm (xs := (r, ())) ⟨r1, trivial⟩ hr, rfl, ?_, ?_, ?_⟩
  · rw [show (1 : ℚ) / 2 ^ 22 * (|val px| + |val vx * q|) + 6 / 10 ^ 7 = 1 / 2 ^ 22 * (|val px| + |val vx * q|) + 1 / 10 ^ 7 + 5 / 10 ^ 7 by ring]
    exact tx
  · rw [show (1 : ℚ) / 2 ^ 22 * (|val py| + |val vy * q|) + 6 / 10 ^ 7 = 1 / 2 ^ 22 * (|val py| + |val vy * q|) + 1 / 10 ^ 7 + 5 / 10 ^ 7 by ring]
    exact ty
  · rintro n hn hl
    have hv : val r = q := r4 (by rw [hn]; exact member_whole proper_single single_facts.1 hl)
    exact ⟨fun z1 z2 a1 a2 a3 a4 a5 => tx' _ (x3 z1 z2 hv a1 a2 a3 a4) a5, fun z1 z2 a1 a2 a3 a4 a5 => ty' _ (y3 z1 z2 hv a1 a2 a3 a4) a5⟩

/-- **C106.** `particles.last_particle_pos` answers with the position, and changes nothing. -/
theorem C106_read (hd : lastPosDefs tiny v = [d0, d1]) (h : TwoForms P ops s name d0 d1 g f) (hm : Means s.lexer req ⟨name, [], named⟩) :
    ∃ out text, (nested P ops catching (fuel + 1) depth).exec s req = .ok ({ s with calls := s.calls ++ [(depth, g.id)] }, out) ∧
      answerOf out = some ⟨[], some text⟩ ∧ PairText (v.read s.user).pos text := by
  obtain ⟨out, h1, h2⟩ := lastPos_read (catching := catching) (fuel := fuel) (depth := depth) hd h hm
  exact ⟨out, _, h1, h2, pairText _⟩

/-- **C106.** `particles.last_particle_pos` with an argument moves the particle and answers with the new position; the velocity stays. -/
theorem C106_write (hd : lastPosDefs tiny v = [d0, d1]) (h : TwoForms P ops s name d0 d1 g f) {w : Value}
    (hm : Means s.lexer req ⟨name, [w], named⟩) (hv : ∀ p u, v.read (v.write p u) = p) :
    (∀ pos, (vec2Conv tiny).fromString w = .ok (.ok pos) → ∃ out text, (nested P ops catching (fuel + 1) depth).exec s req =
        .ok ({ s with calls := s.calls ++ [(depth, f.id)], user := v.write ⟨pos, (v.read s.user).vel⟩ s.user }, out) ∧
      answerOf out = some ⟨[], some text⟩ ∧ PairText pos text) ∧
    (∀ m, BadPair w m → ∃ out, (nested P ops catching (fuel + 1) depth).exec s req = .ok (s, out) ∧ answerOf out = some ⟨[m], none⟩) := by
  refine ⟨?_, ?_⟩
  · intro pos hx
    obtain ⟨out, h1, h2⟩ := lastPos_write (catching := catching) (fuel := fuel) (depth := depth) hd h hm hv hx
    exact ⟨out, _, h1, h2, pairText _⟩
  · intro m hb
    simp only [lastPosDefs, variableDefs, List.cons.injEq, and_true] at hd
    obtain ⟨rfl, rfl⟩ := hd
    have hx := badPair (tiny := tiny) hb
    have he : conversionErrors [⟨Vec2, vec2Conv tiny⟩] [w] = [m] := by simp [conversionErrors, hx]
    have := executeInput_rejected (P := P) (catching := catching) (ne := nested P ops catching fuel (depth + 1))
        (depth := depth) (input := ⟨name, [w], named⟩) h.ne_nil h.found (h.first1 rfl rfl) h.live1
        (by rw [h.def1]; exact ⟨⟨_, hx⟩, trivial⟩) (by rw [h.def1]; simp [he])
    rw [exec_means hm, this, h.def1]
    exact ⟨_, rfl, by simp [answerOf, he]⟩

/-- **C106.** The answer of `particles.last_particle_pos` can be entered again: it is accepted, and the answer is the same text. -/
theorem C106_again (hd : lastPosDefs tiny v = [d0, d1]) (h : TwoForms P ops s name d0 d1 g f) (hv : ∀ p u, v.read (v.write p u) = p)
    (hn : Bare name) {sg : Bool} (hl : s.lexer = some (lexRead (LexCfg.default sg)))
    (hf : IsFloat .single (v.read s.user).pos.x ∧ IsFloat .single (v.read s.user).pos.y) {out : ExecOut} {s' : Sys S W C D}
    (h1 : (nested P ops catching (fuel + 1) depth).exec s (.line name) = .ok (s', out)) :
    ∃ text pos, answerOf out = some ⟨[], some text⟩ ∧ PairText pos text ∧
      ∃ out', (nested P ops catching (fuel + 1) depth).exec s' (.line (name ++ lit " " ++ text)) =
          .ok ({ s' with calls := s'.calls ++ [(depth, f.id)], user := v.write ⟨pos, (v.read s.user).vel⟩ s.user }, out') ∧
        answerOf out' = some ⟨[], some text⟩ := by
  obtain ⟨o, e1, e2⟩ := lastPos_read (catching := catching) (fuel := fuel) (depth := depth) (req := .line name) (named := []) hd h
    ⟨_, hl, line_name sg hn⟩
  rw [e1] at h1
  simp only [Res.ok.injEq, Prod.mk.injEq] at h1
  obtain ⟨rfl, rfl⟩ := h1
  obtain ⟨x, x1, _, x2⟩ := printF_again (tiny := tiny) hf.1
  obtain ⟨y, y1, _, y2⟩ := printF_again (tiny := tiny) hf.2
  have ht : (vec2Conv tiny).toString ⟨x, y⟩ = (vec2Conv tiny).toString (v.read s.user).pos := by
    simp only [vec2Conv, x2, y2]
  have hm : Means s.lexer (.line (name ++ lit " " ++ (vec2Conv tiny).toString (v.read s.user).pos))
      ⟨name, [⟨[Fl.printF (v.read s.user).pos.x, Fl.printF (v.read s.user).pos.y]⟩], []⟩ :=
    ⟨_, hl, line_pair sg hn (printF_numeral _) (printF_numeral _)⟩
  have h' : TwoForms P ops { s with calls := s.calls ++ [(depth, g.id)] } name d0 d1 g f := ⟨h.ne_nil, h.found, h.def0, h.def1, h.live0, h.live1⟩
  obtain ⟨o', e3, e4⟩ := lastPos_write (catching := catching) (fuel := fuel) (depth := depth) hd h' hm hv (vec2_ok x1 y1)
  rw [ht] at e4
  exact ⟨_, ⟨x, y⟩, e2, ht ▸ pairText _, o', e3, e4⟩

example : Demo.execPar ["spawn (1, 1) (0.1, -0.1)", "get_pos_at 0.5", "get_pos_at 10", "last_particle_pos (1.5, 0.0078125)", "last_particle_pos"] =
    .ok [some (⟨[], none⟩, []), some (⟨[], some (lit "(1.050000, 0.950000)")⟩, []), some (⟨[], some (lit "(2.000000, 0.000000)")⟩, []),
      some (⟨[], some (lit "(1.500000, 0.007812)")⟩, []), some (⟨[], some (lit "(1.500000, 0.007812)")⟩, [])] := by
  decide +kernel

example : Demo.execPar ["last_particle_pos (1.500000, 0.007812)", "last_particle_pos (1 two)", "last_particle_pos 5", "spawn (a b) 3"] =
    .ok [some (⟨[], some (lit "(1.500000, 0.007812)")⟩, []),
      some (⟨[lit "Unable to convert '1 two' to type 'Vec2': Unable to convert 'two' to type 'float'"], none⟩, []),
      some (⟨[lit "Unable to convert '5' to type 'Vec2': Expected 2 subvalues, got 1"], none⟩, []),
      some (⟨[lit "Unable to convert 'a b' to type 'Vec2': Unable to convert 'a' to type 'float'",
        lit "Unable to convert '3' to type 'Vec2': Expected 2 subvalues, got 1"], none⟩, [])] := by
  decide +kernel

example : BadPair ⟨[lit "1"]⟩ (lit "Unable to convert '1' to type 'Vec2': Expected 2 subvalues, got 1") := .count (v := ⟨[lit "1"]⟩) (by decide)

example : Bare (lit "particles.last_particle_pos") := ⟨by decide, by decide⟩

end Coil
