import Verif.Proofs.StrProg
import Verif.Spec.Lexer

/-!
# Properties of strings (C22, C23, C52)

A program is a list of statements on any number of strings (`Str.Op`); `Str.run` executes it on the heap. The
specification is `Spec.textRun`: each variable is a row of bytes. `TextFitsAll` says that no requested size exceeds
`size_t`.
-/

namespace Coil
open Spec Mem

/-- A program that starts with no strings and an empty heap. -/
abbrev Str.exec (ops : List Str.Op) : Res Str.State := Str.run ⟨Mem.empty, []⟩ ops

/-- What the public interface shows of a string variable: the length and the bytes of its text. -/
def Str.Shows (s : Str.State) (v : Nat) (l : Text) : Prop :=
  ∃ buf t, Vec.getVar s.vars v = .ok buf ∧ Str.length buf = l.length ∧ Str.text s.mem buf = .ok t ∧ t.length = l.length ∧
    Agrees t l

/-- All variables of a state show the given texts; destroyed ones are destroyed. -/
def Str.ShowsAll (s : Str.State) (e : Texts) : Prop :=
  s.vars.length = e.length ∧ (∀ v l, textOf e v = some l → Str.Shows s v l) ∧
    ∀ v : Nat, textOf e v = none → Vec.getVar s.vars v = .ub .deadObject

/-- The byte after the text of the string is a NUL inside its block. -/
def Str.Terminated (s : Str.State) (v : Nat) : Prop :=
  ∃ buf b c, Vec.getVar s.vars v = .ok buf ∧ buf.ptr = some b ∧ s.mem.heap[b]? = some (some c) ∧ Str.length buf < c.length ∧
    c[Str.length buf]? = some (some 0)

theorem Str.SInv.shows {s : Str.State} {e : Texts} (h : Str.SInv s e) : Str.ShowsAll s e := by
  refine ⟨h.len, ?_, ?_⟩
  · intro v l hv
    obtain ⟨buf, h1, _, _, h2⟩ := h.getVar hv
    obtain ⟨t, t1, t2, t3⟩ := Str.read_view h2 (off := 0) (len := Str.length buf) (by rw [h2.length]; omega)
    rw [h2.length] at t2
    rw [List.drop_zero, h2.length, List.take_length] at t3
    exact ⟨buf, t, h1, h2.length, t1, t2, t3⟩
  · intro v hv
    unfold Vec.getVar
    cases hx : s.vars[v]? with
    | none => rfl
    | some o =>
      cases o with
      | none => rfl
      | some buf =>
        obtain ⟨l, h1, _⟩ := h.own v buf hx
        simp [textOf, h1] at hv

theorem Str.getVar_mem {vars : List (Option Buf)} {w : Nat} {buf : Buf} (hw : Vec.getVar vars w = .ok buf) :
    vars[w]? = some (some buf) := by
  unfold Vec.getVar at hw
  split at hw
  · rename_i b hb
    cases hw
    exact hb
  · cases hw

/-- Where a text is specified everywhere, bytes that agree with it are equal to it. -/
theorem Str.agrees_exact {t : List (Option UInt8)} {bs : Bytes} (hl : t.length = (bs.map some).length) (h : Agrees t (bs.map some)) :
    t = bs.map some := by
  apply List.ext_getElem?
  intro i
  by_cases hi : i < bs.length
  · have hb : (bs.map some)[i]? = some (some bs[i]) := by simp [hi]
    rw [h i _ hb, hb]
  · rw [List.getElem?_eq_none (by simp at hl; omega), List.getElem?_eq_none (by simp; omega)]

/-! ## C22 -/

/-- **C22.** Every program on strings whose preconditions hold and that does not append a string to itself runs without undefined
behaviour and leaves every string with the bytes of the corresponding plain sequence. -/
theorem C22_sequence (ops : List Str.Op) {e : Texts} (hf : TextFitsAll [] ops) (hn : ∀ op ∈ ops, ¬ SelfAppend op)
    (hs : textRun [] ops = some e) : ∃ s, Str.exec ops = .ok s ∧ Str.ShowsAll s e := by
  obtain ⟨s, h1, h2, _⟩ := Str.run_spec Str.SInv.init hf hn hs
  exact ⟨s, h1, h2.shows⟩

/-- **C22 (exact bytes).** A string all of whose bytes were determined by the program has exactly these bytes. -/
theorem C22_bytes (ops : List Str.Op) {e : Texts} (hf : TextFitsAll [] ops) (hn : ∀ op ∈ ops, ¬ SelfAppend op)
    (hs : textRun [] ops = some e) {v : Nat} {bs : Bytes} (hv : textOf e v = some (bs.map some)) :
    ∃ s buf, Str.exec ops = .ok s ∧ Vec.getVar s.vars v = .ok buf ∧ Str.text s.mem buf = .ok (bs.map some) := by
  obtain ⟨s, h1, h2⟩ := C22_sequence ops hf hn hs
  obtain ⟨buf, t, g1, g2, g3, g4, g5⟩ := h2.2.1 v _ hv
  exact ⟨s, buf, h1, g1, by rw [g3, Str.agrees_exact g4 g5]⟩

/-- A program for the examples: growth, a copy, an assignment to itself, moves, writes to one of the copies, a NUL byte
in the middle of a text, shrinking and growing again. -/
def demoStr : List Str.Op :=
  [.ofBytes (lit "ab"), .append 0 [0, 99], .copyNew 0, .write 1 0 120, .copyAssign 1 1, .appendPart 1 0 1 3, .moveNew 0,
    .append 0 (lit "z"), .moveAssign 2 1, .resize 2 3, .resize 2 5, .ofPart 2 0 2, .reserve 3 20, .append 3 (lit "!"), .destroy 1]

example : textRun [] demoStr = some [some [some 122], none, some [some 120, some 98, some 0, none, none],
      some [some 120, some 98, some 33]] ∧
    (Str.exec demoStr).bind (fun s => do
      let a ← Vec.getVar s.vars 0
      let b ← Vec.getVar s.vars 2
      let c ← Vec.getVar s.vars 3
      .ok (← Str.text s.mem a, ← Str.text s.mem b, ← Str.text s.mem c, c.cap)) =
      .ok ([some 122], [some 120, some 98, some 0, some 0, some 98], [some 120, some 98, some 33], 21) := by
  decide +kernel

/-- **C22 (terminator).** As long as the program moves from no string, the text of every live string is followed by a NUL inside its
buffer. -/
theorem C22_terminated (ops : List Str.Op) {e : Texts} (hf : TextFitsAll [] ops) (hn : ∀ op ∈ ops, ¬ SelfAppend op)
    (hm : ∀ op ∈ ops, ¬ Moves op) (hs : textRun [] ops = some e) :
    ∃ s, Str.exec ops = .ok s ∧ ∀ v l, textOf e v = some l → Str.Terminated s v := by
  obtain ⟨s, h1, h2, h3⟩ := Str.run_spec Str.SInv.init hf hn hs
  refine ⟨s, h1, fun v l hv => ?_⟩
  obtain ⟨buf, g1, g2, g3, g4⟩ := h2.getVar hv
  have hz := h3 hm (fun v buf hv => by simp at hv) v buf g2
  have hlen := g4.length
  rcases g4 with ⟨rfl, _⟩ | ⟨b, c, k1, k2, k3, k4, k5, k6, k7, k8, k9⟩
  · simp [Buf.null] at hz
  · exact ⟨buf, b, c, g1, k1, k2, by omega, by rw [hlen]; exact k9 hz⟩

example : (Str.exec [.ofBytes (lit "ab"), .append 0 [0, 99], .copyNew 0, .resize 1 1]).bind (fun s => .ok s.mem.heap) =
    .ok [none, some [some 97, some 98, some 0, some 99, some 0], some [some 97, some 0, some 0, some 99, some 0]] := by
  decide +kernel

/-- **C22 (disagreement).** A string that was moved from has no terminator: `cStr()` is a null pointer. And a copy of such a string
for which memory was reserved has a buffer of which no byte was written. -/
theorem C22_terminated_false :
    (Str.exec [.ofBytes (lit "a"), .moveNew 0]).bind (fun s => do
      let a ← Vec.getVar s.vars 0
      .ok (a.ptr, Str.length a)) = .ok (none, 0) ∧
    (Str.exec [.ofBytes (lit "a"), .moveNew 0, .reserve 0 3, .copyNew 0]).bind (fun s => do
      let c ← Vec.getVar s.vars 2
      .ok (c.ptr.bind (fun b => (s.mem.heap[b]?).join), Str.length c)) = .ok (some [none, none, none, none], 0) := by
  refine ⟨?_, ?_⟩ <;> decide +kernel

/-- **C22 (memory).** Every live heap block belongs to exactly one live string: no block is shared between two strings and none is
leaked. -/
theorem C22_blocks (ops : List Str.Op) {e : Texts} (hf : TextFitsAll [] ops) (hn : ∀ op ∈ ops, ¬ SelfAppend op)
    (hs : textRun [] ops = some e) :
    ∃ s, Str.exec ops = .ok s ∧
      ∀ (b : Nat) c, s.mem.heap[b]? = some (some c) →
        ∃ v buf, (Vec.getVar s.vars v = .ok buf ∧ buf.ptr = some b) ∧
          ∀ w buf', Vec.getVar s.vars w = .ok buf' → buf'.ptr = some b → w = v := by
  obtain ⟨s, h1, h2, _⟩ := Str.run_spec Str.SInv.init hf hn hs
  refine ⟨s, h1, fun b c hc => ?_⟩
  obtain ⟨v, buf, hv, hp⟩ := h2.live b c hc
  refine ⟨v, buf, ⟨by simp [Vec.getVar, hv], hp⟩, fun w buf' hw hp' => ?_⟩
  exact h2.dist w v buf' buf b (Str.getVar_mem hw) hv hp' hp

/-- **C22 (own buffer only).** After any such program, a further statement leaves every string that it does not concern as it
was: the same buffer, and not one byte of its block is changed. -/
theorem C22_own_buffer (ops : List Str.Op) (op : Str.Op) {e : Texts} (hf : TextFitsAll [] (ops ++ [op]))
    (hn : ∀ o ∈ ops ++ [op], ¬ SelfAppend o) (hs : textRun [] (ops ++ [op]) = some e) :
    ∃ s s', Str.exec ops = .ok s ∧ Str.step s op = .ok s' ∧
      ∀ w buf, Vec.getVar s.vars w = .ok buf → ¬ Concerns w op →
        Vec.getVar s'.vars w = .ok buf ∧ ∀ b, buf.ptr = some b → s'.mem.heap[b]? = s.mem.heap[b]? := by
  have run_append : ∀ (ops : List Str.Op) (e0 e : Texts), TextFitsAll e0 (ops ++ [op]) → textRun e0 (ops ++ [op]) = some e →
      ∃ e1, textRun e0 ops = some e1 ∧ TextFitsAll e0 ops ∧ TextFits e1 op ∧ textStep e1 op = some e := by
    intro ops
    induction ops with
    | nil =>
      intro e0 e hf hs
      simp only [List.nil_append, textRun, Option.bind_eq_some_iff] at hs
      obtain ⟨a, h1, h2⟩ := hs
      simp only [Option.some.injEq] at h2
      subst h2
      exact ⟨e0, rfl, trivial, hf.1, h1⟩
    | cons o ops ih =>
      intro e0 e hf hs
      simp only [List.cons_append, textRun, Option.bind_eq_some_iff] at hs
      obtain ⟨a, h1, h2⟩ := hs
      obtain ⟨e1, g1, g2, g3, g4⟩ := ih a e (hf.2 a h1) h2
      refine ⟨e1, by simp [textRun, h1, g1], ⟨hf.1, fun e' he' => ?_⟩, g3, g4⟩
      rw [h1] at he'
      cases he'
      exact g2
  obtain ⟨e1, g1, g2, g3, g4⟩ := run_append ops [] e hf hs
  obtain ⟨s, h1, h2, _⟩ := Str.run_spec Str.SInv.init g2 (fun o ho => hn o (by simp [ho])) g1
  have hr : Str.Room s e1 op := Str.Room.of_not_self (hn op (by simp))
  obtain ⟨s', k1, k2, _⟩ := Str.step_spec h2 g3 hr g4
  refine ⟨s, s', h1, k1, fun w buf hw hc => ?_⟩
  obtain ⟨u1, u2⟩ := Str.step_frame h2 g3 hr g4 k1 (Str.getVar_mem hw) hc
  exact ⟨by simp [Vec.getVar, u1], u2⟩

example : (Str.exec [.ofBytes (lit "ab"), .ofBytes (lit "cd"), .appendPart 0 1 0 2]).bind (fun s => .ok s.mem.heap) =
    .ok [none, some [some 99, some 100, some 0], some [some 97, some 98, some 99, some 100, some 0]] := by
  decide +kernel

/-! ## C23 -/

/-- **C23 (partial).** After any program (without self-append), appending part of a string to the string itself appends exactly that
part *if the capacity suffices*. Missing: the case in which the buffer has to grow, which `C23_realloc_false` refutes. -/
theorem C23_self_append_partial (ops : List Str.Op) {e : Texts} (hf : TextFitsAll [] ops) (hn : ∀ op ∈ ops, ¬ SelfAppend op)
    (hs : textRun [] ops = some e) {v off len : Nat} {l p : Text} (hv : textOf e v = some l) (hp : part l off len = some p)
    (hfit : l.length + len + 1 < 2 ^ 64) :
    ∃ s buf, Str.exec ops = .ok s ∧ Vec.getVar s.vars v = .ok buf ∧
      (l.length + len < buf.cap →
        ∃ s', Str.step s (.appendPart v v off len) = .ok s' ∧ Str.ShowsAll s' (e.set v (some (l ++ p)))) := by
  obtain ⟨s, h1, h2, _⟩ := Str.run_spec Str.SInv.init hf hn hs
  obtain ⟨buf, g1, g2, g3, g4⟩ := h2.getVar hv
  refine ⟨s, buf, h1, g1, fun hroom => ?_⟩
  have hst : textStep e (.appendPart v v off len) = some (e.set v (some (l ++ p))) := by
    simp [textStep, hv, hp]
  obtain ⟨s', k1, k2, _⟩ := Str.step_spec h2 (op := .appendPart v v off len)
    (fun l' hl' => by rw [hv] at hl'; cases hl'; exact hfit)
    (fun _ buf' l' hb hl => by
      rw [g2] at hb
      rw [g3] at hl
      cases hb
      cases hl
      exact hroom) hst
  exact ⟨s', k1, k2.shows⟩

example : (Str.exec [.ofBytes (lit "ab"), .reserve 0 9, .appendPart 0 0 0 2, .appendPart 0 0 1 2]).bind (fun s => do
      let a ← Vec.getVar s.vars 0
      Str.text s.mem a) = .ok [some 97, some 98, some 97, some 98, some 98, some 97] := by
  decide +kernel

/-- **C23 (disagreement, all cases).** After any program, appending a non-empty part of a string to itself when the capacity does not
suffice reads freed memory: `append` takes the pointer before `resize` releases the block. -/
theorem C23_realloc_false (ops : List Str.Op) {e : Texts} (hf : TextFitsAll [] ops) (hn : ∀ op ∈ ops, ¬ SelfAppend op)
    (hs : textRun [] ops = some e) {v off len : Nat} {l : Text} (hv : textOf e v = some l) (hl : off + len ≤ l.length)
    (h0 : 0 < len) (hfit : l.length + len + 1 < 2 ^ 64) :
    ∃ s buf, Str.exec ops = .ok s ∧ Vec.getVar s.vars v = .ok buf ∧
      (buf.cap ≤ l.length + len → Str.step s (.appendPart v v off len) = .ub .useAfterFree) := by
  obtain ⟨s, h1, h2, _⟩ := Str.run_spec Str.SInv.init hf hn hs
  obtain ⟨buf, g1, g2, g3, g4⟩ := h2.getVar hv
  refine ⟨s, buf, h1, g1, fun hc => ?_⟩
  have := Str.append_self_ub g4 hl h0 hfit hc
  simp only [Str.step, g1, Res.bind_ok, Str.onVar, this]
  rfl

/-- **C23 (disagreement, plain strings).** For every non-empty text, `String s(text); s += s;` reads freed memory. -/
theorem C23_plain_false (xs : Bytes) (h0 : xs ≠ []) (hfit : xs.length + xs.length + 1 < 2 ^ 64) :
    Str.exec [.ofBytes xs, .appendPart 0 0 0 xs.length] = .ub .useAfterFree := by
  have hx : 0 < xs.length := List.length_pos_iff.2 h0
  have hfits : TextFitsAll [] [.ofBytes xs] := ⟨by show xs.length + 1 < 2 ^ 64; omega, fun _ _ => trivial⟩
  obtain ⟨s, h1, h2, _⟩ := Str.run_spec Str.SInv.init hfits (by simp [SelfAppend]) rfl
  obtain ⟨buf, g1, g2, g3, g4⟩ := h2.getVar (v := 0) (l := xs.map some) rfl
  -- the constructor reserves exactly the length plus the terminator
  have hcap : buf.cap = xs.length + 1 := by
    have e1 : (xs.length + 1) % 2 ^ 64 = xs.length + 1 := Nat.mod_eq_of_lt (by omega)
    have hx1 : (Str.exec [.ofBytes xs]).bind (fun s => do
        let b ← Vec.getVar s.vars 0
        .ok b.cap) = .ok (xs.length + 1) := by
      obtain ⟨m', buf', hd, _⟩ := Str.append_ext (m := Mem.empty) (buf := Buf.null) (l := []) (.inl ⟨rfl, rfl⟩) (xs := xs)
        (by simp; omega)
      have hq := hd.eq
      rw [← Str.ofSrc_append _ _ (by simp only [Str.Src.len]; omega)] at hq
      have hcap' : buf'.cap = xs.length + 1 := by
        simp only [Str.ofSrc, Str.resize, Str.reserve, Str.Src.len, e1] at hq
        rw [if_pos (by simp [Buf.null]), Str.new_spec _ (by omega) (by omega)] at hq
        simp only [Res.bind_eq_ok] at hq
        obtain ⟨⟨m1, b1⟩, q1, xs', q2, m2, q3, q4⟩ := hq
        obtain ⟨⟨m3, b3⟩, q5, m4, q6, q7⟩ := q1
        obtain ⟨-, -, m5, -, m6, -, m7, -, q8⟩ := q5
        simp only [Res.ok.injEq, Prod.mk.injEq] at q4 q7 q8
        rw [← q4.2, ← q7.2, ← q8.2]
      simp only [Str.exec, Str.run, Str.step, hq, Res.bind_ok]
      simp only [bind, Res.bind, Vec.getVar, List.nil_append, List.getElem?_cons_zero, hcap']
    unfold Str.exec at hx1
    rw [h1] at hx1
    simp only [bind, Res.bind, g1, Res.ok.injEq] at hx1
    exact hx1
  have hub := Str.append_self_ub g4 (off := 0) (len := xs.length) (by simp) hx (by simpa using hfit) (by simp; omega)
  simp only [Str.exec, Str.run] at h1 ⊢
  cases hst : Str.step ⟨Mem.empty, []⟩ (.ofBytes xs) with
  | ok s1 =>
    rw [hst] at h1
    simp only [Res.bind_ok, Res.ok.injEq] at h1
    subst h1
    simp only [Res.bind_ok, Str.step, g1, Str.onVar, hub]
    rfl
  | ub u =>
    rw [hst] at h1
    cases h1
  | diverge =>
    rw [hst] at h1
    cases h1

example : Str.exec [.ofBytes (lit "ab"), .appendPart 0 0 0 2] = .ub .useAfterFree := by
  decide +kernel

/-! ## C52 -/

theorem Str.written_map (bs : Bytes) : Str.written (bs.map some) = .ok bs := by
  induction bs with
  | nil => rfl
  | cons b bs ih => simp only [List.map_cons, Str.written, ih, Res.bind_ok]

/-- **C52.** After any program, `==` on two strings with determined bytes is true exactly if they have the same bytes, embedded NUL bytes
included. -/
theorem C52_equality (ops : List Str.Op) {e : Texts} (hf : TextFitsAll [] ops) (hn : ∀ op ∈ ops, ¬ SelfAppend op)
    (hs : textRun [] ops = some e) {v w : Nat} {xs ys : Bytes} (hv : textOf e v = some (xs.map some))
    (hw : textOf e w = some (ys.map some)) :
    ∃ s bv bw, Str.exec ops = .ok s ∧ Vec.getVar s.vars v = .ok bv ∧ Vec.getVar s.vars w = .ok bw ∧
      Str.equal s.mem bv bw = .ok (decide (xs = ys)) := by
  obtain ⟨s, h1, h2⟩ := C22_sequence ops hf hn hs
  obtain ⟨bv, t, g1, g2, g3, g4, g5⟩ := h2.2.1 v _ hv
  obtain ⟨bw, u, k1, k2, k3, k4, k5⟩ := h2.2.1 w _ hw
  refine ⟨s, bv, bw, h1, g1, k1, ?_⟩
  rw [Str.agrees_exact g4 g5] at g3
  rw [Str.agrees_exact k4 k5] at k3
  unfold Str.equal
  by_cases hl : Str.length bv = Str.length bw
  · rw [if_neg (by simp [hl])]
    simp only [g3, k3, Str.written_map, Res.bind_ok]
    congr 1
    by_cases hxy : xs = ys <;> simp [hxy]
  · rw [if_pos hl]
    have : xs ≠ ys := by
      rintro rfl
      rw [g2, k2] at hl
      exact hl rfl
    simp [this]

example : (Str.exec [.ofBytes [97, 0, 98], .ofBytes [97, 0, 99], .copyNew 0, .reserve 2 50]).bind (fun s => do
      let a ← Vec.getVar s.vars 0
      let b ← Vec.getVar s.vars 1
      let c ← Vec.getVar s.vars 2
      .ok (← Str.equal s.mem a b, ← Str.equal s.mem a c)) = .ok (false, true) := by
  decide +kernel

end Coil
