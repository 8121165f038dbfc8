import Verif.Proofs.CheckedString
import Verif.Props.String

/-!
# Strings in a build with assertions (C74)

`StrC.exec` runs a program with assertions; `State.forget` drops the members that only assertions read. The specification
is `Spec.textRun` on rows of bytes as in C22; `TakesHollow` says, from the statements alone, that somewhere the text of a
string is used that was moved from and not given a text or a size since.
-/

namespace Coil
open Spec Mem

/-- A program with assertions that starts with no strings and an empty heap. -/
abbrev StrC.exec (ops : List Str.Op) : Res StrC.State := StrC.run ⟨Mem.empty, []⟩ ops

/-- **C74.** In a program that respects the preconditions and uses no string that was moved from, no assertion fails, and the program ends
in the same state as without assertions. -/
theorem C74_hold (ops : List Str.Op) {e : Texts} (hf : TextFitsAll [] ops) (hn : ∀ op ∈ ops, ¬ SelfAppend op)
    (hs : textRun [] ops = some e) (ht : ¬ TakesHollow [] ops) :
    ∃ s, StrC.exec ops = .ok s ∧ Str.exec ops = .ok s.forget ∧ Str.ShowsAll s.forget e := by
  obtain ⟨s, h1, h2, h3, -⟩ := StrC.run_ok (s := ⟨Mem.empty, []⟩) Str.SInv.init StrC.hinv_init hf hn hs ht
  exact ⟨s, h1, h2, h3.shows⟩

example : (StrC.exec [.ofBytes (lit "ab"), .moveNew 0, .append 0 (lit "c"), .copyNew 0, .appendPart 2 1 1 1, .write 2 0 100,
    .moveAssign 1 2, .destroy 2]).bind (fun s => .ok (s.vars.map (Option.map (fun b => (b.buf.size, b.chunk, b.count))))) =
    .ok [some (2, 1, 0), some (3, 1, 0), none] := by
  decide +kernel

/-- **C74.** A program that respects the preconditions stops at an assertion exactly if it uses the text of a string that was moved from. -/
theorem C74_stops_iff (ops : List Str.Op) {e : Texts} (hf : TextFitsAll [] ops) (hn : ∀ op ∈ ops, ¬ SelfAppend op)
    (hs : textRun [] ops = some e) : StrC.exec ops = .ub .assertion ↔ TakesHollow [] ops := by
  constructor
  · intro h
    apply Classical.byContradiction
    intro ht
    obtain ⟨s, h1, -⟩ := C74_hold ops hf hn hs ht
    rw [h] at h1
    cases h1
  · exact StrC.run_hollow (s := ⟨Mem.empty, []⟩) Str.SInv.init StrC.hinv_init hf hn hs

/-- **C74.** Such a program never has undefined behaviour. -/
theorem C74_contained (ops : List Str.Op) {e : Texts} (hf : TextFitsAll [] ops) (hn : ∀ op ∈ ops, ¬ SelfAppend op)
    (hs : textRun [] ops = some e) : Contained (StrC.exec ops) := by
  by_cases ht : TakesHollow [] ops
  · rw [(C74_stops_iff ops hf hn hs).2 ht]
    exact .stop
  · obtain ⟨s, h1, -⟩ := C74_hold ops hf hn hs ht
    rw [h1]
    exact .ok

/-- **C74: a copy of a string that was moved from** is an empty string without assertions and stops the program with them. -/
theorem C74_moved_from_false :
    textRun [] [.ofBytes (lit "ab"), .moveNew 0, .copyNew 0] = some [some [], some [some 97, some 98], some []] ∧
    (Str.exec [.ofBytes (lit "ab"), .moveNew 0, .copyNew 0]).bind (fun s => .ok (s.vars.map (Option.map Str.length))) =
      .ok [some 0, some 2, some 0] ∧
    StrC.exec [.ofBytes (lit "ab"), .moveNew 0, .copyNew 0] = .ub .assertion := by
  refine ⟨?_, ?_, ?_⟩ <;> decide +kernel

/-- **C74: assertions do not notice** that part of a string is appended to the string itself while its block is replaced (C23). -/
theorem C74_self_append_false :
    StrC.exec [.ofBytes (lit "ab"), .appendPart 0 0 0 2] = .ub .useAfterFree := by
  decide +kernel

/-- **C74 (parts).** A part that is out of range stops the program, for texts shorter than 2^63 bytes. -/
theorem C74_part (ops : List Str.Op) {e : Texts} (hf : TextFitsAll [] ops) (hn : ∀ op ∈ ops, ¬ SelfAppend op)
    (hs : textRun [] ops = some e) (ht : ¬ TakesHollow [] ops) {v : Nat} {l : Text} (hv : textOf e v = some l) (hl : l.length < 2 ^ 63)
    (off len : Nat) (hp : part l off len = none) : StrC.exec (ops ++ [.ofPart v off len]) = .ub .assertion := by
  obtain ⟨s, h1, h2, h3, h4⟩ := StrC.run_ok (s := ⟨Mem.empty, []⟩) Str.SInv.init StrC.hinv_init hf hn hs ht
  obtain ⟨b, g1, g2, g3, g4⟩ := StrC.getBoth h3 hv
  have happ : StrC.exec (ops ++ [.ofPart v off len]) = StrC.step s (.ofPart v off len) := by
    rw [StrC.exec, StrC.run_snoc, h1, Res.bind_ok]
  rw [happ]
  have hno : StrC.partOf b off len = .ub .assertion := by
    have hlen := g4.length
    have hle : ¬ off + len ≤ l.length := by
      unfold part at hp
      split at hp
      · cases hp
      · assumption
    unfold StrC.partOf assertThat
    split
    · rw [Res.bind_ok]
      split
      · rw [Res.bind_ok]
        split
        · rw [Res.bind_ok, if_neg (by rw [Nat.mod_eq_of_lt (by omega)]; omega)]
          rfl
        · rfl
      · rfl
    · rfl
  simp only [StrC.step, g1, hno, Res.bind_ok]
  rfl

example : StrC.exec [.ofBytes (lit "abc"), .ofPart 0 2 2] = .ub .assertion ∧
    StrC.exec [.ofBytes (lit "abc"), .ofPart 0 4 0] = .ub .assertion := by
  refine ⟨?_, ?_⟩ <;> decide +kernel

/-- **C74 (equality).** After such a program, `==` on two strings compares their bytes, and stops exactly if one of them was moved from. -/
theorem C74_equality (ops : List Str.Op) {e : Texts} (hf : TextFitsAll [] ops) (hn : ∀ op ∈ ops, ¬ SelfAppend op)
    (hs : textRun [] ops = some e) (ht : ¬ TakesHollow [] ops) {v w : Nat} {xs ys : Bytes} (hv : textOf e v = some (xs.map some))
    (hw : textOf e w = some (ys.map some)) :
    ∃ s bv bw, StrC.exec ops = .ok s ∧ VecC.getVar s.vars v = .ok bv ∧ VecC.getVar s.vars w = .ok bw ∧
      StrC.equal s.mem bv bw = if (ops.foldl hollowAfter [])[v]? = some true ∨ (ops.foldl hollowAfter [])[w]? = some true
        then .ub .assertion else .ok (decide (xs = ys)) := by
  obtain ⟨s, h1, h2, h3, h4⟩ := StrC.run_ok (s := ⟨Mem.empty, []⟩) Str.SInv.init StrC.hinv_init hf hn hs ht
  obtain ⟨bv, g1, g2, g3, -⟩ := StrC.getBoth h3 hv
  obtain ⟨bw, k1, k2, k3, -⟩ := StrC.getBoth h3 hw
  obtain ⟨s', bv', bw', q1, q2, q3, q4⟩ := C52_equality ops hf hn hs hv hw
  have q1' : Str.exec ops = .ok s.forget := h2
  rw [q1'] at q1
  cases q1
  rw [g3] at q2
  cases q2
  rw [k3] at q3
  cases q3
  refine ⟨s, bv, bw, h1, g1, k1, ?_⟩
  obtain ⟨-, a1, a2⟩ := h4.fine v bv g2
  obtain ⟨-, b1, b2⟩ := h4.fine w bw k2
  unfold StrC.equal
  by_cases hx : (ops.foldl hollowAfter [])[v]? = some true
  · rw [if_pos (.inl hx), a1 hx]
    rfl
  · rw [assertThat_pos (a2 hx), Res.bind_ok]
    by_cases hy : (ops.foldl hollowAfter [])[w]? = some true
    · rw [if_pos (.inr hy), b1 hy]
      rfl
    · rw [if_neg (by simp [hx, hy]), assertThat_pos (b2 hy), Res.bind_ok]
      exact q4

example : (StrC.exec [.ofBytes (lit "ab"), .ofBytes (lit "ab"), .moveNew 0]).bind (fun s => do
      let a ← VecC.getVar s.vars 1
      let b ← VecC.getVar s.vars 2
      StrC.equal s.mem a b) = .ok true ∧
    (StrC.exec [.ofBytes (lit "ab"), .ofBytes (lit "ab"), .moveNew 0]).bind (fun s => do
      let a ← VecC.getVar s.vars 0
      let b ← VecC.getVar s.vars 2
      StrC.equal s.mem a b) = .ub .assertion := by
  refine ⟨?_, ?_⟩ <;> decide +kernel

/-- **C74 (last byte).** After such a program `back()` gives the last byte of a text and stops if the text is empty. -/
theorem C74_back (ops : List Str.Op) {e : Texts} (hf : TextFitsAll [] ops) (hn : ∀ op ∈ ops, ¬ SelfAppend op)
    (hs : textRun [] ops = some e) (ht : ¬ TakesHollow [] ops) {v : Nat} {xs : Bytes} (hv : textOf e v = some (xs.map some)) :
    ∃ s b, StrC.exec ops = .ok s ∧ VecC.getVar s.vars v = .ok b ∧
      StrC.back s.mem b = match xs.getLast? with
        | some x => .ok x
        | none => .ub .assertion := by
  obtain ⟨s, h1, h2, h3, h4⟩ := StrC.run_ok (s := ⟨Mem.empty, []⟩) Str.SInv.init StrC.hinv_init hf hn hs ht
  obtain ⟨b, g1, g2, g3, g4⟩ := StrC.getBoth h3 hv
  refine ⟨s, b, h1, g1, ?_⟩
  have hlen := g4.length
  simp only [List.length_map] at hlen
  rw [List.getLast?_eq_getElem?]
  unfold StrC.back
  rcases g4 with ⟨k1, k2⟩ | ⟨p, c, k1, k2, k3, k4, k5, k6, k7, k8, k9⟩
  · have : xs = [] := by simpa using k2
    subst this
    rw [k1]
    rfl
  · cases hx : xs[xs.length - 1]? with
    | none =>
      have : xs.length = 0 := by
        have := List.getElem?_eq_none_iff.1 hx
        omega
      unfold assertThat
      rw [if_neg (by omega)]
      rfl
    | some x =>
      have h0 := (List.getElem?_eq_some_iff.1 hx).1
      rw [assertThat_pos (by omega), Res.bind_ok]
      have := k8 (xs.length - 1) x (by rw [List.getElem?_map, hx]; rfl)
      simp only [StrC.peek, readElem, deref, k1, Res.bind_ok, cells_ok k2, hlen, this]

example : (StrC.exec [.ofBytes (lit "ab"), .append 0 (lit "c")]).bind (fun s => do
      let a ← VecC.getVar s.vars 0
      StrC.back s.mem a) = .ok 99 := by
  decide +kernel

end Coil
