import Verif.Proofs.CheckedVector
import Verif.Props.Vector

/-!
# Vectors in a build with assertions (C73)

`VecC.exec` runs a program with assertions; `State.forget` drops the members that only assertions read. The specification
is `Spec.seqRun` on plain lists as in C20, `FitsAll` says that no requested byte count exceeds `size_t`, and `LiveAll` that
no destroyed vector is named.
-/

namespace Coil
open Spec Mem

variable {α : Type}

/-- A program with assertions that starts with no vectors and an empty heap. -/
abbrev VecC.exec (sz : Nat) (moved : α → α) (dflt : α) (ops : List (Vec.Op α)) : Res (VecC.State α) :=
  VecC.run sz moved dflt ⟨Mem.empty, []⟩ ops

/-- **C73.** Every program, legal or not, ends with assertions as it does without them, or stops at an assertion. -/
theorem C73_transparent (sz : Nat) (moved : α → α) (dflt : α) (ops : List (Vec.Op α)) :
    StopsAs VecC.State.forget (VecC.exec sz moved dflt ops) (Vec.exec sz moved dflt ops) := VecC.stops_run _ ops

/-- **C73.** No assertion fails in a program whose preconditions hold, and the vectors show their sequences. -/
theorem C73_hold {sz : Nat} (hsz : 0 < sz) (moved : α → α) (dflt : α) (ops : List (Vec.Op α)) {e : Seqs α}
    (hf : FitsAll sz dflt [] ops) (hs : seqRun dflt [] ops = some e) :
    ∃ s, VecC.exec sz moved dflt ops = .ok s ∧ Vec.ShowsAll s.forget e := by
  obtain ⟨s, h1, h2⟩ := VecC.run_ok hsz (moved := moved) VecC.goodAll_init (Vec.Inv.init sz) hf hs
  exact ⟨s, h1, h2.shows⟩

example : (VecC.exec 8 (fun _ => 0) 0 demoVec).bind (fun s => .ok (s.vars.map (Option.map (fun b => (b.buf.size, b.chunk, b.count))))) =
    .ok [some (1, 8, 1), some (3, 8, 3), some (4, 8, 4), some (0, 8, 0)] := by
  decide +kernel

/-- **C73.** As long as no destroyed vector is used, the program stops at an assertion exactly if a precondition is violated: instead of
undefined behaviour (C20) there is always a stop. -/
theorem C73_stops_iff {sz : Nat} (hsz : 0 < sz) (moved : α → α) (dflt : α) (ops : List (Vec.Op α))
    (hf : FitsAll sz dflt [] ops) (hl : LiveAll dflt [] ops) :
    VecC.exec sz moved dflt ops = .ub .assertion ↔ seqRun dflt [] ops = none := by
  constructor
  · intro h
    cases hs : seqRun dflt [] ops with
    | none => rfl
    | some e =>
      obtain ⟨s, h1, _⟩ := C73_hold hsz moved dflt ops hf hs
      rw [h] at h1
      cases h1
  · exact VecC.run_misuse hsz VecC.goodAll_init (Vec.Inv.init sz) hf hl

/-- **C73.** Such a program never has undefined behaviour. -/
theorem C73_contained {sz : Nat} (hsz : 0 < sz) (moved : α → α) (dflt : α) (ops : List (Vec.Op α))
    (hf : FitsAll sz dflt [] ops) (hl : LiveAll dflt [] ops) : Contained (VecC.exec sz moved dflt ops) := by
  cases hs : seqRun dflt [] ops with
  | none =>
    rw [(C73_stops_iff hsz moved dflt ops hf hl).2 hs]
    exact .stop
  | some e =>
    obtain ⟨s, h1, _⟩ := C73_hold hsz moved dflt ops hf hs
    rw [h1]
    exact .ok

example : VecC.exec 8 (fun _ => 0) 0 [.ofRange [1, 2], .clear 0, .write 0 1 5] = .ub .assertion ∧
    VecC.exec 8 (fun _ => 0) 0 [.pushBack 0 1] = .ub .deadObject ∧
    VecC.exec 8 (fun _ => 0) 0 [.ofRange [1, 2], .moveNew 0, .popBack 0] = .ub .assertion ∧
    Vec.exec 8 (fun _ => 0) 0 [.ofRange [1, 2], .moveNew 0, .popBack 0] = .ub .nullDeref := by
  refine ⟨?_, ?_, ?_, ?_⟩ <;> decide +kernel

/-- **C73 (access).** After such a program `v[i]`, `v.front()` and `v.back()` give the element of the sequence, and stop if there is none. -/
theorem C73_access {sz : Nat} (hsz : 0 < sz) (moved : α → α) (dflt : α) (ops : List (Vec.Op α)) {e : Seqs α}
    (hf : FitsAll sz dflt [] ops) (hs : seqRun dflt [] ops = some e) {v : Nat} {l : List α} (hv : seqOf e v = some l) :
    ∃ s b, VecC.exec sz moved dflt ops = .ok s ∧ VecC.getVar s.vars v = .ok b ∧
      (∀ i, VecC.at_ s.mem b i = match l[i]? with
        | some x => .ok x
        | none => .ub .assertion) ∧
      (VecC.front s.mem b = match l.head? with
        | some x => .ok x
        | none => .ub .assertion) ∧
      (VecC.back s.mem b = match l.getLast? with
        | some x => .ok x
        | none => .ub .assertion) := by
  obtain ⟨s, h1, h2⟩ := VecC.run_ok hsz (moved := moved) VecC.goodAll_init (Vec.Inv.init sz) hf hs
  obtain ⟨buf, k1, -, -, k2⟩ := h2.getVar hv
  obtain ⟨b, k3, rfl, -⟩ := VecC.getVar_ok k1
  have hsize := k2.size.1
  have hat : ∀ i, VecC.at_ s.mem b i = match l[i]? with
        | some x => .ok x
        | none => .ub .assertion := by
    intro i
    unfold VecC.at_ assertThat
    rw [hsize]
    cases hx : l[i]? with
    | none =>
      rw [if_neg (by have := List.getElem?_eq_none_iff.1 hx; omega)]
      rfl
    | some x =>
      rw [if_pos (List.getElem?_eq_some_iff.1 hx).1, Res.bind_ok]
      exact readElem_spec k2 hx
  refine ⟨s, b, h1, k3, hat, ?_, ?_⟩
  · cases l with
    | nil => simp [VecC.front, assertThat, hsize]
    | cons x l =>
      rw [VecC.front, assertThat_pos (by simp [hsize]), Res.bind_ok, hat]
      rfl
  · rw [List.getLast?_eq_getElem?, ← hsize]
    cases l with
    | nil => simp [VecC.back, assertThat, hsize]
    | cons x l => rw [VecC.back, assertThat_pos (by simp [hsize]), Res.bind_ok, hat]

example : (VecC.exec 8 (fun _ => 0) 0 [.ofRange [1, 2], .pushBack 0 3]).bind (fun s => do
    let b ← VecC.getVar s.vars 0
    let x ← VecC.front s.mem b
    let y ← VecC.back s.mem b
    .ok (x, y)) = .ok (1, 3) := by decide +kernel

/-- **C73 is false for byte counts beyond `size_t`.** A vector for 2^61 + 1 elements of eight bytes has memory for one: with assertions the
second insertion still writes beyond the block. -/
theorem C73_overflow_false :
    VecC.exec 8 (fun _ => 0) 0 [.create (2 ^ 61 + 1), .pushBack 0 5, .pushBack 0 6] = .ub .oobWrite := by
  decide +kernel

end Coil
