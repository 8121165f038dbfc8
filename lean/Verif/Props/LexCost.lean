import Verif.Proofs.LexCost

/-!
# C96: the cost of lexing

The lexer reads each character of the text at least once and at most six times, whatever the text and the configuration are; what it builds
is not larger than the text.
-/

namespace Coil.Props
open Coil

/-- C96: for every text and every configuration the lexer ends, with the result of `lexParse`; it reads exactly the positions of the text,
none of them more than six times. -/
theorem C96_reads (cfg : LexCfg) (s : Bytes) :
    ∃ r reads, lexParse cfg s = .ok r ∧ lexParseR cfg s = .ok (r, reads) ∧ (∀ p, p ∈ reads ↔ p < s.length) ∧
      (∀ p, reads.count p ≤ 6) ∧ s.length ≤ reads.length ∧ reads.length ≤ 6 * s.length := by
  obtain ⟨r, tr, e1, e2, most, inside, all, -⟩ := lexParseR_spec cfg s
  have mem : ∀ p, p ∈ tr ↔ p < s.length := by
    intro p
    constructor
    · intro hp
      have := List.count_pos_iff.2 hp
      rcases Nat.lt_or_ge p s.length with h | h
      · exact h
      · have := inside p h
        omega
    · intro hp
      exact List.count_pos_iff.1 (all p hp)
  exact ⟨r, tr, e2, e1, mem, most, le_length_of_count (fun p hp => (mem p).2 hp), length_le_of_count most (fun p hp => (mem p).1 hp)⟩

/-- C96: the name, the keys and the sub-values of all arguments together are not more than the characters of the text. -/
theorem C96_size (cfg : LexCfg) (s : Bytes) (inp : GInput View) (h : lexParse cfg s = .ok (.ok inp)) (hs : s ≠ []) :
    1 + (inp.arguments.map fun v => v.subvalues.length).sum +
      (inp.namedArguments.map fun n => 1 + n.value.subvalues.length).sum ≤ s.length := by
  obtain ⟨r, tr, -, e2, -, -, -, size⟩ := lexParseR_spec cfg s
  rw [h] at e2
  cases e2
  have hl : 0 < s.length := List.length_pos_iff.2 hs
  have := size inp rfl
  unfold viewCount at this
  omega

/-- The reads of a text, for the examples. -/
abbrev readsOf (s : Bytes) : List Nat :=
  match lexParseR (LexCfg.default true) s with
  | .ok (_, tr) => tr
  | _ => []

/-- C96: six is reached, by the quote in `f (')` and by the words of a list. -/
theorem C96_six : (readsOf (lit "f (')")).count 3 = 6 ∧ (readsOf (lit "f a,b,c")).count 2 = 6 := by
  constructor <;> decide +kernel

/-- The order of the reads of one command with a group. -/
example : readsOf (lit "f a=(x y)") = [0, 0, 1, 1, 2, 2, 3, 3, 3, 4, 4, 5, 6, 7, 8, 5, 5, 5, 6, 5, 7, 7, 7, 7] := by decide +kernel

/-- A quote that ends a word is read four times if there is no second one. -/
example : readsOf (lit "ab'c") = [0, 0, 1, 1, 2, 2, 2, 3, 2] := by decide +kernel

/-- The bounds at a command with 9 characters. -/
example : (readsOf (lit "f a=(x y)")).length = 24 := by decide +kernel

end Coil.Props
