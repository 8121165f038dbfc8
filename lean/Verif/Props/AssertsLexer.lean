import Verif.Proofs.CheckedLexer
import Verif.Props.Lexer

/-!
# The lexer in a build with assertions (C72)
-/

namespace Coil
open Spec

/-- **C72.** Assertions do not change what a text is parsed to, for any configuration; they may only stop the parser. -/
theorem C72_transparent (cfg : LexCfg) {s : Bytes} (hlen : s.length < 2 ^ 64 - 1) : Stops (lexParseC cfg s) (lexParse cfg s) := by
  rcases lexParse_both (cfg := cfg) hlen with ⟨e, h1, h2⟩ | ⟨i, h1, ⟨h2, -⟩ | ⟨h2, -⟩⟩
  · rw [h1]; exact h2
  · rw [h1, h2]; exact .refl _
  · rw [h2]; exact .inr rfl

/-- **C72.** With assertions C02 holds: the views of every parsed input lie inside the text, for any configuration. -/
theorem C72_inside (cfg : LexCfg) {s : Bytes} (hlen : s.length < 2 ^ 64 - 1) {i : GInput View} (h : lexParseC cfg s = .ok (.ok i)) :
    AllInside s.length i := by
  rcases lexParse_both (cfg := cfg) hlen with ⟨e, -, h2⟩ | ⟨j, h1, ⟨h2, h3⟩ | ⟨h2, -⟩⟩
  · rw [h] at h2
    rcases h2 with h2 | h2 <;> simp at h2
  · rw [h] at h2
    cases h2
    exact h3
  · rw [h] at h2
    cases h2

/-- **C72.** A text that parses without assertions stops with them exactly if one of its views is outside the text. -/
theorem C72_outside_iff (cfg : LexCfg) {s : Bytes} (hlen : s.length < 2 ^ 64 - 1) {i : GInput View} (h : lexParse cfg s = .ok (.ok i)) :
    lexParseC cfg s = .ub .assertion ↔ ¬ AllInside s.length i := by
  rcases lexParse_both (cfg := cfg) hlen with ⟨e, h1, -⟩ | ⟨j, h1, h2⟩
  · rw [h] at h1
    cases h1
  · rw [h] at h1
    cases h1
    rcases h2 with ⟨h2, h3⟩ | ⟨h2, h3⟩
    · simp [h2, h3]
    · simp [h2, h3]

/-- **C72.** The texts that stop the parser, well-formed or not: those with an argument value that is evaluated and has a part that is
one lone quote. -/
theorem C72_stops_iff {cfg : LexCfg} (hp : Proper cfg) {s : Bytes} (hlen : s.length < 2 ^ 64 - 1) :
    lexParseC cfg s = .ub .assertion ↔
      ∃ n ts g, Tokens (delims cfg) s (.word n :: ts) ∧ Evaluated ts g ∧ LoneQuote (delims cfg) g :=
  lexParseC_stops_iff hp hlen

/-- **C72.** Well-formed commands are parsed to what they denote. -/
theorem C72_accepts {cfg : LexCfg} (hp : Proper cfg) {s : Bytes} (hlen : s.length < 2 ^ 64 - 1) {i : GInput Bytes}
    (h : Accepts (delims cfg) s i) : ∃ v, lexParseC cfg s = .ok (.ok v) ∧ v.read s = .ok i := by
  obtain ⟨v, h1, h2⟩ := lexRead_of_accepts hp h
  refine ⟨v, ?_, h2⟩
  rcases lexParse_both (cfg := cfg) hlen with ⟨e, h3, -⟩ | ⟨j, h3, ⟨h4, -⟩ | ⟨-, h4⟩⟩
  · rw [h1] at h3
    cases h3
  · rw [h1] at h3
    cases h3
    exact h4
  · rw [h1] at h3
    cases h3
    exact absurd (read_isOk_iff.1 (by rw [h2]; trivial)) h4

/-- **C72.** Ill-formed commands are rejected with their message if no compound value has a lone quote. -/
theorem C72_rejects {cfg : LexCfg} (hp : Proper cfg) {s : Bytes} (hlen : s.length < 2 ^ 64 - 1) {e : Bytes}
    (h : Rejects (delims cfg) s e)
    (hq : ∀ ts g, Tokens (delims cfg) s ts → Tok.compound g ∈ ts → ¬ LoneQuote (delims cfg) g) : lexParseC cfg s = .ok (.error e) := by
  have h1 := lexParse_of_rejects hp h
  rcases C72_transparent cfg hlen with h2 | h2
  · rw [h2, h1]
  · obtain ⟨n, ts, g, h3, ⟨pre, vs, post, -, ⟨rfl, -⟩ | ⟨k, key, -, rfl⟩⟩, h5⟩ := (C72_stops_iff hp hlen).1 h2
    · exact absurd h5 (hq _ g h3 (by simp))
    · exact absurd h5 (hq _ g h3 (by simp))

/-- **C72.** A syntax error can be lost: `f (") a =` is rejected without assertions and stops the program with them. -/
theorem C72_error_lost (charSigned : Bool) :
    lexParse (LexCfg.default charSigned) (lit "f (\") a =") =
        .ok (.error (lit "Expected an argument value, found end of string")) ∧
      lexParseC (LexCfg.default charSigned) (lit "f (\") a =") = .ub .assertion := by
  cases charSigned <;> refine ⟨?_, ?_⟩ <;> decide +kernel

/-- A lone quote in a key, or before a syntax error that comes first, does not stop. -/
example : lexParseC (LexCfg.default true) (lit "f (\")=1") = .ok (.ok ⟨⟨0, 1⟩, [], [⟨⟨3, 1⟩, ⟨[⟨6, 1⟩]⟩⟩]⟩) := by decide +kernel
example : lexParseC (LexCfg.default true) (lit "f (\") =") =
    .ok (.error (lit "Expected an argument value, found end of string")) := by decide +kernel
example : lexParseC (LexCfg.default true) (lit "f k=(a \")") = .ub .assertion := by decide +kernel
example : lexParseC (LexCfg.default true) (lit "f k=(a 'b c')") =
    .ok (.ok ⟨⟨0, 1⟩, [], [⟨⟨2, 1⟩, ⟨[⟨5, 1⟩, ⟨8, 3⟩]⟩⟩]⟩) := by decide +kernel

end Coil
