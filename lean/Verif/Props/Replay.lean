import Verif.Proofs.Replay

/-!
# Writing a parsed command down again (C55)
-/

namespace Coil
open Spec

/-! ## C55 -/

/-- **C55.** A command that came out of the lexer and whose keys and sub-values have no quote characters can be written down again
(`render`: everything quoted, compound values in parentheses), and parsing that text gives the same command. -/
theorem C55_replay {cs : Bool} {t : Bytes} (hlen : t.length < 2 ^ 64 - 1) {i : GInput Bytes}
    (h : lexRead (LexCfg.default cs) t = .ok (.ok i)) (hq : QuoteFree (delims (LexCfg.default cs)) i) :
    lexRead (LexCfg.default cs) (render 34 40 41 32 i) = .ok (.ok i) :=
  C01_render cs i (accepts_spellable ((C06_grammar (proper_default cs) hlen).1 h) hq)

/-- **C55**, as a condition on the line alone: no quote inside parentheses. -/
theorem C55_replay_line {cs : Bool} {t : Bytes} (hlen : t.length < 2 ^ 64 - 1) {i : GInput Bytes}
    (h : lexRead (LexCfg.default cs) t = .ok (.ok i))
    (hg : ∀ ts g, Tokens (delims (LexCfg.default cs)) t ts → Tok.compound g ∈ ts →
      ∀ c ∈ g, c ∉ (delims (LexCfg.default cs)).quotes) :
    lexRead (LexCfg.default cs) (render 34 40 41 32 i) = .ok (.ok i) :=
  C55_replay hlen h (accepts_quoteFree ((C06_grammar (proper_default cs) hlen).1 h) hg)

/-- **C55.** The written form is a normal form: two lines mean the same command exactly if their written forms agree. -/
theorem C55_normal_form {cs : Bool} {t u : Bytes} (ht : t.length < 2 ^ 64 - 1) (hu : u.length < 2 ^ 64 - 1) {i j : GInput Bytes}
    (hi : lexRead (LexCfg.default cs) t = .ok (.ok i)) (hj : lexRead (LexCfg.default cs) u = .ok (.ok j))
    (hqi : QuoteFree (delims (LexCfg.default cs)) i) (hqj : QuoteFree (delims (LexCfg.default cs)) j) :
    render 34 40 41 32 i = render 34 40 41 32 j ↔ lexRead (LexCfg.default cs) t = lexRead (LexCfg.default cs) u := by
  constructor
  · intro h
    have h1 := C55_replay ht hi hqi
    rw [h, C55_replay hu hj hqj] at h1
    rw [hi, hj, h1]
  · intro h
    rw [hi, hj] at h
    simp only [Res.ok.injEq, Except.ok.injEq] at h
    rw [h]

/-- **C55**, the limit: a sub-value can contain a quote (`f (a'b)` has the one sub-value `a'b`), and then the written form is
rejected or means something else. -/
theorem C55_quote_limit : ∃ i, lexRead (LexCfg.default true) (lit "f (a'b)") = .ok (.ok i) ∧
    lexRead (LexCfg.default true) (render 34 40 41 32 i) ≠ .ok (.ok i) := by
  refine ⟨⟨lit "f", [⟨[lit "a'b"]⟩], []⟩, ?_, ?_⟩ <;> decide +kernel

example : lexRead (LexCfg.default true) (lit "  go 'a (b' 1,2;x k=(p=q  r) ") =
    .ok (.ok ⟨lit "go", [⟨[lit "a (b"]⟩, ⟨[lit "1", lit "2", lit "x"]⟩], [⟨lit "k", ⟨[lit "p=q", lit "r"]⟩⟩]⟩) := by decide +kernel
example : QuoteFree (delims (LexCfg.default true))
    ⟨lit "go", [⟨[lit "a (b"]⟩, ⟨[lit "1", lit "2", lit "x"]⟩], [⟨lit "k", ⟨[lit "p=q", lit "r"]⟩⟩]⟩ := by
  unfold QuoteFree; decide
example : render 34 40 41 32
    ⟨lit "go", [⟨[lit "a (b"]⟩, ⟨[lit "1", lit "2", lit "x"]⟩], [⟨lit "k", ⟨[lit "p=q", lit "r"]⟩⟩]⟩ =
    lit "\"go\" \"a (b\" (\"1\" \"2\" \"x\" ) \"k\"=(\"p=q\" \"r\" )" := by decide +kernel

end Coil
