import Verif.Proofs.LexParse

/-! # The lexer is the grammar -/

namespace Coil
open Spec

deriving instance DecidableEq for Except

theorem Spec.proper_default (b : Bool) : Proper (LexCfg.default b) := by
  have h1 : ∀ c ∈ (LexCfg.default b).parens, c < 128 := by decide +revert
  have h2 : ∀ c ∈ (LexCfg.default b).quotes, c < 128 := by decide +revert
  have h3 : ∀ c ∈ (LexCfg.default b).seps, c < 128 := by decide +revert
  have h4 : ∀ c ∈ (LexCfg.default b).spaces, c < 128 := by decide +revert
  constructor
  · refine ⟨fun _ c hc => ?_⟩
    rcases hc with hc | hc | hc | hc
    · exact h1 c hc
    · exact h2 c hc
    · exact h3 c hc
    · exact h4 c hc
  all_goals decide +revert

section
variable {cfg : LexCfg} {s : Bytes}

theorem lexRead_accepts (hp : Proper cfg) {i : GInput Bytes} (h : Accepts (delims cfg) s i) :
    lexRead cfg s = .ok (.ok i) := by
  obtain ⟨gi, h1, h2⟩ := lexRead_of_accepts hp h
  simp [lexRead, h1, h2]

theorem lexRead_rejects (hp : Proper cfg) {e : Bytes} (h : Rejects (delims cfg) s e) :
    lexRead cfg s = .ok (.error e) := by
  simp [lexRead, lexParse_of_rejects hp h]

theorem lexRead_lone (hp : Proper cfg) (hlen : s.length < 2 ^ 64 - 1)
    (h : LoneQuoteCommand (delims cfg) s) : lexRead cfg s = .ub .oobRead := by
  obtain ⟨gi, h1, h2⟩ := lexRead_of_lone hp hlen h
  simp [lexRead, h1, h2]

theorem lexRead_ok_iff (hp : Proper cfg) (hlen : s.length < 2 ^ 64 - 1) {i : GInput Bytes} :
    lexRead cfg s = .ok (.ok i) ↔ Accepts (delims cfg) s i := by
  refine ⟨fun h => ?_, lexRead_accepts hp⟩
  rcases command_total (d := delims cfg) s with ⟨j, hj⟩ | ⟨e, he⟩ | hl
  · have := lexRead_accepts hp hj
    rw [this] at h
    simp at h
    exact h ▸ hj
  · simp [lexRead_rejects hp he] at h
  · simp [lexRead_lone hp hlen hl] at h

theorem lexRead_error_iff (hp : Proper cfg) (hlen : s.length < 2 ^ 64 - 1) {e : Bytes} :
    lexRead cfg s = .ok (.error e) ↔ Rejects (delims cfg) s e := by
  refine ⟨fun h => ?_, lexRead_rejects hp⟩
  rcases command_total (d := delims cfg) s with ⟨j, hj⟩ | ⟨e, he⟩ | hl
  · simp [lexRead_accepts hp hj] at h
  · have := lexRead_rejects hp he
    rw [this] at h
    simp at h
    exact h ▸ he
  · simp [lexRead_lone hp hlen hl] at h

theorem lexRead_ub_iff (hp : Proper cfg) (hlen : s.length < 2 ^ 64 - 1) {u : UB} :
    lexRead cfg s = .ub u ↔ u = .oobRead ∧ LoneQuoteCommand (delims cfg) s := by
  constructor
  · intro h
    rcases command_total (d := delims cfg) s with ⟨j, hj⟩ | ⟨e, he⟩ | hl
    · simp [lexRead_accepts hp hj] at h
    · simp [lexRead_rejects hp he] at h
    · have := lexRead_lone hp hlen hl
      rw [this] at h
      simp at h
      exact ⟨h.symm, hl⟩
  · rintro ⟨rfl, h⟩
    exact lexRead_lone hp hlen h

end

end Coil
