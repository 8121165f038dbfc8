import Verif.Spec.Lexer

/-! # Character classes of a proper lexer configuration, and the scanning loops -/

namespace Coil
open Spec

theorem findChar_iff {signed : Bool} {set : Bytes} {c : Byte}
    (h : signed = true → ∀ e ∈ set, e < 128) : findChar signed set c = true ↔ c ∈ set := by
  unfold findChar charEq
  rw [List.any_eq_true]
  constructor
  · rintro ⟨e, he, hc⟩
    split at hc
    · simp at hc; exact hc.2 ▸ he
    · simp at hc; exact hc ▸ he
  · intro hc
    refine ⟨c, hc, ?_⟩
    split
    · rename_i hs
      simp [h hs c hc]
    · simp

section
variable {cfg : LexCfg} (hp : Ascii cfg)
include hp

theorem isSpace_iff (c : Byte) : cfg.isSpace c = true ↔ c ∈ cfg.spaces :=
  findChar_iff (fun h e he => hp.ascii h e (by simp [he]))

theorem isQuote_iff (c : Byte) : cfg.isQuote c = true ↔ c ∈ cfg.quotes :=
  findChar_iff (fun h e he => hp.ascii h e (by simp [he]))

theorem isGroupChar_iff (c : Byte) : cfg.isGroupChar c = true ↔ c ∈ cfg.parens :=
  findChar_iff (fun h e he => hp.ascii h e (by simp [he]))

theorem isGroupSeparator_iff (c : Byte) :
    cfg.isGroupSeparator c = true ↔ Separator (delims cfg) c := by
  unfold LexCfg.isGroupSeparator Separator
  have h1 := isSpace_iff hp c
  have h2 : findChar cfg.charSigned cfg.seps c = true ↔ c ∈ cfg.seps :=
    findChar_iff (fun h e he => hp.ascii h e (by simp [he]))
  split
  · rename_i hs
    simp [delims, h1.1 hs]
  · rename_i hs
    rw [h2]
    have : c ∉ cfg.spaces := fun h => hs (h1.2 h)
    simp [delims, this]

end

section
variable {cfg : LexCfg} (hp : Proper cfg)
include hp

theorem charType_space {c : Byte} : cfg.getCharType c = .space ↔ c ∈ cfg.spaces := by
  unfold LexCfg.getCharType
  have h1 := isSpace_iff hp.toAscii c
  have h2 := hp.noAssign.2.2.2
  split
  · rename_i h; subst h; simp [h2]
  · split
    · simp_all
    · repeat' split
      all_goals simp_all

theorem charType_group {c : Byte} : cfg.getCharType c = .group ↔ c ∈ cfg.parens := by
  unfold LexCfg.getCharType
  have h1 := isSpace_iff hp.toAscii c
  have h3 := isGroupChar_iff hp.toAscii c
  have h2 := hp.noAssign.1
  split
  · rename_i h; subst h; simp [h2]
  · split
    · rename_i h; have := hp.spaceParen c (h1.1 h); simp [this]
    · repeat' split
      all_goals simp_all

theorem charType_quote {c : Byte} : cfg.getCharType c = .quote ↔ c ∈ cfg.quotes := by
  unfold LexCfg.getCharType
  have h1 := isSpace_iff hp.toAscii c
  have h3 := isGroupChar_iff hp.toAscii c
  have h4 := isQuote_iff hp.toAscii c
  have h2 := hp.noAssign.2.1
  split
  · rename_i h; subst h; simp [h2]
  · split
    · rename_i h; have := hp.spaceQuote c (h1.1 h); simp [this]
    · split
      · rename_i h; have := hp.parenQuote c (h3.1 h); simp [this]
      · split <;> simp_all

omit hp in
theorem charType_assignment {c : Byte} : cfg.getCharType c = .assignment ↔ c = 61 := by
  unfold LexCfg.getCharType
  repeat' split
  all_goals simp_all

theorem charType_string {c : Byte} : cfg.getCharType c = .string ↔ Ordinary (delims cfg) c := by
  unfold Ordinary
  have h1 := charType_space hp (c := c)
  have h2 := charType_group hp (c := c)
  have h3 := charType_quote hp (c := c)
  have h4 := charType_assignment (cfg := cfg) (c := c)
  simp only [delims]
  rw [← h1, ← h2, ← h3, Ne, ← h4]
  cases cfg.getCharType c <;> simp

end

theorem scanFrom_append {p : Byte → Bool} {a b : Bytes} {i : Nat}
    (ha : ∀ c ∈ a, p c = true) (hb : ∀ c, b.head? = some c → p c = false) :
    scanFrom p (a ++ b) i = i + a.length := by
  induction a generalizing i with
  | nil =>
    cases b with
    | nil => simp [scanFrom]
    | cons c t =>
      have := hb c (by simp)
      simp [scanFrom, this]
  | cons c t ih =>
    have h1 : p c = true := ha c (by simp)
    simp [scanFrom, h1]
    rw [ih (fun c hc => ha c (by simp [hc]))]
    omega

theorem scanWordFrom_append {cfg : LexCfg} {a b : Bytes} {i : Nat} {t : TokenType}
    (ha : ∀ c ∈ a, cfg.getCharType c = .string)
    (hb : ∀ c, b.head? = some c → cfg.getCharType c ≠ .string) :
    scanWordFrom cfg (a ++ b) i t =
      (i + a.length, if a.any cfg.isGroupSeparator then .groupString else t) := by
  induction a generalizing i t with
  | nil =>
    cases b with
    | nil => simp [scanWordFrom]
    | cons c u =>
      have := hb c (by simp)
      simp [scanWordFrom, this]
  | cons c u ih =>
    have h1 : cfg.getCharType c = .string := ha c (by simp)
    simp only [List.cons_append, scanWordFrom, h1, if_true]
    rw [ih (fun c hc => ha c (by simp [hc]))]
    simp only [List.length_cons, List.any_cons, Prod.mk.injEq]
    refine ⟨by omega, ?_⟩
    by_cases h2 : cfg.isGroupSeparator c = true <;> simp [h2]

theorem drop_eq_cons {α : Type u} {l : List α} {i : Nat} {c : α} {r : List α}
    (h : l.drop i = c :: r) : i < l.length ∧ l[i]? = some c ∧ l.drop (i + 1) = r := by
  have hlt : i < l.length := by
    rcases Nat.lt_or_ge i l.length with h' | h'
    · exact h'
    · rw [List.drop_of_length_le h'] at h; cases h
  refine ⟨hlt, ?_, ?_⟩
  · have : (l.drop i)[0]? = some c := by rw [h]; rfl
    simpa using this
  · have := congrArg (List.drop 1) h
    simpa [List.drop_drop] using this

theorem drop_add_of_append {α : Type u} {l a b : List α} {i : Nat}
    (h : l.drop i = a ++ b) : l.drop (i + a.length) = b := by
  have := congrArg (List.drop a.length) h
  simpa [List.drop_drop] using this

theorem drop_length_eq {α : Type u} {l a b : List α} {i : Nat} (hi : i ≤ l.length)
    (h : l.drop i = a ++ b) : l.length = i + a.length + b.length := by
  have := congrArg List.length h
  simp at this
  omega

theorem view_read_of_drop {l a b : Bytes} {i : Nat} (hi : i ≤ l.length)
    (h : l.drop i = a ++ b) : (⟨i, a.length⟩ : View).read l = .ok a := by
  have := drop_length_eq hi h
  unfold View.read
  simp only
  rw [if_pos (by omega), h]
  simp

end Coil
