import Verif.Spec.LexCfg
import Verif.Proofs.LexMain

/-! # Any configuration is one for the tokens and one for the compound values -/

namespace Coil
open Spec

/-- The configuration that tokenizes like `cfg`. -/
def outerCfg (cfg : LexCfg) : LexCfg where
  parens := (outside cfg).parens
  quotes := (outside cfg).quotes
  seps := (outside cfg).seps
  spaces := (outside cfg).spaces
  charSigned := cfg.charSigned

/-- The configuration that splits compound values like `cfg`. -/
def innerCfg (cfg : LexCfg) : LexCfg where
  parens := (inside cfg).parens
  quotes := (inside cfg).quotes
  seps := (inside cfg).seps
  spaces := (inside cfg).spaces
  charSigned := cfg.charSigned

variable {cfg : LexCfg} {s : Bytes}

theorem findChar_eq (signed : Bool) (set : Bytes) (c : Byte) :
    findChar signed set c = true ↔ c ∈ set ∧ (signed = false ∨ c < 128) := by
  unfold findChar charEq
  rw [List.any_eq_true]
  constructor
  · rintro ⟨e, he, hc⟩
    cases signed
    · simp at hc; exact ⟨hc ▸ he, .inl rfl⟩
    · simp at hc; exact ⟨hc.2 ▸ he, .inr (hc.2 ▸ hc.1)⟩
  · rintro ⟨h, h'⟩
    refine ⟨c, h, ?_⟩
    rcases h' with rfl | h'
    · simp
    · cases signed <;> simp [h']

theorem recognised_iff {c : Byte} : recognised cfg c = true ↔ (cfg.charSigned = false ∨ c < 128) := by
  simp [recognised]

theorem outer_proper (cfg : LexCfg) : Proper (outerCfg cfg) := by
  constructor
  · refine ⟨fun h c hc => ?_⟩
    simp only [outerCfg] at h
    simp only [outerCfg, outside, List.mem_filter, Bool.and_eq_true, recognised_iff, h] at hc
    rcases hc with hc | hc | hc | hc <;> simp at hc
    · exact hc.2.1.1
    · exact hc.2.1.1.1
    · exact hc.2.1.1.1.1
    · exact hc.2.1
  · simp [outerCfg, outside, List.mem_filter]
  · intro c; simp only [outerCfg, outside, List.mem_filter, Bool.and_eq_true, Bool.not_eq_true', List.contains_eq_mem, decide_eq_false_iff_not]
    rintro ⟨h, -⟩ ⟨-, h'⟩; exact h'.2 h
  · intro c; simp only [outerCfg, outside, List.mem_filter, Bool.and_eq_true, Bool.not_eq_true', List.contains_eq_mem, decide_eq_false_iff_not]
    rintro ⟨h, -⟩ ⟨-, h'⟩; exact h'.1.2 h
  · intro c; simp only [outerCfg, outside, List.mem_filter, Bool.and_eq_true, Bool.not_eq_true', List.contains_eq_mem, decide_eq_false_iff_not]
    rintro ⟨h, -⟩ ⟨-, h'⟩; exact h'.2 h
  · intro c; simp only [outerCfg, outside, List.mem_filter, Bool.and_eq_true, Bool.not_eq_true', List.contains_eq_mem, decide_eq_false_iff_not]
    rintro ⟨-, h⟩ ⟨h', -⟩; exact h.2 h'
  · intro c; simp only [outerCfg, outside, List.mem_filter, Bool.and_eq_true, Bool.not_eq_true', List.contains_eq_mem, decide_eq_false_iff_not]
    rintro ⟨-, h⟩ ⟨h', -⟩; exact h.1.2 h'

theorem inner_ascii (cfg : LexCfg) : Ascii (innerCfg cfg) := by
  refine ⟨fun h c hc => ?_⟩
  simp only [innerCfg] at h
  simp only [innerCfg, inside, List.mem_filter, recognised_iff, h] at hc
  rcases hc with hc | hc | hc | hc <;> simp at hc <;> exact hc.2

theorem outer_charType (c : Byte) : (outerCfg cfg).getCharType c = cfg.getCharType c := by
  have e1 := charType_space (outer_proper cfg) (c := c)
  have e2 := charType_group (outer_proper cfg) (c := c)
  have e3 := charType_quote (outer_proper cfg) (c := c)
  have e4 := charType_assignment (cfg := outerCfg cfg) (c := c)
  have s1 : cfg.isSpace c = true ↔ _ := findChar_eq ..
  have s2 : cfg.isGroupChar c = true ↔ _ := findChar_eq ..
  have s3 : cfg.isQuote c = true ↔ _ := findChar_eq ..
  generalize (outerCfg cfg).getCharType c = x at e1 e2 e3 e4 ⊢
  simp only [outerCfg, outside, List.mem_filter, Bool.and_eq_true, recognised_iff, Bool.not_eq_true', List.contains_eq_mem,
    decide_eq_false_iff_not, bne_iff_ne, ne_eq] at e1 e2 e3
  unfold LexCfg.getCharType
  by_cases h61 : c = 61
  · rw [if_pos h61]; exact e4.2 h61
  rw [if_neg h61]
  by_cases h1 : cfg.isSpace c = true
  · rw [if_pos h1]; exact e1.2 ⟨(s1.1 h1).1, (s1.1 h1).2, h61⟩
  rw [if_neg h1]
  have n1 : (cfg.charSigned = false ∨ c < 128) → c ∉ cfg.spaces := fun hr hm => h1 (s1.2 ⟨hm, hr⟩)
  by_cases h2 : cfg.isGroupChar c = true
  · rw [if_pos h2]
    have := s2.1 h2
    exact e2.2 ⟨this.1, ⟨this.2, h61⟩, n1 this.2⟩
  rw [if_neg h2]
  have n2 : (cfg.charSigned = false ∨ c < 128) → c ∉ cfg.parens := fun hr hm => h2 (s2.2 ⟨hm, hr⟩)
  by_cases h3 : cfg.isQuote c = true
  · rw [if_pos h3]
    have := s3.1 h3
    exact e3.2 ⟨this.1, ⟨⟨this.2, h61⟩, n1 this.2⟩, n2 this.2⟩
  rw [if_neg h3]
  cases x with
  | string => rfl
  | space => exact absurd (s1.2 ⟨(e1.1 rfl).1, (e1.1 rfl).2.1⟩) h1
  | group => exact absurd (s2.2 ⟨(e2.1 rfl).1, (e2.1 rfl).2.1.1⟩) h2
  | quote => exact absurd (s3.2 ⟨(e3.1 rfl).1, (e3.1 rfl).2.1.1.1⟩) h3
  | assignment => exact absurd (e4.1 rfl) h61

theorem outer_separator {c : Byte} (h : cfg.getCharType c = .string) :
    (outerCfg cfg).isGroupSeparator c = cfg.isGroupSeparator c := by
  rw [Bool.eq_iff_iff, isGroupSeparator_iff (outer_proper cfg).toAscii]
  have h61 : c ≠ 61 := fun e => by rw [(charType_assignment (cfg := cfg)).2 e] at h; cases h
  unfold LexCfg.getCharType at h
  rw [if_neg h61] at h
  have h1 : ¬ cfg.isSpace c = true := fun e => by rw [if_pos e] at h; cases h
  rw [if_neg h1] at h
  have h2 : ¬ cfg.isGroupChar c = true := fun e => by rw [if_pos e] at h; cases h
  rw [if_neg h2] at h
  have h3 : ¬ cfg.isQuote c = true := fun e => by rw [if_pos e] at h; cases h
  unfold LexCfg.isGroupSeparator
  rw [if_neg h1, findChar_eq]
  have s1 : cfg.isSpace c = true ↔ _ := findChar_eq ..
  have s2 : cfg.isGroupChar c = true ↔ _ := findChar_eq ..
  have s3 : cfg.isQuote c = true ↔ _ := findChar_eq ..
  simp only [Separator, delims, outerCfg, outside, List.mem_filter, Bool.and_eq_true, recognised_iff, Bool.not_eq_true', List.contains_eq_mem,
    decide_eq_false_iff_not, bne_iff_ne, ne_eq]
  rw [s1] at h1
  rw [s2] at h2
  rw [s3] at h3
  constructor
  · rintro (⟨a, b, -⟩ | ⟨a, ⟨⟨⟨⟨b, -⟩, -⟩, -⟩, -⟩⟩)
    · exact absurd ⟨a, b⟩ h1
    · exact ⟨a, b⟩
  · rintro ⟨a, b⟩
    exact .inr ⟨a, ⟨⟨⟨b, h61⟩, fun x => h1 ⟨x, b⟩⟩, fun x => h2 ⟨x, b⟩⟩, fun x => h3 ⟨x, b⟩⟩

theorem outer_scanWordFrom (t : Bytes) (i : Nat) (ty : TokenType) :
    scanWordFrom (outerCfg cfg) t i ty = scanWordFrom cfg t i ty := by
  induction t generalizing i ty with
  | nil => rfl
  | cons c t ih =>
    unfold scanWordFrom
    rw [outer_charType]
    split
    · rename_i h
      rw [outer_separator h, ih]
    · rfl

theorem outer_isType (ty : CharType) : (outerCfg cfg).isType ty = cfg.isType ty := by
  funext c
  simp [LexCfg.isType, outer_charType]

theorem outer_tokLoop (fuel i : Nat) (toks : List Token) : tokLoop (outerCfg cfg) s fuel i toks = tokLoop cfg s fuel i toks := by
  induction fuel generalizing i toks with
  | zero => rfl
  | succ fuel ih =>
    unfold tokLoop
    simp only [outer_isType, outer_charType, scanWord, outer_scanWordFrom, ih]

theorem outer_tokenize : tokenize (outerCfg cfg) s = tokenize cfg s := outer_tokLoop ..

theorem inner_isQuote (c : Byte) : (innerCfg cfg).isQuote c = cfg.isQuote c := by
  have h : cfg.isQuote c = true ↔ _ := findChar_eq ..
  rw [Bool.eq_iff_iff, isQuote_iff (inner_ascii cfg), h]
  simp [innerCfg, inside, List.mem_filter, recognised_iff]

theorem inner_separator (c : Byte) : (innerCfg cfg).isGroupSeparator c = cfg.isGroupSeparator c := by
  have h : cfg.isSpace c = true ↔ _ := findChar_eq ..
  rw [Bool.eq_iff_iff, isGroupSeparator_iff (inner_ascii cfg)]
  unfold LexCfg.isGroupSeparator
  simp only [Separator, delims, innerCfg, inside, List.mem_filter, recognised_iff]
  split
  · rename_i hs
    simp only [iff_true]
    exact .inl (h.1 hs)
  · rename_i hs
    rw [h] at hs
    rw [findChar_eq]
    exact ⟨fun x => x.resolve_left hs, .inr⟩

theorem inner_scanPieceFrom (t : Bytes) (i : Nat) (q : Bool) : scanPieceFrom (innerCfg cfg) t i q = scanPieceFrom cfg t i q := by
  induction t generalizing i q with
  | nil => rfl
  | cons c t ih => simp only [scanPieceFrom, inner_separator, inner_isQuote, ih]

theorem inner_isGroupSeparator : (innerCfg cfg).isGroupSeparator = cfg.isGroupSeparator := funext inner_separator

theorem inner_splitLoop {v : View} (fuel i : Nat) (r : List View) :
    splitLoop (innerCfg cfg) s v fuel i r = splitLoop cfg s v fuel i r := by
  induction fuel generalizing i r with
  | zero => rfl
  | succ fuel ih =>
    unfold splitLoop
    simp only [inner_isGroupSeparator, scanPiece, inner_scanPieceFrom, inner_isQuote, ih]

theorem inner_createValue (t : Token) : createValue (innerCfg cfg) s t = createValue cfg s t := by
  simp only [createValue, splitGroup, inner_splitLoop]

theorem inner_addCurrent (st : ParseSt) (t : Option Token) : addCurrent (innerCfg cfg) s st t = addCurrent cfg s st t := by
  simp only [addCurrent, inner_createValue]

theorem inner_parseLoop (toks : List Token) (st : ParseSt) : parseLoop (innerCfg cfg) s toks st = parseLoop cfg s toks st := by
  induction toks generalizing st with
  | nil => simp only [parseLoop, inner_addCurrent]
  | cons t ts ih => simp only [parseLoop, parseStep, inner_addCurrent, ih]

theorem inner_parseTokens (toks : List Token) : parseTokens (innerCfg cfg) s toks = parseTokens cfg s toks := by
  unfold parseTokens
  simp only [inner_parseLoop]

/-- Parsing is tokenizing with one configuration and splitting with the other. -/
theorem lexParse_two : lexParse cfg s = (do
    match ← tokenize (outerCfg cfg) s with
    | .error e => .ok (.error e)
    | .ok toks => parseTokens (innerCfg cfg) s toks) := by
  unfold lexParse
  simp only [outer_tokenize, inner_parseTokens]
  rfl

theorem delims_outer : delims (outerCfg cfg) = outside cfg := rfl

theorem delims_inner : delims (innerCfg cfg) = inside cfg := rfl

theorem lexRead_acceptsBy {i : GInput Bytes} (h : AcceptsBy (outside cfg) (inside cfg) s i) : lexRead cfg s = .ok (.ok i) := by
  obtain ⟨ts, ht, hc⟩ := h
  obtain ⟨toks, hm, htok⟩ := tokenize_of_tokens (outer_proper cfg) ht
  cases hc with
  | empty =>
    cases hm
    simp [lexRead, lexParse_two, htok, parseTokens, GInput.read, View.read, readArgs, readNamed]
  | cmd hi =>
    cases hm with
    | @cons t _ toks _ h1 h2 =>
      obtain ⟨as, nas, ha, hra, hrn⟩ := adds_of_items (inner_ascii cfg) hi toks h2
      simp [lexRead, lexParse_two, htok, parseTokens, h1.1, ha.eq, GInput.read, h1.2, hra, hrn]

theorem lexRead_rejectsBy {e : Bytes} (h : Rejects (outside cfg) s e) : lexRead cfg s = .ok (.error e) := by
  rcases h with ⟨ts, ht, hb⟩ | ⟨q, hq, rfl⟩ | ⟨q, hq, rfl⟩
  · obtain ⟨toks, hm, htok⟩ := tokenize_of_tokens (outer_proper cfg) ht
    cases hb with
    | assignFirst =>
      cases hm with
      | @cons t _ toks _ h1 h2 =>
        simp [lexRead, lexParse_two, htok, parseTokens, h1.1, h1.2, errBeginning]
        decide
    | compoundFirst =>
      cases hm with
      | @cons t _ toks _ h1 h2 =>
        simp [lexRead, lexParse_two, htok, parseTokens, h1.1, h1.2, errBeginning, cstr]
    | items hb =>
      cases hm with
      | @cons t _ toks _ h1 h2 =>
        simp [lexRead, lexParse_two, htok, parseTokens, h1.1, parseLoop_of_badItems (inner_ascii cfg) hb toks _ h2]
  · simp [lexRead, lexParse_two, tokenize_of_unmatchedQuote (outer_proper cfg) hq, errQuote]
  · simp [lexRead, lexParse_two, tokenize_of_unmatchedParen (outer_proper cfg) hq, errGroup]

theorem lexRead_loneBy (hlen : s.length < 2 ^ 64 - 1) (h : LoneQuoteBy (outside cfg) (inside cfg) s) : lexRead cfg s = .ub .oobRead := by
  obtain ⟨n, ts, vs, g, ht, hs, hg, hl⟩ := h
  obtain ⟨toks, hm, htok⟩ := tokenize_of_tokens (outer_proper cfg) ht
  cases hm with
  | @cons t _ toks _ h1 h2 =>
    obtain ⟨as, nas, ha, hr⟩ := adds_of_lone (inner_ascii cfg) hlen hs toks h2 ⟨g, hg, hl⟩
    rcases hr with hr | ⟨⟨ps, hr⟩, hr'⟩
    · simp [lexRead, lexParse_two, htok, parseTokens, h1.1, ha.eq, GInput.read, h1.2, hr]
    · simp [lexRead, lexParse_two, htok, parseTokens, h1.1, ha.eq, GInput.read, h1.2, hr, hr']

theorem commandBy_total (o d : Delims) (s : Bytes) :
    (∃ i, AcceptsBy o d s i) ∨ (∃ e, Rejects o s e) ∨ LoneQuoteBy o d s := by
  rcases tokens_total (d := o) s with ⟨ts, ht⟩ | ⟨q, hq⟩ | ⟨q, hq⟩
  · match ts with
    | [] => exact .inl ⟨_, _, ht, .empty⟩
    | .assign :: ts => exact .inr (.inl ⟨_, .inl ⟨_, ht, .assignFirst⟩⟩)
    | .compound g :: ts => exact .inr (.inl ⟨_, .inl ⟨_, ht, .compoundFirst⟩⟩)
    | .word n :: ts =>
      rcases shape_total ts with ⟨vs, h⟩ | ⟨e, h⟩
      · rcases items_of_shape (d := d) h with ⟨ps, ns, hi⟩ | ⟨g, h1, h2⟩
        · exact .inl ⟨_, _, ht, .cmd hi⟩
        · exact .inr (.inr ⟨n, ts, vs, g, ht, h, h1, h2⟩)
      · exact .inr (.inl ⟨_, .inl ⟨_, ht, .items h⟩⟩)
  · exact .inr (.inl ⟨_, .inr (.inl ⟨q, hq, rfl⟩)⟩)
  · exact .inr (.inl ⟨_, .inr (.inr ⟨q, hq, rfl⟩)⟩)

theorem lexRead_any (cfg : LexCfg) (hlen : s.length < 2 ^ 64 - 1) :
    (∀ i, lexRead cfg s = .ok (.ok i) ↔ AcceptsBy (outside cfg) (inside cfg) s i) ∧
    (∀ e, lexRead cfg s = .ok (.error e) ↔ Rejects (outside cfg) s e) ∧
    ∀ u, lexRead cfg s = .ub u ↔ u = .oobRead ∧ LoneQuoteBy (outside cfg) (inside cfg) s := by
  rcases commandBy_total (outside cfg) (inside cfg) s with ⟨j, hj⟩ | ⟨e, he⟩ | hl
  · have h0 := lexRead_acceptsBy hj
    refine ⟨fun i => ⟨fun h => ?_, lexRead_acceptsBy⟩, fun e => ⟨fun h => ?_, lexRead_rejectsBy⟩,
      fun u => ⟨fun h => ?_, fun h => h.1 ▸ lexRead_loneBy hlen h.2⟩⟩
    · rw [h0] at h; simp at h; exact h ▸ hj
    · rw [h0] at h; simp at h
    · rw [h0] at h; simp at h
  · have h0 := lexRead_rejectsBy he
    refine ⟨fun i => ⟨fun h => ?_, lexRead_acceptsBy⟩, fun e => ⟨fun h => ?_, lexRead_rejectsBy⟩,
      fun u => ⟨fun h => ?_, fun h => h.1 ▸ lexRead_loneBy hlen h.2⟩⟩
    · rw [h0] at h; simp at h
    · rw [h0] at h; simp at h; exact h ▸ he
    · rw [h0] at h; simp at h
  · have h0 := lexRead_loneBy hlen hl
    refine ⟨fun i => ⟨fun h => ?_, lexRead_acceptsBy⟩, fun e => ⟨fun h => ?_, lexRead_rejectsBy⟩,
      fun u => ⟨fun h => ?_, fun h => h.1 ▸ lexRead_loneBy hlen h.2⟩⟩
    · rw [h0] at h; simp at h
    · rw [h0] at h; simp at h
    · rw [h0] at h; simp at h; exact ⟨h.symm, hl⟩

end Coil
