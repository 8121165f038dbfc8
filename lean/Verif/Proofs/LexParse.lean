import Verif.Proofs.LexSplit

/-! # The argument loop computes the grammar of commands -/

namespace Coil
open Spec

section
variable {cfg : LexCfg} {mem : Bytes}

theorem createValue_of_tokValue (hp : Ascii cfg) {t : Token} {st : Tok} {v : GValue Bytes}
    (hm : TokMatches mem t st) (h : TokValue (delims cfg) st v) :
    ∃ gv, createValue cfg mem t = .ok gv ∧ gv.read mem = .ok v := by
  cases h with
  | word => exact ⟨⟨[t.value]⟩, by simp [createValue, hm.1], by simp [GValue.read, readViews, hm.2]⟩
  | compound h =>
    obtain ⟨vs, h1, h2⟩ := splitGroup_of_subValues hp hm.2 h
    exact ⟨⟨vs⟩, by simp [createValue, hm.1, h1], by simp [GValue.read, h2]⟩

theorem createValue_of_lone (hp : Ascii cfg) (hmem : mem.length < 2 ^ 64 - 1) {t : Token} {g : Bytes}
    (hm : TokMatches mem t (.compound g)) (h : LoneQuote (delims cfg) g) :
    ∃ gv, createValue cfg mem t = .ok gv ∧ gv.read mem = .ub .oobRead := by
  obtain ⟨vs, h1, h2⟩ := splitGroup_of_lone hp hmem hm.2 h
  exact ⟨⟨vs⟩, by simp [createValue, hm.1, h1], by simp [GValue.read, h2]⟩

theorem createValue_isOk (hp : Ascii cfg) {t : Token} {st : Tok} {k : Bytes}
    (hm : TokMatches mem t st) (h : TokText st k) : ∃ gv, createValue cfg mem t = .ok gv := by
  cases h with
  | word => exact ⟨⟨[t.value]⟩, by simp [createValue, hm.1]⟩
  | compound =>
    obtain ⟨vs, ps, h1, -⟩ := splitGroup_isOk hp hm.2
    exact ⟨⟨vs⟩, by simp [createValue, hm.1, h1]⟩

theorem TokMatches.not_assignment {t : Token} {st : Tok} {k : Bytes} (hm : TokMatches mem t st)
    (h : TokText st k) : t.type ≠ .assignment := by
  cases h <;> simp [hm.1]

theorem TokMatches.read_text {t : Token} {st : Tok} {k : Bytes} (hm : TokMatches mem t st)
    (h : TokText st k) : t.value.read mem = .ok k := by
  cases h <;> exact hm.2

theorem tokValue_tokText {d : Delims} {t : Tok} {v : GValue Bytes} (h : TokValue d t v) :
    ∃ k, TokText t k := by
  cases h
  · exact ⟨_, .word⟩
  · exact ⟨_, .compound⟩

theorem parseLoop_flush {toks : List Token} {p : Token} {inp : GInput View} {gv : GValue View}
    (hc : createValue cfg mem p = .ok gv)
    (hh : ∀ t, toks.head? = some t → t.type ≠ .assignment) :
    parseLoop cfg mem toks ⟨some p, false, inp⟩ =
      parseLoop cfg mem toks ⟨none, false, { inp with arguments := inp.arguments ++ [gv] }⟩ := by
  cases toks with
  | nil => simp [parseLoop, addCurrent, hc]
  | cons t ts =>
    have := hh t (by simp)
    cases ht : t.type with
    | assignment => exact absurd ht this
    | string => simp [parseLoop, parseStep, ht, addCurrent, hc]
    | groupString => simp [parseLoop, parseStep, ht, addCurrent, hc]

theorem parseLoop_take {t : Token} {toks : List Token} {inp : GInput View}
    (ht : t.type ≠ .assignment) :
    parseLoop cfg mem (t :: toks) ⟨none, false, inp⟩ = parseLoop cfg mem toks ⟨some t, false, inp⟩ := by
  cases h : t.type with
  | assignment => exact absurd h ht
  | string => simp [parseLoop, parseStep, h]
  | groupString => simp [parseLoop, parseStep, h]

theorem parseLoop_named {t a t' : Token} {toks : List Token} {inp : GInput View} {gv : GValue View}
    (ht : t.type ≠ .assignment) (ha : a.type = .assignment) (ht' : t'.type ≠ .assignment)
    (hc : createValue cfg mem t' = .ok gv) :
    parseLoop cfg mem (t :: a :: t' :: toks) ⟨none, false, inp⟩ =
      parseLoop cfg mem toks ⟨none, false,
        { inp with namedArguments := inp.namedArguments ++ [⟨t.value, gv⟩] }⟩ := by
  rw [parseLoop_take ht]
  cases h : t'.type with
  | assignment => exact absurd h ht'
  | string => simp [parseLoop, parseStep, h, ha, addCurrent, hc]
  | groupString => simp [parseLoop, parseStep, h, ha, addCurrent, hc]

/-- What the argument loop adds to the input. -/
structure Adds (cfg : LexCfg) (mem : Bytes) (toks : List Token) (as : List (GValue View))
    (ns : List (GNamed View)) : Prop where
  eq : ∀ inp, parseLoop cfg mem toks ⟨none, false, inp⟩ =
    .ok (.ok { inp with arguments := inp.arguments ++ as, namedArguments := inp.namedArguments ++ ns })

theorem Adds.nil : Adds cfg mem [] [] [] := ⟨by intro inp; simp [parseLoop, addCurrent]⟩

theorem Adds.positional {t : Token} {toks : List Token} {gv : GValue View} {as : List (GValue View)}
    {ns : List (GNamed View)} (ht : t.type ≠ .assignment) (hc : createValue cfg mem t = .ok gv)
    (hh : ∀ t, toks.head? = some t → t.type ≠ .assignment) (h : Adds cfg mem toks as ns) :
    Adds cfg mem (t :: toks) (gv :: as) ns := by
  constructor
  intro inp
  rw [parseLoop_take ht, parseLoop_flush hc hh, h.eq]
  simp

theorem Adds.named {t a t' : Token} {toks : List Token} {gv : GValue View} {as : List (GValue View)}
    {ns : List (GNamed View)} (ht : t.type ≠ .assignment) (ha : a.type = .assignment)
    (ht' : t'.type ≠ .assignment) (hc : createValue cfg mem t' = .ok gv) (h : Adds cfg mem toks as ns) :
    Adds cfg mem (t :: a :: t' :: toks) as (⟨t.value, gv⟩ :: ns) := by
  constructor
  intro inp
  rw [parseLoop_named ht ha ht' hc, h.eq]
  simp

theorem Shape.head {ts vs : List Tok} (h : Shape ts vs) : ts.head? ≠ some .assign := by
  intro hh
  cases h with
  | nil => simp at hh
  | positional ht _ => simp at hh; subst hh; cases ht
  | named ht _ _ => simp at hh; subst hh; cases ht

theorem Items.shape {d : Delims} {ts : List Tok} {ps : List (GValue Bytes)} {ns : List (GNamed Bytes)}
    (h : Items d ts ps ns) : ∃ vs, Shape ts vs := by
  induction h with
  | nil => exact ⟨[], .nil⟩
  | positional hv _ ih =>
    obtain ⟨vs, ih⟩ := ih
    obtain ⟨k, hk⟩ := tokValue_tokText hv
    exact ⟨_, .positional hk ih⟩
  | named hk hv _ ih =>
    obtain ⟨vs, ih⟩ := ih
    obtain ⟨k', hk'⟩ := tokValue_tokText hv
    exact ⟨_, .named hk hk' ih⟩

theorem head_not_assignment {toks : List Token} {ts : List Tok}
    (hm : Forall2 (TokMatches mem) toks ts) (h : ts.head? ≠ some .assign) :
    ∀ t, toks.head? = some t → t.type ≠ .assignment := by
  intro t ht
  cases hm with
  | nil => simp at ht
  | @cons a b _ _ h1 _ =>
    simp at ht
    subst ht
    cases b with
    | word => simp [h1.1]
    | compound => simp [h1.1]
    | assign => simp at h

theorem adds_of_items (hp : Ascii cfg) {ts : List Tok} {ps : List (GValue Bytes)}
    {ns : List (GNamed Bytes)} (h : Items (delims cfg) ts ps ns) :
    ∀ toks, Forall2 (TokMatches mem) toks ts →
      ∃ as nas, Adds cfg mem toks as nas ∧ readArgs mem as = .ok ps ∧ readNamed mem nas = .ok ns := by
  induction h with
  | nil =>
    intro toks hm
    cases hm
    exact ⟨[], [], .nil, rfl, rfl⟩
  | positional hv hrest ih =>
    intro toks hm
    cases hm with
    | @cons t _ toks _ h1 h2 =>
      obtain ⟨gv, hc, hr⟩ := createValue_of_tokValue hp h1 hv
      obtain ⟨k, hk⟩ := tokValue_tokText hv
      obtain ⟨as, nas, ha, hra, hrn⟩ := ih toks h2
      obtain ⟨vs, hs⟩ := Items.shape hrest
      refine ⟨gv :: as, nas, .positional (h1.not_assignment hk) hc (head_not_assignment h2 (Shape.head hs)) ha, ?_, hrn⟩
      simp [readArgs, hr, hra]
  | named hk hv hrest ih =>
    intro toks hm
    cases hm with
    | @cons t _ toks _ h1 h2 =>
    cases h2 with
    | @cons a _ toks _ h2 h3 =>
    cases h3 with
    | @cons t' _ toks _ h3 h4 =>
      obtain ⟨gv, hc, hr⟩ := createValue_of_tokValue hp h3 hv
      obtain ⟨k', hk'⟩ := tokValue_tokText hv
      obtain ⟨as, nas, ha, hra, hrn⟩ := ih toks h4
      refine ⟨as, ⟨t.value, gv⟩ :: nas, .named (h1.not_assignment hk) h2.1 (h3.not_assignment hk') hc ha, hra, ?_⟩
      simp [readNamed, hr, hrn, h1.read_text hk]

theorem parseLoop_of_badItems (hp : Ascii cfg) {ts : List Tok} {e : Bytes} (h : BadItems ts e) :
    ∀ toks inp, Forall2 (TokMatches mem) toks ts →
      parseLoop cfg mem toks ⟨none, false, inp⟩ = .ok (.error e) := by
  induction h with
  | noName =>
    intro toks inp hm
    cases hm with
    | @cons t _ toks _ h1 h2 => simp [parseLoop, parseStep, h1.1, errNoName]
  | twoAssign hk =>
    intro toks inp hm
    cases hm with
    | @cons t _ toks _ h1 h2 =>
    cases h2 with
    | @cons a _ toks _ h2 h3 =>
    cases h3 with
    | @cons t' _ toks _ h3 h4 =>
      rw [parseLoop_take (h1.not_assignment hk)]
      simp [parseLoop, parseStep, h2.1, h3.1, errFoundAssign]
  | noValue hk =>
    intro toks inp hm
    cases hm with
    | @cons t _ toks _ h1 h2 =>
    cases h2 with
    | @cons a _ toks _ h2 h3 =>
    cases h3
    rw [parseLoop_take (h1.not_assignment hk)]
    simp [parseLoop, parseStep, h2.1, errFoundEnd]
  | positional hk hh _ ih =>
    intro toks inp hm
    cases hm with
    | @cons t _ toks _ h1 h2 =>
      obtain ⟨gv, hc⟩ := createValue_isOk hp h1 hk
      rw [parseLoop_take (h1.not_assignment hk), parseLoop_flush hc (head_not_assignment h2 hh), ih _ _ h2]
  | named hk hk' _ ih =>
    intro toks inp hm
    cases hm with
    | @cons t _ toks _ h1 h2 =>
    cases h2 with
    | @cons a _ toks _ h2 h3 =>
    cases h3 with
    | @cons t' _ toks _ h3 h4 =>
      obtain ⟨gv, hc⟩ := createValue_isOk hp h3 hk'
      rw [parseLoop_named (h1.not_assignment hk) h2.1 (h3.not_assignment hk') hc, ih _ _ h4]

theorem adds_of_lone (hp : Ascii cfg) (hmem : mem.length < 2 ^ 64 - 1) {ts vs : List Tok}
    (h : Shape ts vs) :
    ∀ toks, Forall2 (TokMatches mem) toks ts → (∃ g, Tok.compound g ∈ vs ∧ LoneQuote (delims cfg) g) →
      ∃ as nas, Adds cfg mem toks as nas ∧
        (readArgs mem as = .ub .oobRead ∨
          ((∃ ps, readArgs mem as = .ok ps) ∧ readNamed mem nas = .ub .oobRead)) := by
  -- the same without assuming that there is a lone quote
  have all : ∀ {ts vs : List Tok}, Shape ts vs → ∀ toks, Forall2 (TokMatches mem) toks ts →
      ∃ as nas, Adds cfg mem toks as nas ∧
        ((readArgs mem as = .ub .oobRead ∨ ∃ ps, readArgs mem as = .ok ps) ∧
         (readNamed mem nas = .ub .oobRead ∨ ∃ ns, readNamed mem nas = .ok ns) ∧
         ((∃ g, Tok.compound g ∈ vs ∧ LoneQuote (delims cfg) g) →
          readArgs mem as = .ub .oobRead ∨ readNamed mem nas = .ub .oobRead)) := by
    intro ts vs h
    -- reading one value token
    have one : ∀ {t : Token} {st : Tok} {k : Bytes}, TokMatches mem t st → TokText st k →
        ∃ gv, createValue cfg mem t = .ok gv ∧
          ((gv.read mem = .ub .oobRead) ∨
            ((∃ v, gv.read mem = .ok v) ∧ ∀ g, st = .compound g → ¬ LoneQuote (delims cfg) g)) := by
      intro t st k hm hk
      cases hk with
      | word =>
        obtain ⟨gv, h1, h2⟩ := createValue_of_tokValue hp hm .word
        exact ⟨gv, h1, .inr ⟨⟨_, h2⟩, by intro g h; cases h⟩⟩
      | compound =>
        by_cases hl : LoneQuote (delims cfg) k
        · obtain ⟨gv, h1, h2⟩ := createValue_of_lone hp hmem hm hl
          exact ⟨gv, h1, .inl h2⟩
        · rcases subValues_total (d := delims cfg) k with ⟨vs, hv⟩ | h
          · obtain ⟨gv, h1, h2⟩ := createValue_of_tokValue hp hm (.compound hv)
            refine ⟨gv, h1, .inr ⟨⟨_, h2⟩, ?_⟩⟩
            intro g h
            cases h
            exact hl
          · exact absurd h hl
    induction h with
    | nil =>
      intro toks hm
      cases hm
      exact ⟨[], [], .nil, .inr ⟨[], rfl⟩, .inr ⟨[], rfl⟩, by rintro ⟨g, hg, -⟩; simp at hg⟩
    | @positional st k ts vs hk hrest ih =>
      intro toks hm
      cases hm with
      | @cons t _ toks _ h1 h2 =>
        obtain ⟨gv, hc, hr⟩ := one h1 hk
        obtain ⟨as, nas, ha, hra, hrn, hl⟩ := ih toks h2
        refine ⟨gv :: as, nas, .positional (h1.not_assignment hk) hc (head_not_assignment h2 (Shape.head hrest)) ha, ?_, hrn, ?_⟩
        · rcases hr with hr | ⟨⟨v, hr⟩, -⟩
          · left; simp [readArgs, hr]
          · rcases hra with hra | ⟨ps, hra⟩
            · left; simp [readArgs, hr, hra]
            · right; exact ⟨v :: ps, by simp [readArgs, hr, hra]⟩
        · rintro ⟨g, hg, hlone⟩
          rcases hr with hr | ⟨⟨v, hr⟩, hno⟩
          · left; simp [readArgs, hr]
          · rcases List.mem_cons.1 hg with hg | hg
            · exact absurd hlone (hno g hg.symm)
            · rcases hl ⟨g, hg, hlone⟩ with h | h
              · left; simp [readArgs, hr, h]
              · right; exact h
    | @named st st' k k' ts vs hk hk' hrest ih =>
      intro toks hm
      cases hm with
      | @cons t _ toks _ h1 h2 =>
      cases h2 with
      | @cons a _ toks _ h2 h3 =>
      cases h3 with
      | @cons t' _ toks _ h3 h4 =>
        obtain ⟨gv, hc, hr⟩ := one h3 hk'
        obtain ⟨as, nas, ha, hra, hrn, hl⟩ := ih toks h4
        have hkey := h1.read_text hk
        refine ⟨as, ⟨t.value, gv⟩ :: nas, .named (h1.not_assignment hk) h2.1 (h3.not_assignment hk') hc ha, hra, ?_, ?_⟩
        · rcases hr with hr | ⟨⟨v, hr⟩, -⟩
          · left; simp [readNamed, hkey, hr]
          · rcases hrn with hrn | ⟨ps, hrn⟩
            · left; simp [readNamed, hkey, hr, hrn]
            · right; exact ⟨⟨k, v⟩ :: ps, by simp [readNamed, hkey, hr, hrn]⟩
        · rintro ⟨g, hg, hlone⟩
          rcases hr with hr | ⟨⟨v, hr⟩, hno⟩
          · right; simp [readNamed, hkey, hr]
          · rcases List.mem_cons.1 hg with hg | hg
            · exact absurd hlone (hno g hg.symm)
            · rcases hl ⟨g, hg, hlone⟩ with h | h
              · left; exact h
              · right; simp [readNamed, hkey, hr, h]
  intro toks hm hlone
  obtain ⟨as, nas, ha, hra, hrn, hl⟩ := all h toks hm
  refine ⟨as, nas, ha, ?_⟩
  rcases hra with hra | hra
  · exact .inl hra
  · rcases hl hlone with h | h
    · exact .inl h
    · exact .inr ⟨hra, h⟩

end

namespace Spec
variable {d : Delims}

theorem tok_cases (t : Tok) : t = .assign ∨ ∃ k, TokText t k := by
  cases t
  · exact .inr ⟨_, .word⟩
  · exact .inr ⟨_, .compound⟩
  · exact .inl rfl

/-- Every argument list is well-formed or is rejected. -/
theorem shape_total (ts : List Tok) : (∃ vs, Shape ts vs) ∨ ∃ e, BadItems ts e := by
  induction hn : ts.length using Nat.strongRecOn generalizing ts with
  | ind n ih =>
  subst hn
  match ts with
  | [] => exact .inl ⟨[], .nil⟩
  | t :: ts =>
    rcases tok_cases t with rfl | ⟨k, hk⟩
    · exact .inr ⟨_, .noName⟩
    · match ts with
      | [] => exact .inl ⟨[t], .positional hk .nil⟩
      | u :: ts =>
        rcases tok_cases u with rfl | ⟨k', hk'⟩
        · match ts with
          | [] => exact .inr ⟨_, .noValue hk⟩
          | w :: ts =>
            rcases tok_cases w with rfl | ⟨k', hk'⟩
            · exact .inr ⟨_, .twoAssign hk⟩
            · rcases ih ts.length (by simp; omega) ts rfl with ⟨vs, h⟩ | ⟨e, h⟩
              · exact .inl ⟨_, .named hk hk' h⟩
              · exact .inr ⟨_, .named hk hk' h⟩
        · rcases ih (u :: ts).length (by simp) (u :: ts) rfl with ⟨vs, h⟩ | ⟨e, h⟩
          · exact .inl ⟨_, .positional hk h⟩
          · refine .inr ⟨_, .positional hk ?_ h⟩
            simp
            rintro rfl
            cases hk'

theorem items_of_shape {ts vs : List Tok} (h : Shape ts vs) :
    (∃ ps ns, Items d ts ps ns) ∨ ∃ g, Tok.compound g ∈ vs ∧ LoneQuote d g := by
  have one : ∀ {t : Tok} {k : Bytes}, TokText t k →
      (∃ v, TokValue d t v) ∨ ∃ g, t = .compound g ∧ LoneQuote d g := by
    intro t k hk
    cases hk with
    | word => exact .inl ⟨_, .word⟩
    | compound =>
      rcases subValues_total (d := d) k with ⟨vs, hv⟩ | h
      · exact .inl ⟨_, .compound hv⟩
      · exact .inr ⟨k, rfl, h⟩
  induction h with
  | nil => exact .inl ⟨[], [], .nil⟩
  | positional hk _ ih =>
    rcases one hk with ⟨v, hv⟩ | ⟨g, rfl, hg⟩
    · rcases ih with ⟨ps, ns, h⟩ | ⟨g, h1, h2⟩
      · exact .inl ⟨_, _, .positional hv h⟩
      · exact .inr ⟨g, by simp [h1], h2⟩
    · exact .inr ⟨g, by simp, hg⟩
  | named hk hk' _ ih =>
    rcases one hk' with ⟨v, hv⟩ | ⟨g, rfl, hg⟩
    · rcases ih with ⟨ps, ns, h⟩ | ⟨g, h1, h2⟩
      · exact .inl ⟨_, _, .named hk hv h⟩
      · exact .inr ⟨g, by simp [h1], h2⟩
    · exact .inr ⟨g, by simp, hg⟩

/-- Every text is accepted, or rejected, or has a lone quote in a compound value. -/
theorem command_total (s : Bytes) : (∃ i, Accepts d s i) ∨ (∃ e, Rejects d s e) ∨ LoneQuoteCommand d s := by
  rcases tokens_total (d := d) s with ⟨ts, ht⟩ | ⟨q, hq⟩ | ⟨q, hq⟩
  · match ts with
    | [] => exact .inl ⟨_, _, ht, .empty⟩
    | .assign :: ts => exact .inr (.inl ⟨_, .inl ⟨_, ht, .assignFirst⟩⟩)
    | .compound g :: ts => exact .inr (.inl ⟨_, .inl ⟨_, ht, .compoundFirst⟩⟩)
    | .word n :: ts =>
      rcases shape_total ts with ⟨vs, h⟩ | ⟨e, h⟩
      · rcases items_of_shape (d := d) h with ⟨ps, ns, hi⟩ | ⟨g, h1, h2⟩
        · exact .inl ⟨_, _, ht, .cmd hi⟩
        · exact .inr (.inr ⟨n, ts, vs, g, ht, h, h1, h2⟩)
      · exact .inr (.inl ⟨_, .inl ⟨_, ht, .items h⟩⟩)
  · exact .inr (.inl ⟨_, .inr (.inl ⟨q, hq, rfl⟩)⟩)
  · exact .inr (.inl ⟨_, .inr (.inr ⟨q, hq, rfl⟩)⟩)

end Spec

section
variable {cfg : LexCfg} {s : Bytes}

theorem lexRead_of_accepts (hp : Proper cfg) {i : GInput Bytes} (h : Accepts (delims cfg) s i) :
    ∃ gi, lexParse cfg s = .ok (.ok gi) ∧ gi.read s = .ok i := by
  obtain ⟨ts, ht, hc⟩ := h
  obtain ⟨toks, hm, htok⟩ := tokenize_of_tokens hp ht
  cases hc with
  | empty =>
    cases hm
    refine ⟨⟨⟨0, 0⟩, [], []⟩, by simp [lexParse, htok, parseTokens], ?_⟩
    simp [GInput.read, View.read, readArgs, readNamed]
  | cmd hi =>
    cases hm with
    | @cons t _ toks _ h1 h2 =>
      obtain ⟨as, nas, ha, hra, hrn⟩ := adds_of_items hp.toAscii hi toks h2
      refine ⟨⟨t.value, as, nas⟩, ?_, ?_⟩
      · simp [lexParse, htok, parseTokens, h1.1, ha.eq]
      · simp [GInput.read, h1.2, hra, hrn]

theorem lexParse_of_rejects (hp : Proper cfg) {e : Bytes} (h : Rejects (delims cfg) s e) :
    lexParse cfg s = .ok (.error e) := by
  rcases h with ⟨ts, ht, hb⟩ | ⟨q, hq, rfl⟩ | ⟨q, hq, rfl⟩
  · obtain ⟨toks, hm, htok⟩ := tokenize_of_tokens hp ht
    cases hb with
    | assignFirst =>
      cases hm with
      | @cons t _ toks _ h1 h2 =>
        simp [lexParse, htok, parseTokens, h1.1, h1.2, errBeginning]
        decide
    | compoundFirst =>
      cases hm with
      | @cons t _ toks _ h1 h2 =>
        simp [lexParse, htok, parseTokens, h1.1, h1.2, errBeginning, cstr]
    | items hb =>
      cases hm with
      | @cons t _ toks _ h1 h2 =>
        simp [lexParse, htok, parseTokens, h1.1, parseLoop_of_badItems hp.toAscii hb toks _ h2]
  · simp [lexParse, tokenize_of_unmatchedQuote hp hq, errQuote]
  · simp [lexParse, tokenize_of_unmatchedParen hp hq, errGroup]

theorem lexRead_of_lone (hp : Proper cfg) (hlen : s.length < 2 ^ 64 - 1)
    (h : LoneQuoteCommand (delims cfg) s) :
    ∃ gi, lexParse cfg s = .ok (.ok gi) ∧ gi.read s = .ub .oobRead := by
  obtain ⟨n, ts, vs, g, ht, hs, hg, hl⟩ := h
  obtain ⟨toks, hm, htok⟩ := tokenize_of_tokens hp ht
  cases hm with
  | @cons t _ toks _ h1 h2 =>
    obtain ⟨as, nas, ha, hr⟩ := adds_of_lone hp.toAscii hlen hs toks h2 ⟨g, hg, hl⟩
    refine ⟨⟨t.value, as, nas⟩, ?_, ?_⟩
    · simp [lexParse, htok, parseTokens, h1.1, ha.eq]
    · rcases hr with hr | ⟨⟨ps, hr⟩, hr'⟩
      · simp [GInput.read, h1.2, hr]
      · simp [GInput.read, h1.2, hr, hr']

end

end Coil
