import Verif.Proofs.LexCtx

/-!
# C01-C10: the command syntax

`lexRead cfg s` is what a reader of the result of `DefaultLexer::parse(s)` sees: the parsed
command with its texts, or the error. Undefined behaviour would show as `.ub`, an endless loop as
`.diverge`.

Where a length bound `s.length < 2 ^ 64 - 1` occurs, it says that the text fits in the address space.
-/

namespace Coil
open Spec

/-! ## C01 -/

/-- **C01.** Every spelling of a command - any quoting, any white space, named arguments,
compound values in parentheses or as comma lists - is parsed to exactly that command. -/
theorem C01_roundtrip (charSigned : Bool) (c : SCommand)
    (h : c.WF (delims (LexCfg.default charSigned))) :
    lexRead (LexCfg.default charSigned) c.text = .ok (.ok c.denotes) :=
  lexRead_accepts (proper_default _) (accepts_of_surface (proper_default _) h)

/-- **C01**, for every sensible choice of delimiters. -/
theorem C01_roundtrip_cfg {cfg : LexCfg} (hp : Proper cfg) (c : SCommand) (h : c.WF (delims cfg)) :
    lexRead cfg c.text = .ok (.ok c.denotes) :=
  lexRead_accepts hp (accepts_of_surface hp h)

/-- **C01**, as a function: `render` writes a command line for every command whose texts can be
spelled, and parsing it gives the command back. -/
theorem C01_render (charSigned : Bool) (i : GInput Bytes)
    (h : SpellableInput (delims (LexCfg.default charSigned)) i) :
    lexRead (LexCfg.default charSigned) (render 34 40 41 32 i) = .ok (.ok i) := by
  have hw := canonCommand_wf (d := delims (LexCfg.default charSigned)) (q := 34) (p := 40) (p' := 41)
    (sp := 32) (by cases charSigned <;> decide) (by cases charSigned <;> decide)
    (by cases charSigned <;> decide) (by cases charSigned <;> decide) h
  have := C01_roundtrip charSigned _ hw
  rwa [canonCommand_text, canonCommand_denotes] at this

/-- Rendering is injective on commands that can be spelled: two different commands are never
written the same. -/
theorem C01_render_injective {i j : GInput Bytes} (hi : SpellableInput (delims (LexCfg.default true)) i)
    (hj : SpellableInput (delims (LexCfg.default true)) j) (h : render 34 40 41 32 i = render 34 40 41 32 j) :
    i = j := by
  have h1 := C01_render true i hi
  rw [h, C01_render true j hj] at h1
  simpa using h1.symm

/-- ` spawn  'the id'pos=( 1, "a b" ),2;x` -/
def C01_sample : SCommand where
  lead := lit " "
  name := .bare (lit "spawn")
  items := [
    .positional (lit "  ") (.quoted 39 39 (lit "the id")),
    .named [] (.bare (lit "pos")) [] [] (.group 40 41 (lit " ")
      [(.bare (lit "1"), lit ", "), (.quoted 34 34 (lit "a b"), lit " ")]),
    .positional (lit "\t") (.list [(.bare (lit "y"), lit ","), (.bare (lit "2"), lit ";"), (.bare (lit "x"), [])])]
  trail := lit "\n"

theorem C01_sample_wf : C01_sample.WF (delims (LexCfg.default true)) := by
  refine ⟨by unfold Blank; decide, ?_, ⟨_, .bare⟩, ?_, by unfold Blank; decide⟩
  · refine ⟨by decide, ?_⟩
    unfold Ordinary
    decide
  · refine .positional (by unfold Blank; decide) ⟨by decide, by decide, by decide⟩ (by unfold Separated; decide) ?_
    refine .named (w := lit "pos") (by unfold Blank; decide) (by unfold Blank; decide) (by unfold Blank; decide)
      ⟨by decide, by unfold Ordinary; decide⟩ .bare ?_ (by unfold Separated; decide) ?_
    · refine ⟨by decide, by decide, by decide, ⟨by decide, by decide⟩, by decide, by decide, ?_⟩
      exact ⟨⟨by decide, by decide, by decide⟩, by decide, by decide, trivial⟩
    · refine .positional (by unfold Blank; decide) ?_ (by unfold Separated; decide) .nil
      refine ⟨⟨⟨by decide, by decide⟩, by decide, by decide, ⟨by decide, by decide⟩, by decide, by decide,
        ⟨by decide, by decide⟩, by decide, by decide, trivial⟩, ?_, ?_, by decide, 44, by decide, by decide⟩
      · simp
      · unfold Ordinary
        decide

example : lexRead (LexCfg.default true) (lit " spawn  'the id'pos=( 1, \"a b\" )\ty,2;x\n") =
    .ok (.ok ⟨lit "spawn", [⟨[lit "the id"]⟩, ⟨[lit "y", lit "2", lit "x"]⟩],
      [⟨lit "pos", ⟨[lit "1", lit "a b"]⟩⟩]⟩) :=
  C01_roundtrip true C01_sample C01_sample_wf

example : SpellableInput (delims (LexCfg.default true))
    ⟨lit "f", [⟨[lit "a,b"]⟩, ⟨[]⟩, ⟨[lit "x", lit ""]⟩], [⟨lit "k", ⟨[lit "(="]⟩⟩]⟩ := by
  constructor <;> (try unfold Spellable) <;> decide

/-! ## C02 -/

/-- **C02 is false.** `f (")` is parsed to a command with a view of length 2^64-1. -/
theorem C02_false (charSigned : Bool) :
    ∃ (s : Bytes) (i : GInput View), lexParse (LexCfg.default charSigned) s = .ok (.ok i) ∧
      ¬ AllInside s.length i := by
  refine ⟨lit "f (\")", ⟨⟨0, 1⟩, [⟨[⟨4, 2 ^ 64 - 1⟩]⟩], []⟩, by cases charSigned <;> decide +kernel, ?_⟩
  intro h
  have := h.args ⟨[⟨4, 2 ^ 64 - 1⟩]⟩ (by simp) ⟨4, 2 ^ 64 - 1⟩ (by simp)
  revert this
  decide

/-- **C02**, the exact condition: the views of a parsed command are all inside the input if
and only if no compound value has a part that is one lone quote character.
Missing for the full claim: commands with such a part, for which it is false. -/
theorem C02_partial {cfg : LexCfg} (hp : Proper cfg) {s : Bytes} (hlen : s.length < 2 ^ 64 - 1)
    {i : GInput View} (h : lexParse cfg s = .ok (.ok i)) :
    AllInside s.length i ↔ ¬ LoneQuoteCommand (delims cfg) s := by
  rw [← read_isOk_iff]
  have hr : lexRead cfg s = (i.read s >>= fun r => .ok (.ok r)) := by simp [lexRead, h]
  constructor
  · intro h1 h2
    rw [lexRead_lone hp hlen h2] at hr
    obtain ⟨a, ha⟩ := (Res.isOk_iff _).1 h1
    simp [ha] at hr
  · intro h1
    rcases command_total (d := delims cfg) s with ⟨j, hj⟩ | ⟨e, he⟩ | hl
    · rw [lexRead_accepts hp hj] at hr
      cases hi : i.read s with
      | ok a => trivial
      | ub w => simp [hi] at hr
      | diverge => simp [hi] at hr
    · rw [lexParse_of_rejects hp he] at h
      simp at h
    · exact absurd hl h1

/-- **C02**, a condition on the input alone: if the number of quote characters inside each pair
of parentheses (and in each bare comma list) is even, all views are inside the input. -/
theorem C02_even_quotes_partial {cfg : LexCfg} (hp : Proper cfg) {s : Bytes} (hlen : s.length < 2 ^ 64 - 1)
    {i : GInput View} (h : lexParse cfg s = .ok (.ok i))
    (heven : ∀ ts g, Tokens (delims cfg) s ts → Tok.compound g ∈ ts → quoteCount (delims cfg) g % 2 = 0) :
    AllInside s.length i := by
  rw [C02_partial hp hlen h]
  rintro ⟨n, ts, vs, g, h1, h2, h3, ps, q, h4, h5, h6⟩
  have hmem : Tok.compound g ∈ ts := by
    clear h1 heven
    induction h2 with
    | nil => simp at h3
    | positional _ _ ih =>
      rcases List.mem_cons.1 h3 with h3 | h3
      · simp [h3]
      · simp [ih h3]
    | named _ _ _ ih =>
      rcases List.mem_cons.1 h3 with h3 | h3
      · simp [h3]
      · simp [ih h3]
  have h7 := heven _ g h1 (List.mem_cons_of_mem _ hmem)
  have h8 := quoteCount_of_lone (d := delims cfg) (fun c hc hq => quote_not_sep hp hq hc) h4 h5 h6
  omega

example : lexParse (LexCfg.default true) (lit "f ('a b', c) k=1") =
    .ok (.ok ⟨⟨0, 1⟩, [⟨[⟨4, 3⟩, ⟨10, 1⟩]⟩], [⟨⟨13, 1⟩, ⟨[⟨15, 1⟩]⟩⟩]⟩) := by decide +kernel

/-! ## C03 -/

/-- **C03.** Whatever the input and whatever the delimiters, parsing ends without undefined
behaviour, in a command or in one of the documented syntax errors. -/
theorem C03_no_internal_error (cfg : LexCfg) (s : Bytes) :
    ∃ r, lexParse cfg s = .ok r ∧ ∀ e, r = .error e → SyntaxError e := by
  rcases lexParse_any cfg s with ⟨e, h, he⟩ | ⟨r, h⟩
  · refine ⟨_, h, ?_⟩
    rintro e' he'
    simp at he'
    subst he'
    rcases he with he | he
    · cases he
      · exact .quote _
      · exact .paren _
    · cases he
      · exact .noName
      · exact .noValue
      · exact .noValueEnd
      · exact .beginning _
  · exact ⟨_, h, by simp⟩

/-- **C03**, in particular the error is never the text "Internal error". -/
theorem C03_not_internal (cfg : LexCfg) (s : Bytes) : lexParse cfg s ≠ .ok (.error (lit "Internal error")) := by
  obtain ⟨r, h, hr⟩ := C03_no_internal_error cfg s
  rw [h]
  intro he
  simp at he
  have := hr _ he
  generalize hx : lit "Internal error" = x at this
  have hx' : x.head? = some 73 ∧ x[1]? = some 110 := by subst hx; decide
  cases this <;> revert hx' <;> simp [lit] <;> decide

example : lexParse ⟨lit "=", lit "=", lit "=", lit "=", true⟩ (lit "a ==") =
    .ok (.error (lit "Unexpected token '=': no name for the named argument is provided")) := by decide +kernel

/-! ## C04 -/

/-- **C04.** White space before the first token is insignificant. -/
theorem C04_leading {cfg : LexCfg} (hp : Proper cfg) {ws s : Bytes} (hws : Blank (delims cfg) ws)
    (hlen : (ws ++ s).length < 2 ^ 64 - 1) : lexRead cfg (ws ++ s) = lexRead cfg s := by
  rcases tokens_total (d := delims cfg) s with ⟨ts, h⟩ | ⟨q, h⟩ | ⟨q, h⟩
  · exact lexRead_congr hp hlen (by simp at hlen ⊢; omega) (tokens_blank hws h) h
  · rw [lexRead_rejects hp (.inr (.inl ⟨q, h, rfl⟩))]
    obtain ⟨p, r, ts', rfl, h1, h2, h3⟩ := h
    exact lexRead_rejects hp (.inr (.inl ⟨q, ⟨ws ++ p, r, ts', by simp, tokens_blank hws h1, h2, h3⟩, rfl⟩))
  · rw [lexRead_rejects hp (.inr (.inr ⟨q, h, rfl⟩))]
    obtain ⟨p, r, ts', rfl, h1, h2, h3⟩ := h
    exact lexRead_rejects hp (.inr (.inr ⟨q, ⟨ws ++ p, r, ts', by simp, tokens_blank hws h1, h2, h3⟩, rfl⟩))

/-- **C04.** White space after the last token is insignificant. -/
theorem C04_trailing {cfg : LexCfg} (hp : Proper cfg) {ws s : Bytes} (hws : Blank (delims cfg) ws)
    (hlen : (s ++ ws).length < 2 ^ 64 - 1) : lexRead cfg (s ++ ws) = lexRead cfg s :=
  lexRead_trailing hp hws hlen

/-- **C04.** A non-empty run of white space outside quotes and groups can be replaced by any other:
`openAtEnd pre = nothing` says that no quote and no parenthesis is open after `pre`. -/
theorem C04_between {cfg : LexCfg} (hp : Proper cfg) {pre u v post : Bytes}
    (hpre : openAtEnd (delims cfg) pre = .nothing) (hu : Blank (delims cfg) u) (hu0 : u ≠ [])
    (hv : Blank (delims cfg) v) (hv0 : v ≠ []) (hlen : (pre ++ (u ++ post)).length < 2 ^ 64 - 1)
    (hlen' : (pre ++ (v ++ post)).length < 2 ^ 64 - 1) :
    lexRead cfg (pre ++ (u ++ post)) = lexRead cfg (pre ++ (v ++ post)) := by
  rcases openAtEnd_cases hp pre with ⟨_, ts, h⟩ | ⟨q, h, _⟩ | ⟨q, h, _⟩
  · exact lexRead_space_run hp h hu hv (noOrdinaryHead_of_space hu hu0) (noOrdinaryHead_of_space hv hv0) hlen hlen'
  · simp [hpre] at h
  · simp [hpre] at h

/-- **C04.** Around `=`, quotes and parentheses white space can even be added or removed. -/
theorem C04_around_delimiters {cfg : LexCfg} (hp : Proper cfg) {pre u post : Bytes} {c : Byte}
    (hpre : openAtEnd (delims cfg) pre = .nothing) (hu : Blank (delims cfg) u)
    (hc : c = 61 ∨ c ∈ cfg.quotes ∨ c ∈ cfg.parens)
    (hlen : (pre ++ (u ++ c :: post)).length < 2 ^ 64 - 1) :
    lexRead cfg (pre ++ (u ++ c :: post)) = lexRead cfg (pre ++ c :: post) := by
  have hno : NoOrdinaryHead (delims cfg) (c :: post) := by
    intro x hx
    simp at hx
    subst hx
    rintro ⟨h1, h2, h3, h4⟩
    rcases hc with hc | hc | hc
    · exact h1 hc
    · exact h4 hc
    · exact h3 hc
  rcases openAtEnd_cases hp pre with ⟨_, ts, h⟩ | ⟨q, h, _⟩ | ⟨q, h, _⟩
  · exact lexRead_space_run (v := []) hp h hu (by intro c hc; simp at hc)
      (noOrdinaryHead_blank hu (.inr hno)) (by simpa using hno) hlen (by simp at hlen ⊢; omega)
  · simp [hpre] at h
  · simp [hpre] at h

example : openAtEnd (delims (LexCfg.default true)) (lit "f 'a b' (c)") = .nothing := by decide
example : lexRead (LexCfg.default true) (lit "f 'a b' (c) \t\n k =1") =
    lexRead (LexCfg.default true) (lit "f 'a b' (c) k =1") := by decide +kernel

/-! ## C05 -/

/-- **C05.** A quoted positional argument is one simple value, verbatim. -/
theorem C05_positional {cfg : LexCfg} (hp : Proper cfg) {pre body : Bytes} {q q' : Byte} {n : Bytes}
    {ps : List (GValue Bytes)} {ns : List (GNamed Bytes)} (hlen : pre.length < 2 ^ 64 - 1)
    (hq : q ∈ cfg.quotes) (hq' : q' ∈ cfg.quotes) (hbody : ∀ c ∈ body, c ∉ cfg.quotes)
    (hpre : lexRead cfg pre = .ok (.ok ⟨n, ps, ns⟩)) (hnb : ¬ Blank (delims cfg) pre) :
    lexRead cfg (pre ++ q :: (body ++ [q'])) = .ok (.ok ⟨n, ps ++ [⟨[body]⟩], ns⟩) := by
  refine lexRead_snoc hp hlen hpre hnb ?_ (.quoted hq hq' hbody .nil) .word
  intro x hx
  simp at hx
  subst hx
  exact fun h => h.2.2.2 hq

/-- **C05.** A quoted value of a named argument is one simple value, verbatim; so is a quoted key. -/
theorem C05_named {cfg : LexCfg} (hp : Proper cfg) {pre key body : Bytes} {q q' r r' : Byte} {n : Bytes}
    {ps : List (GValue Bytes)} {ns : List (GNamed Bytes)} (hlen : pre.length < 2 ^ 64 - 1)
    (hr : r ∈ cfg.quotes) (hr' : r' ∈ cfg.quotes) (hkey : ∀ c ∈ key, c ∉ cfg.quotes)
    (hq : q ∈ cfg.quotes) (hq' : q' ∈ cfg.quotes) (hbody : ∀ c ∈ body, c ∉ cfg.quotes)
    (hpre : lexRead cfg pre = .ok (.ok ⟨n, ps, ns⟩)) (hnb : ¬ Blank (delims cfg) pre) :
    lexRead cfg (pre ++ r :: (key ++ r' :: 61 :: q :: (body ++ [q']))) =
      .ok (.ok ⟨n, ps, ns ++ [⟨key, ⟨[body]⟩⟩]⟩) := by
  refine lexRead_snoc_named hp hlen hpre hnb ?_
    (.quoted hr hr' hkey (.assign (.quoted hq hq' hbody .nil))) .word .word
  intro x hx
  simp at hx
  subst hx
  exact fun h => h.2.2.2 hr

/-- **C05.** A quoted command name is taken verbatim. -/
theorem C05_name {cfg : LexCfg} (hp : Proper cfg) {body : Bytes} {q q' : Byte}
    (hq : q ∈ cfg.quotes) (hq' : q' ∈ cfg.quotes) (hbody : ∀ c ∈ body, c ∉ cfg.quotes) :
    lexRead cfg (q :: (body ++ [q'])) = .ok (.ok ⟨body, [], []⟩) :=
  lexRead_accepts hp ⟨_, .quoted hq hq' hbody .nil, .cmd .nil⟩

/-- **C05**, in any context: after any complete tokens and before any complete tokens, the
quoted text is exactly one word. -/
theorem C05_context {cfg : LexCfg} {pre body post : Bytes} {q q' : Byte} {ts ts' : List Tok}
    (hq : q ∈ cfg.quotes) (hq' : q' ∈ cfg.quotes) (hbody : ∀ c ∈ body, c ∉ cfg.quotes)
    (hpre : Tokens (delims cfg) pre ts) (hpost : Tokens (delims cfg) post ts') :
    Tokens (delims cfg) (pre ++ q :: (body ++ q' :: post)) (ts ++ .word body :: ts') := by
  apply tokens_append hpre
  · intro x hx
    simp at hx
    subst hx
    exact fun h => h.2.2.2 hq
  · exact .quoted hq hq' hbody hpost

example : lexRead (LexCfg.default true) (lit "f 1" ++ 39 :: (lit "a = (b), c" ++ [39])) =
    .ok (.ok ⟨lit "f", [⟨[lit "1"]⟩] ++ [⟨[lit "a = (b), c"]⟩], []⟩) :=
  C05_positional (proper_default true) (by decide) (by decide) (by decide) (by decide) (by decide +kernel)
    (by unfold Blank; decide)

/-! ## C06 -/

/-- **C06.** A token sequence is accepted exactly when it is empty or a word followed by items,
and the items become the arguments in order. -/
theorem C06_accept_iff {cfg : LexCfg} (hp : Proper cfg) {s : Bytes} (hlen : s.length < 2 ^ 64 - 1)
    {ts : List Tok} (ht : Tokens (delims cfg) s ts) {i : GInput Bytes} :
    lexRead cfg s = .ok (.ok i) ↔ Command (delims cfg) ts i := by
  rw [lexRead_ok_iff hp hlen]
  constructor
  · rintro ⟨ts', h, hc⟩
    rwa [tokens_unique hp ht h]
  · exact fun hc => ⟨ts, ht, hc⟩

/-- **C06.** The token sequences that are rejected, and with which error. -/
theorem C06_reject_iff {cfg : LexCfg} (hp : Proper cfg) {s : Bytes} (hlen : s.length < 2 ^ 64 - 1)
    {ts : List Tok} (ht : Tokens (delims cfg) s ts) {e : Bytes} :
    lexRead cfg s = .ok (.error e) ↔ BadCommand ts e := by
  rw [lexRead_error_iff hp hlen]
  constructor
  · rintro (⟨ts', h, hc⟩ | ⟨q, h, _⟩ | ⟨q, h, _⟩)
    · rwa [tokens_unique hp ht h]
    · have h1 := openAtEnd_tokens hp ht
      rw [openAtEnd_unmatchedQuote hp h] at h1
      simp at h1
    · have h1 := openAtEnd_tokens hp ht
      rw [openAtEnd_unmatchedParen hp h] at h1
      simp at h1
  · exact fun hc => .inl ⟨ts, ht, hc⟩

/-- **C06.** Every token sequence that does not have the shape of a command is rejected. -/
theorem C06_reject_otherwise {cfg : LexCfg} (hp : Proper cfg) {s : Bytes} {ts : List Tok}
    (ht : Tokens (delims cfg) s ts)
    (h : ¬ (ts = [] ∨ ∃ n ts' vs, ts = .word n :: ts' ∧ Shape ts' vs)) :
    ∃ e, lexRead cfg s = .ok (.error e) := by
  match ts with
  | [] => simp at h
  | .assign :: ts => exact ⟨_, lexRead_rejects hp (.inl ⟨_, ht, .assignFirst⟩)⟩
  | .compound g :: ts => exact ⟨_, lexRead_rejects hp (.inl ⟨_, ht, .compoundFirst⟩)⟩
  | .word n :: ts =>
    rcases shape_total ts with ⟨vs, hs⟩ | ⟨e, he⟩
    · exact absurd (.inr ⟨n, ts, vs, rfl, hs⟩) h
    · exact ⟨e, lexRead_rejects hp (.inl ⟨_, ht, .items he⟩)⟩

/-- **C06**, the whole grammar: `DefaultLexer` accepts exactly the texts that the grammar
accepts, with the meaning the grammar gives them. -/
theorem C06_grammar {cfg : LexCfg} (hp : Proper cfg) {s : Bytes} (hlen : s.length < 2 ^ 64 - 1)
    {i : GInput Bytes} : lexRead cfg s = .ok (.ok i) ↔ Accepts (delims cfg) s i :=
  lexRead_ok_iff hp hlen

example : Tokens (delims (LexCfg.default true)) (lit "f a=") [.word (lit "f"), .word (lit "a"), .assign] := by
  refine .bare (c := 102) (w := []) ?_ (by simp) ?_ (by simp) (.space ?_ (.bare (c := 97) (w := []) ?_ (by simp) ?_ (by simp) (.assign .nil)))
  all_goals (try unfold NoOrdinaryHead); (try unfold Ordinary); (try simp)
  all_goals decide

example : BadCommand [.word (lit "f"), .word (lit "a"), .assign]
    (lit "Expected an argument value, found end of string") := .items (.noValue .word)

/-! ## C07 -/

/-- **C07.** An open quote at the end of the text is an error that names it. -/
theorem C07_quote {cfg : LexCfg} (hp : Proper cfg) {s : Bytes} {q : Byte}
    (h : openAtEnd (delims cfg) s = .quote q) :
    lexParse cfg s = .ok (.error
      (lit "Token '" ++ [q] ++ lit "' doesn't have a corresponding opening/closing quote")) := by
  rcases openAtEnd_cases hp s with ⟨h', _⟩ | ⟨r, h', hu⟩ | ⟨r, h', _⟩
  · simp [h] at h'
  · simp [h] at h'
    subst h'
    exact lexParse_of_rejects hp (.inr (.inl ⟨q, hu, rfl⟩))
  · simp [h] at h'

/-- **C07.** An open parenthesis at the end of the text is an error that names it. -/
theorem C07_paren {cfg : LexCfg} (hp : Proper cfg) {s : Bytes} {q : Byte}
    (h : openAtEnd (delims cfg) s = .paren q) :
    lexParse cfg s = .ok (.error
      (lit "Token '" ++ [q] ++ lit "' doesn't have a corresponding opening/closing token")) := by
  rcases openAtEnd_cases hp s with ⟨h', _⟩ | ⟨r, h', hu⟩ | ⟨r, h', hu⟩
  · simp [h] at h'
  · simp [h] at h'
  · simp [h] at h'
    subst h'
    exact lexParse_of_rejects hp (.inr (.inr ⟨q, hu, rfl⟩))

/-- **C07.** If nothing is left open, the text has tokens and none of these errors is reported. -/
theorem C07_balanced {cfg : LexCfg} (hp : Proper cfg) {s : Bytes}
    (h : openAtEnd (delims cfg) s = .nothing) :
    (∃ ts, Tokens (delims cfg) s ts) ∧ ∃ toks, tokenize cfg s = .ok (.ok toks) := by
  rcases openAtEnd_cases hp s with ⟨_, ts, h'⟩ | ⟨r, h', hu⟩ | ⟨r, h', hu⟩
  · obtain ⟨toks, _, h2⟩ := tokenize_of_tokens hp h'
    exact ⟨⟨ts, h'⟩, toks, h2⟩
  · simp [h] at h'
  · simp [h] at h'

/-- **C07.** If nothing is left open, neither of the two errors is reported. -/
theorem C07_balanced_no_error {cfg : LexCfg} (hp : Proper cfg) {s : Bytes} (hlen : s.length < 2 ^ 64 - 1)
    (h : openAtEnd (delims cfg) s = .nothing) (q : Byte) :
    lexRead cfg s ≠ .ok (.error
      (lit "Token '" ++ [q] ++ lit "' doesn't have a corresponding opening/closing quote")) ∧
    lexRead cfg s ≠ .ok (.error
      (lit "Token '" ++ [q] ++ lit "' doesn't have a corresponding opening/closing token")) := by
  obtain ⟨⟨ts, ht⟩, _⟩ := C07_balanced hp h
  have key : ∀ e, BadCommand ts e → e.head? ≠ some 84 := by
    intro e he
    have kb : ∀ ts e, BadItems ts e → e.head? ≠ some 84 := by
      intro ts e hb
      induction hb with
      | noName => decide
      | twoAssign => decide
      | noValue => decide
      | positional _ _ _ ih => exact ih
      | named _ _ _ ih => exact ih
    cases he with
    | assignFirst => decide
    | compoundFirst => simp [lit]
    | items hb => exact kb _ _ hb
  constructor
  · intro hc
    exact key _ ((C06_reject_iff hp hlen ht).1 hc) (by simp [lit])
  · intro hc
    exact key _ ((C06_reject_iff hp hlen ht).1 hc) (by simp [lit])

example : openAtEnd (delims (LexCfg.default true)) (lit "f (a) 'b (") = .quote 39 := by decide
example : openAtEnd (delims (LexCfg.default true)) (lit "f 'a)' (b '") = .paren 40 := by decide

/-! ## C08 -/

/-- **C08 is false** for a delimiter above 127 where `char` is signed: the configured space character
0xA0 does not separate words. -/
theorem C08_false_high :
    ∃ (cfg : LexCfg) (c : Byte) (s : Bytes), c ∈ cfg.spaces ∧ s = 102 :: c :: [103] ∧ c ≠ 61 ∧
      cfg.charSigned = true ∧ lexRead cfg s = .ok (.ok ⟨s, [], []⟩) :=
  ⟨⟨lit "()", lit "'", lit ",", [0xA0], true⟩, 0xA0, [102, 0xA0, 103], by decide, rfl, by decide, rfl, by decide +kernel⟩

/-- **C08 is false** for `=`: as a configured quote character it does not quote. -/
theorem C08_false_assign :
    ∃ (cfg : LexCfg), (61 : Byte) ∈ cfg.quotes ∧
      lexRead cfg (lit "f =a b=") = .ok (.error (lit "Unexpected token '=': no name for the named argument is provided")) :=
  ⟨⟨lit "()", lit "=", lit ",", lit " ", true⟩, by decide, by decide +kernel⟩

/-- **C08** for sensible configurations (disjoint sets, no `=`, ASCII where `char` is signed): the result
is exactly what the grammar with the configured delimiters gives.
Missing for the full claim: the configurations for which it is false. -/
theorem C08_partial {cfg : LexCfg} (hp : Proper cfg) {s : Bytes} (hlen : s.length < 2 ^ 64 - 1) :
    (∀ i, lexRead cfg s = .ok (.ok i) ↔ Accepts (delims cfg) s i) ∧
    (∀ e, lexRead cfg s = .ok (.error e) ↔ Rejects (delims cfg) s e) :=
  ⟨fun _ => lexRead_ok_iff hp hlen, fun _ => lexRead_error_iff hp hlen⟩

example : Proper ⟨lit "[]{}", lit "`", lit "/", lit "_", true⟩ := by
  constructor
  · refine ⟨fun _ c hc => ?_⟩
    rcases hc with hc | hc | hc | hc <;> revert c <;> decide
  all_goals decide

example : Proper ⟨[], [], [], [0xA0], false⟩ := by
  constructor
  · refine ⟨fun h => ?_⟩; simp at h
  all_goals decide

/-! ## C09 -/

/-- **C09 is false** for a word that starts with a separator: `,a` is a simple value. -/
theorem C09_false (charSigned : Bool) :
    lexRead (LexCfg.default charSigned) (lit "f ,a") = .ok (.ok ⟨lit "f", [⟨[lit ",a"]⟩], []⟩) := by
  cases charSigned <;> decide +kernel

/-- **C09.** A bare word that does not start with a separator is delivered as the list of its
non-empty pieces between separators (one piece if it has no separators).
Missing for the full claim: words that start with a separator, for which it is false. -/
theorem C09_partial {cfg : LexCfg} (hp : Proper cfg) {pre : Bytes} {sp c : Byte} {w n : Bytes}
    {ps : List (GValue Bytes)} {ns : List (GNamed Bytes)} (hlen : pre.length < 2 ^ 64 - 1)
    (hpre : lexRead cfg pre = .ok (.ok ⟨n, ps, ns⟩)) (hnb : ¬ Blank (delims cfg) pre)
    (hsp : sp ∈ cfg.spaces) (hw : ∀ x ∈ c :: w, Ordinary (delims cfg) x) (hc : ¬ Separator (delims cfg) c) :
    lexRead cfg (pre ++ sp :: c :: w) = .ok (.ok ⟨n, ps ++ [⟨pieces (delims cfg) (c :: w)⟩], ns⟩) := by
  have hq : ∀ x ∈ c :: w, x ∉ (delims cfg).quotes := fun x hx => (hw x hx).2.2.2
  have hno : NoOrdinaryHead (delims cfg) (sp :: c :: w) := by
    intro x hx
    simp at hx
    subst hx
    exact fun h => h.2.1 hsp
  have hnil : NoOrdinaryHead (delims cfg) [] := by intro x hx; simp at hx
  by_cases hs : ∃ x ∈ w, Separator (delims cfg) x
  · obtain ⟨x, hx, hxs⟩ := hs
    refine lexRead_snoc hp hlen hpre hnb hno (t := .compound (c :: w)) ?_ (.compound (subValues_pieces hq))
    have := Tokens.bareList (d := delims cfg) (hw c (by simp)) (fun x hx => hw x (by simp [hx])) hnil hx hxs .nil
    rw [List.append_nil] at this
    exact .space hsp this
  · have hns : ∀ x ∈ w, ¬ Separator (delims cfg) x := fun x hx h => hs ⟨x, hx, h⟩
    have hpc : pieces (delims cfg) (c :: w) = [c :: w] := by
      rw [pieces, chunks_last (by
        intro x hx
        rcases List.mem_cons.1 hx with rfl | hx
        · exact hc
        · exact hns x hx)]
      simp
    rw [hpc]
    refine lexRead_snoc hp hlen hpre hnb hno (t := .word (c :: w)) ?_ .word
    have := Tokens.bare (d := delims cfg) (hw c (by simp)) (fun x hx => hw x (by simp [hx])) hnil hns .nil
    rw [List.append_nil] at this
    exact .space hsp this

example : pieces (delims (LexCfg.default true)) (lit "1,,2;x|") = [lit "1", lit "2", lit "x"] := by decide
example : lexRead (LexCfg.default true) (lit "f" ++ 32 :: 49 :: lit ",,2;x|") =
    .ok (.ok ⟨lit "f", [] ++ [⟨[lit "1", lit "2", lit "x"]⟩], []⟩) :=
  C09_partial (proper_default true) (by decide) (by decide +kernel) (by unfold Blank; decide) (by decide)
    (by unfold Ordinary; decide) (by decide)

/-! ## C10 -/

/-- **C10.** A parenthesised argument is delivered as the sub-values of the text in the
parentheses, as the specification `SubValues` gives them. -/
theorem C10_group_iff {cfg : LexCfg} (hp : Proper cfg) {pre g : Bytes} {p p' : Byte} {n : Bytes}
    {ps : List (GValue Bytes)} {ns : List (GNamed Bytes)} {i : GInput Bytes}
    (hlen : (pre ++ p :: (g ++ [p'])).length < 2 ^ 64 - 1)
    (hpre : lexRead cfg pre = .ok (.ok ⟨n, ps, ns⟩)) (hnb : ¬ Blank (delims cfg) pre)
    (h1 : p ∈ cfg.parens) (h2 : p' ∈ cfg.parens) (hg : ∀ c ∈ g, c ∉ cfg.parens) :
    lexRead cfg (pre ++ p :: (g ++ [p'])) = .ok (.ok i) ↔
      ∃ vs, SubValues (delims cfg) g vs ∧ i = ⟨n, ps ++ [⟨vs⟩], ns⟩ := by
  have hlen' : pre.length < 2 ^ 64 - 1 := by simp at hlen ⊢; omega
  have hno : NoOrdinaryHead (delims cfg) (p :: (g ++ [p'])) := by
    intro x hx
    simp at hx
    subst hx
    exact fun h => h.2.2.1 h1
  have htok : Tokens (delims cfg) (p :: (g ++ [p'])) [.compound g] := .group h1 h2 hg .nil
  constructor
  · intro h
    rcases subValues_total (d := delims cfg) g with ⟨vs, hvs⟩ | hl
    · refine ⟨vs, hvs, ?_⟩
      have := lexRead_snoc hp hlen' hpre hnb hno htok (.compound hvs)
      rw [h] at this
      simpa using this
    · exfalso
      obtain ⟨ts, ht, hi⟩ := accepts_cmd ((lexRead_ok_iff hp hlen').1 hpre) hnb
      have hsh : ∃ vs, Shape ts vs := by
        rcases shape_total ts with h | ⟨e, he⟩
        · exact h
        · have := lexRead_rejects hp (.inl ⟨_, ht, .items he⟩)
          rw [hpre] at this
          simp at this
      obtain ⟨vs, hsh⟩ := hsh
      have happ : Shape (ts ++ [.compound g]) (vs ++ [.compound g]) := by
        clear ht hi
        induction hsh with
        | nil => exact .positional .compound .nil
        | positional h _ ih => exact .positional h ih
        | named h h' _ ih => exact .named h h' ih
      have := lexRead_lone hp hlen ⟨n, ts ++ [.compound g], vs ++ [.compound g], g,
        by simpa using tokens_append ht hno htok, happ, by simp, hl⟩
      rw [h] at this
      simp at this
  · rintro ⟨vs, hvs, rfl⟩
    exact lexRead_snoc hp hlen' hpre hnb hno htok (.compound hvs)

/-- **C10.** Without quotes the sub-values are the non-empty pieces between separators. -/
theorem C10_group_pieces {cfg : LexCfg} (hp : Proper cfg) {pre g : Bytes} {p p' : Byte} {n : Bytes}
    {ps : List (GValue Bytes)} {ns : List (GNamed Bytes)}
    (hlen : (pre ++ p :: (g ++ [p'])).length < 2 ^ 64 - 1)
    (hpre : lexRead cfg pre = .ok (.ok ⟨n, ps, ns⟩)) (hnb : ¬ Blank (delims cfg) pre)
    (h1 : p ∈ cfg.parens) (h2 : p' ∈ cfg.parens) (hg : ∀ c ∈ g, c ∉ cfg.parens)
    (hq : ∀ c ∈ g, c ∉ cfg.quotes) :
    lexRead cfg (pre ++ p :: (g ++ [p'])) = .ok (.ok ⟨n, ps ++ [⟨pieces (delims cfg) g⟩], ns⟩) :=
  (C10_group_iff hp hlen hpre hnb h1 h2 hg).2 ⟨_, subValues_pieces hq, rfl⟩

/-- **C10.** The parts together with the separators account for the whole group text: the text is
separators, part, separators, part, ..., separators, with non-empty separator runs between parts. -/
theorem C10_account {d : Delims} {g : Bytes} {vs : List Bytes} (h : SubValues d g vs) :
    ∃ s0 rest, g = interleave s0 rest ∧ Forall2 (Unquote d) (rest.map Prod.fst) vs ∧
      (∀ c ∈ s0, Separator d c) ∧ (∀ x ∈ rest, ∀ c ∈ x.2, Separator d c) ∧
      (∀ x ∈ rest.dropLast, x.2 ≠ []) ∧ (∀ x ∈ rest, RawPart d x.1) := by
  obtain ⟨ps, h1, h2⟩ := h
  obtain ⟨s0, rest, g1, g2, g3, g4, g5⟩ := parts_interleave h1
  refine ⟨s0, rest, g1, g2 ▸ h2, g3, g4, g5, ?_⟩
  intro x hx
  exact parts_rawPart h1 _ (g2 ▸ List.mem_map_of_mem hx)

/-- **C10.** The sub-values of a text are unique, and exist unless a part is one lone quote. -/
theorem C10_unique {cfg : LexCfg} (hp : Proper cfg) (g : Bytes) :
    (∀ vs vs', SubValues (delims cfg) g vs → SubValues (delims cfg) g vs' → vs = vs') ∧
    ((∃ vs, SubValues (delims cfg) g vs) ∨ LoneQuote (delims cfg) g) :=
  ⟨fun _ _ => subValues_unique hp.toAscii, subValues_total g⟩

example : lexRead (LexCfg.default true) (lit "f (1,'a, b' , x)") =
    .ok (.ok ⟨lit "f", [⟨[lit "1", lit "a, b", lit "x"]⟩], []⟩) := by decide +kernel
example : lexRead (LexCfg.default true) (lit "f" ++ 40 :: (lit "1, 2;;3 " ++ [41])) =
    .ok (.ok ⟨lit "f", [] ++ [⟨[lit "1", lit "2", lit "3"]⟩], []⟩) :=
  C10_group_pieces (proper_default true) (by decide) (by decide +kernel) (by unfold Blank; decide) (by decide) (by decide)
    (by decide) (by decide)

end Coil
