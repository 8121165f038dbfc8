import Verif.Proofs.Surface
import Verif.Proofs.LexAny

/-! # Contexts: gluing token sequences, and consequences of the grammar -/

namespace Coil
open Spec

section
variable {d : Delims}

theorem tokens_append {pre post : Bytes} {ts ts' : List Tok} (h : Tokens d pre ts)
    (hb : NoOrdinaryHead d post) (h' : Tokens d post ts') : Tokens d (pre ++ post) (ts ++ ts') := by
  induction h with
  | nil => exact h'
  | space hc _ ih => exact .space hc ih
  | assign _ ih => exact .assign ih
  | quoted h1 h2 h3 _ ih => simpa using Tokens.quoted h1 h2 h3 ih
  | group h1 h2 h3 _ ih => simpa using Tokens.group h1 h2 h3 ih
  | @bare c w s ts h1 h2 h3 h4 hs ih =>
    have : NoOrdinaryHead d (s ++ post) := by
      cases s with
      | nil => simpa using hb
      | cons x s => intro y hy; simp at hy; subst hy; exact h3 x rfl
    simpa using Tokens.bare h1 h2 this h4 ih
  | @bareList c x w s ts h1 h2 h3 h4 h5 hs ih =>
    have : NoOrdinaryHead d (s ++ post) := by
      cases s with
      | nil => simpa using hb
      | cons x s => intro y hy; simp at hy; subst hy; exact h3 x rfl
    simpa using Tokens.bareList h1 h2 this h4 h5 ih

theorem unmatchedQuote_append {pre post : Bytes} {ts : List Tok} {q : Byte} (h : Tokens d pre ts)
    (hb : NoOrdinaryHead d post) (h' : UnmatchedQuote d post q) : UnmatchedQuote d (pre ++ post) q := by
  obtain ⟨p, r, ts', rfl, h1, h2, h3⟩ := h'
  refine ⟨pre ++ p, r, ts ++ ts', by simp, tokens_append h ?_ h1, h2, h3⟩
  cases p with
  | nil => intro c hc; simp at hc
  | cons x p => intro c hc; simp at hc; subst hc; exact hb x rfl

theorem unmatchedParen_append {pre post : Bytes} {ts : List Tok} {q : Byte} (h : Tokens d pre ts)
    (hb : NoOrdinaryHead d post) (h' : UnmatchedParen d post q) : UnmatchedParen d (pre ++ post) q := by
  obtain ⟨p, r, ts', rfl, h1, h2, h3⟩ := h'
  refine ⟨pre ++ p, r, ts ++ ts', by simp, tokens_append h ?_ h1, h2, h3⟩
  cases p with
  | nil => intro c hc; simp at hc
  | cons x p => intro c hc; simp at hc; subst hc; exact hb x rfl

theorem items_append {ts ts' : List Tok} {ps ps' : List (GValue Bytes)} {ns ns' : List (GNamed Bytes)}
    (h : Items d ts ps ns) (h' : Items d ts' ps' ns') : Items d (ts ++ ts') (ps ++ ps') (ns ++ ns') := by
  induction h with
  | nil => exact h'
  | positional h1 _ ih => exact .positional h1 ih
  | named h1 h2 _ ih => exact .named h1 h2 ih

theorem tokens_nil_blank {s : Bytes} {ts : List Tok} (h : Tokens d s ts) : ts = [] → Blank d s := by
  induction h with
  | nil => intro _ c hc; simp at hc
  | space hc _ ih =>
    intro ht x hx
    rcases List.mem_cons.1 hx with rfl | hx
    · exact hc
    · exact ih ht x hx
  | _ => intro h; simp at h

/-- A command line that is not blank is a name token and items. -/
theorem accepts_cmd {s : Bytes} {i : GInput Bytes} (h : Accepts d s i) (hb : ¬ Blank d s) :
    ∃ ts, Tokens d s (.word i.name :: ts) ∧ Items d ts i.arguments i.namedArguments := by
  obtain ⟨ts, h1, h2⟩ := h
  cases h2 with
  | empty => exact absurd (tokens_nil_blank h1 rfl) hb
  | cmd hi => exact ⟨_, h1, hi⟩

end

section
variable {cfg : LexCfg} (hp : Proper cfg)
include hp

/-- The result only depends on the tokens. -/
theorem lexRead_congr {s s' : Bytes} {ts : List Tok} (hlen : s.length < 2 ^ 64 - 1)
    (hlen' : s'.length < 2 ^ 64 - 1) (h : Tokens (delims cfg) s ts) (h' : Tokens (delims cfg) s' ts) :
    lexRead cfg s = lexRead cfg s' := by
  match ts with
  | [] => rw [lexRead_accepts hp ⟨_, h, .empty⟩, lexRead_accepts hp ⟨_, h', .empty⟩]
  | .assign :: ts =>
    rw [lexRead_rejects hp (.inl ⟨_, h, .assignFirst⟩), lexRead_rejects hp (.inl ⟨_, h', .assignFirst⟩)]
  | .compound g :: ts =>
    rw [lexRead_rejects hp (.inl ⟨_, h, .compoundFirst⟩), lexRead_rejects hp (.inl ⟨_, h', .compoundFirst⟩)]
  | .word n :: ts =>
    rcases shape_total ts with ⟨vs, hs⟩ | ⟨e, he⟩
    · rcases items_of_shape (d := delims cfg) hs with ⟨ps, ns, hi⟩ | ⟨g, h1, h2⟩
      · rw [lexRead_accepts hp ⟨_, h, .cmd hi⟩, lexRead_accepts hp ⟨_, h', .cmd hi⟩]
      · rw [lexRead_lone hp hlen ⟨n, ts, vs, g, h, hs, h1, h2⟩,
          lexRead_lone hp hlen' ⟨n, ts, vs, g, h', hs, h1, h2⟩]
    · rw [lexRead_rejects hp (.inl ⟨_, h, .items he⟩), lexRead_rejects hp (.inl ⟨_, h', .items he⟩)]

omit hp in
theorem noOrdinaryHead_of_space {u post : Bytes} (hu : Blank (delims cfg) u) (hne : u ≠ []) :
    NoOrdinaryHead (delims cfg) (u ++ post) := noOrdinaryHead_blank hu (.inl hne)

theorem lexRead_space_run {pre post u v : Bytes} {ts : List Tok} (hpre : Tokens (delims cfg) pre ts)
    (hu : Blank (delims cfg) u) (hv : Blank (delims cfg) v)
    (hun : NoOrdinaryHead (delims cfg) (u ++ post)) (hvn : NoOrdinaryHead (delims cfg) (v ++ post))
    (hlen : (pre ++ (u ++ post)).length < 2 ^ 64 - 1) (hlen' : (pre ++ (v ++ post)).length < 2 ^ 64 - 1) :
    lexRead cfg (pre ++ (u ++ post)) = lexRead cfg (pre ++ (v ++ post)) := by
  have hblank : ∀ {w : Bytes} {q : Byte}, Blank (delims cfg) w → UnmatchedQuote (delims cfg) post q →
      UnmatchedQuote (delims cfg) (w ++ post) q := by
    rintro w q hw ⟨p, r, ts', rfl, h1, h2, h3⟩
    exact ⟨w ++ p, r, ts', by simp, tokens_blank hw h1, h2, h3⟩
  have hblank' : ∀ {w : Bytes} {q : Byte}, Blank (delims cfg) w → UnmatchedParen (delims cfg) post q →
      UnmatchedParen (delims cfg) (w ++ post) q := by
    rintro w q hw ⟨p, r, ts', rfl, h1, h2, h3⟩
    exact ⟨w ++ p, r, ts', by simp, tokens_blank hw h1, h2, h3⟩
  rcases tokens_total (d := delims cfg) post with ⟨ts', h⟩ | ⟨q, h⟩ | ⟨q, h⟩
  · exact lexRead_congr hp hlen hlen' (tokens_append hpre hun (tokens_blank hu h))
      (tokens_append hpre hvn (tokens_blank hv h))
  · rw [lexRead_rejects hp (.inr (.inl ⟨q, unmatchedQuote_append hpre hun (hblank hu h), rfl⟩)),
      lexRead_rejects hp (.inr (.inl ⟨q, unmatchedQuote_append hpre hvn (hblank hv h), rfl⟩))]
  · rw [lexRead_rejects hp (.inr (.inr ⟨q, unmatchedParen_append hpre hun (hblank' hu h), rfl⟩)),
      lexRead_rejects hp (.inr (.inr ⟨q, unmatchedParen_append hpre hvn (hblank' hv h), rfl⟩))]

theorem lexRead_trailing {s ws : Bytes} (hws : Blank (delims cfg) ws)
    (hlen : (s ++ ws).length < 2 ^ 64 - 1) : lexRead cfg (s ++ ws) = lexRead cfg s := by
  have hlen' : s.length < 2 ^ 64 - 1 := by simp at hlen ⊢; omega
  have hb : NoOrdinaryHead (delims cfg) ws := by
    simpa using noOrdinaryHead_blank (u := []) hws (.inr (by intro c hc; simp at hc))
  rcases tokens_total (d := delims cfg) s with ⟨ts', h⟩ | ⟨q, h⟩ | ⟨q, h⟩
  · apply lexRead_congr hp hlen hlen' (ts := ts') _ h
    have := tokens_append h hb (ts' := []) (by simpa using tokens_blank hws .nil)
    simpa using this
  · rw [lexRead_rejects hp (.inr (.inl ⟨q, h, rfl⟩))]
    obtain ⟨p, r, ts', rfl, h1, h2, h3⟩ := h
    apply lexRead_rejects hp (.inr (.inl ⟨q, ⟨p, r ++ ws, ts', by simp, h1, h2, ?_⟩, rfl⟩))
    intro c hc
    rcases List.mem_append.1 hc with hc | hc
    · exact h3 c hc
    · exact hp.spaceQuote c (hws c hc)
  · rw [lexRead_rejects hp (.inr (.inr ⟨q, h, rfl⟩))]
    obtain ⟨p, r, ts', rfl, h1, h2, h3⟩ := h
    apply lexRead_rejects hp (.inr (.inr ⟨q, ⟨p, r ++ ws, ts', by simp, h1, h2, ?_⟩, rfl⟩))
    intro c hc
    rcases List.mem_append.1 hc with hc | hc
    · exact h3 c hc
    · exact hp.spaceParen c (hws c hc)

/-- Appending one value token to a command. -/
theorem lexRead_snoc {pre x : Bytes} {n : Bytes} {ps : List (GValue Bytes)} {ns : List (GNamed Bytes)}
    {t : Tok} {v : GValue Bytes} (hlen : pre.length < 2 ^ 64 - 1) (hpre : lexRead cfg pre = .ok (.ok ⟨n, ps, ns⟩))
    (hnb : ¬ Blank (delims cfg) pre)
    (hb : NoOrdinaryHead (delims cfg) x) (hx : Tokens (delims cfg) x [t]) (hv : TokValue (delims cfg) t v) :
    lexRead cfg (pre ++ x) = .ok (.ok ⟨n, ps ++ [v], ns⟩) := by
  obtain ⟨ts, h1, h2⟩ := accepts_cmd ((lexRead_ok_iff hp hlen).1 hpre) hnb
  refine lexRead_accepts hp ⟨_, tokens_append h1 hb hx, ?_⟩
  have := items_append h2 (Items.positional hv .nil)
  simp at this
  exact .cmd this

/-- Appending `key = value` to a command. -/
theorem lexRead_snoc_named {pre x : Bytes} {n : Bytes} {ps : List (GValue Bytes)} {ns : List (GNamed Bytes)}
    {t t' : Tok} {k : Bytes} {v : GValue Bytes} (hlen : pre.length < 2 ^ 64 - 1)
    (hpre : lexRead cfg pre = .ok (.ok ⟨n, ps, ns⟩)) (hnb : ¬ Blank (delims cfg) pre)
    (hb : NoOrdinaryHead (delims cfg) x) (hx : Tokens (delims cfg) x [t', .assign, t]) (hk : TokText t' k)
    (hv : TokValue (delims cfg) t v) :
    lexRead cfg (pre ++ x) = .ok (.ok ⟨n, ps, ns ++ [⟨k, v⟩]⟩) := by
  obtain ⟨ts, h1, h2⟩ := accepts_cmd ((lexRead_ok_iff hp hlen).1 hpre) hnb
  refine lexRead_accepts hp ⟨_, tokens_append h1 hb hx, ?_⟩
  have := items_append h2 (Items.named hk hv .nil)
  simp at this
  exact .cmd this

end

/-! ## Balance -/

section
variable {cfg : LexCfg}

theorem foldl_quote {d : Delims} {q : Byte} {l : Bytes} (h : ∀ c ∈ l, c ∉ d.quotes) :
    l.foldl (Open.step d) (.quote q) = .quote q := by
  induction l with
  | nil => rfl
  | cons c l ih =>
    have : Open.step d (.quote q) c = .quote q := by simp [Open.step, h c (by simp)]
    rw [List.foldl_cons, this]
    exact ih (fun x hx => h x (by simp [hx]))

theorem foldl_paren {d : Delims} {q : Byte} {l : Bytes} (h : ∀ c ∈ l, c ∉ d.parens) :
    l.foldl (Open.step d) (.paren q) = .paren q := by
  induction l with
  | nil => rfl
  | cons c l ih =>
    have : Open.step d (.paren q) c = .paren q := by simp [Open.step, h c (by simp)]
    rw [List.foldl_cons, this]
    exact ih (fun x hx => h x (by simp [hx]))

theorem foldl_plain {d : Delims} {l : Bytes} (h : ∀ c ∈ l, c ∉ d.parens ∧ c ∉ d.quotes) :
    l.foldl (Open.step d) .nothing = .nothing := by
  induction l with
  | nil => rfl
  | cons c l ih =>
    have : Open.step d .nothing c = .nothing := by simp [Open.step, h c (by simp)]
    rw [List.foldl_cons, this]
    exact ih (fun x hx => h x (by simp [hx]))

theorem openAtEnd_tokens (hp : Proper cfg) {s : Bytes} {ts : List Tok} (h : Tokens (delims cfg) s ts) :
    openAtEnd (delims cfg) s = .nothing := by
  unfold openAtEnd
  induction h with
  | nil => rfl
  | @space c s ts hc _ ih =>
    have h1 := hp.spaceQuote c hc
    have h2 := hp.spaceParen c hc
    have : Open.step (delims cfg) .nothing c = .nothing := by simp [Open.step, delims, h1, h2]
    rw [List.foldl_cons, this, ih]
  | assign _ ih =>
    have h1 := hp.noAssign.1
    have h2 := hp.noAssign.2.1
    have : Open.step (delims cfg) .nothing 61 = .nothing := by simp [Open.step, delims, h1, h2]
    rw [List.foldl_cons, this, ih]
  | @quoted q q' body s ts h1 h2 h3 _ ih =>
    have e1 : Open.step (delims cfg) .nothing q = .quote q := by simp [Open.step, h1]
    have e2 : Open.step (delims cfg) (.quote q) q' = .nothing := by simp [Open.step, h2]
    rw [List.foldl_cons, List.foldl_append, e1, foldl_quote h3, List.foldl_cons, e2, ih]
  | @group q q' body s ts h1 h2 h3 _ ih =>
    have h4 : q ∉ (delims cfg).quotes := hp.parenQuote q h1
    have e1 : Open.step (delims cfg) .nothing q = .paren q := by simp [Open.step, h1, h4]
    have e2 : Open.step (delims cfg) (.paren q) q' = .nothing := by simp [Open.step, h2]
    rw [List.foldl_cons, List.foldl_append, e1, foldl_paren h3, List.foldl_cons, e2, ih]
  | @bare c w s ts h1 h2 _ _ _ ih =>
    have := foldl_plain (d := delims cfg) (l := c :: w) (by
      intro x hx
      rcases List.mem_cons.1 hx with rfl | hx
      · exact ⟨h1.2.2.1, h1.2.2.2⟩
      · exact ⟨(h2 x hx).2.2.1, (h2 x hx).2.2.2⟩)
    rw [← List.cons_append, List.foldl_append, this, ih]
  | @bareList c y w s ts h1 h2 _ _ _ _ ih =>
    have := foldl_plain (d := delims cfg) (l := c :: w) (by
      intro x hx
      rcases List.mem_cons.1 hx with rfl | hx
      · exact ⟨h1.2.2.1, h1.2.2.2⟩
      · exact ⟨(h2 x hx).2.2.1, (h2 x hx).2.2.2⟩)
    rw [← List.cons_append, List.foldl_append, this, ih]

theorem openAtEnd_unmatchedQuote (hp : Proper cfg) {s : Bytes} {q : Byte}
    (h : UnmatchedQuote (delims cfg) s q) : openAtEnd (delims cfg) s = .quote q := by
  obtain ⟨p, r, ts, rfl, h1, h2, h3⟩ := h
  have := openAtEnd_tokens hp h1
  unfold openAtEnd at this ⊢
  have e1 : Open.step (delims cfg) .nothing q = .quote q := by simp [Open.step, h2]
  rw [List.foldl_append, this, List.foldl_cons, e1, foldl_quote h3]

theorem openAtEnd_unmatchedParen (hp : Proper cfg) {s : Bytes} {q : Byte}
    (h : UnmatchedParen (delims cfg) s q) : openAtEnd (delims cfg) s = .paren q := by
  obtain ⟨p, r, ts, rfl, h1, h2, h3⟩ := h
  have := openAtEnd_tokens hp h1
  unfold openAtEnd at this ⊢
  have h4 : q ∉ (delims cfg).quotes := hp.parenQuote q h2
  have e1 : Open.step (delims cfg) .nothing q = .paren q := by simp [Open.step, h2, h4]
  rw [List.foldl_append, this, List.foldl_cons, e1, foldl_paren h3]

theorem openAtEnd_cases (hp : Proper cfg) (s : Bytes) :
    (openAtEnd (delims cfg) s = .nothing ∧ ∃ ts, Tokens (delims cfg) s ts) ∨
    (∃ q, openAtEnd (delims cfg) s = .quote q ∧ UnmatchedQuote (delims cfg) s q) ∨
    (∃ q, openAtEnd (delims cfg) s = .paren q ∧ UnmatchedParen (delims cfg) s q) := by
  rcases tokens_total (d := delims cfg) s with ⟨ts, h⟩ | ⟨q, h⟩ | ⟨q, h⟩
  · exact .inl ⟨openAtEnd_tokens hp h, ts, h⟩
  · exact .inr (.inl ⟨q, openAtEnd_unmatchedQuote hp h, h⟩)
  · exact .inr (.inr ⟨q, openAtEnd_unmatchedParen hp h, h⟩)

end

/-! ## Pieces -/

section
variable {d : Delims}

theorem chunks_ne_nil (s : Bytes) : chunks d s ≠ [] := by
  cases s with
  | nil => simp [chunks]
  | cons c t =>
    simp only [chunks]
    split
    · simp
    · split <;> simp

theorem chunks_split {a rest : Bytes} (ha : ∀ c ∈ a, ¬ Separator d c) {c : Byte} (hc : Separator d c) :
    chunks d (a ++ c :: rest) = a :: chunks d rest := by
  induction a with
  | nil => simp [chunks, hc]
  | cons x a ih =>
    have := ih (fun y hy => ha y (by simp [hy]))
    simp only [List.cons_append, chunks, this]
    rw [if_neg (ha x (by simp))]

theorem chunks_last {a : Bytes} (ha : ∀ c ∈ a, ¬ Separator d c) : chunks d a = [a] := by
  induction a with
  | nil => rfl
  | cons x a ih =>
    have := ih (fun y hy => ha y (by simp [hy]))
    simp only [chunks, this]
    rw [if_neg (ha x (by simp))]

theorem parts_of_pieces (s : Bytes) (hq : ∀ c ∈ s, c ∉ d.quotes) : Parts d s (pieces d s) := by
  induction hn : s.length using Nat.strongRecOn generalizing s with
  | ind n ih =>
  subst hn
  obtain ⟨a, hcase⟩ : ∃ a, (∀ c ∈ a, ¬ Separator d c) ∧ (s = a ∨ ∃ c rest, Separator d c ∧ s = a ++ c :: rest) := by
    rcases split_first (fun c => Separator d c) s with ⟨a, c, rest, h1, h2, h3⟩ | h
    · first
      | exact ⟨a, h3, .inr ⟨c, rest, h2, h1⟩⟩
      | exact ⟨a, h2, .inr ⟨c, rest, h3, h1⟩⟩
    · exact ⟨s, h, .inl rfl⟩
  have hraw : ∀ x t, a = x :: t → RawPart d a := by
    intro x t hx
    refine ⟨⟨x, t, hx, hcase.1 x (by simp [hx])⟩, ?_⟩
    intro l c r hl hs
    exact absurd hs (hcase.1 c (by simp [hl]))
  obtain ⟨ha, rfl | ⟨c, rest, hc, rfl⟩⟩ := hcase
  · rw [pieces, chunks_last ha]
    cases s with
    | nil => exact .nil
    | cons x t => simpa using Parts.last (hraw x t rfl)
  · rw [pieces, chunks_split ha hc]
    have ih' := ih rest.length (by simp; omega) rest (fun x hx => hq x (by simp [hx])) rfl
    cases a with
    | nil => simpa [pieces] using Parts.sep hc ih'
    | cons x t =>
      have hcnt : quoteCount d (x :: t) = 0 := quoteCount_zero (fun y hy => hq y (by
        simp only [List.mem_append]; exact .inl hy))
      have := Parts.cons (hraw x t rfl) (by omega) hc ih'
      simpa [pieces] using this

theorem unquotes_plain {ps : List Bytes} (h : ∀ p ∈ ps, p ≠ []) (hq : ∀ p ∈ ps, ∀ c ∈ p, c ∉ d.quotes) :
    Forall2 (Unquote d) ps ps := by
  induction ps with
  | nil => exact .nil
  | cons p ps ih =>
    refine .cons ?_ (ih (fun p hp => h p (by simp [hp])) (fun p hp => hq p (by simp [hp])))
    cases p with
    | nil => exact absurd rfl (h [] (by simp))
    | cons c t => exact .plainHead (hq (c :: t) (by simp) c (by simp))

theorem mem_chunks {s p : Bytes} {c : Byte} (hp : p ∈ chunks d s) (hc : c ∈ p) : c ∈ s := by
  induction s generalizing p with
  | nil => simp [chunks] at hp; subst hp; simp at hc
  | cons x t ih =>
    simp only [chunks] at hp
    split at hp
    · rcases List.mem_cons.1 hp with rfl | hp
      · simp at hc
      · exact List.mem_cons_of_mem _ (ih hp hc)
    · split at hp
      · rename_i h r heq
        rcases List.mem_cons.1 hp with rfl | hp
        · rcases List.mem_cons.1 hc with rfl | hc
          · simp
          · exact List.mem_cons_of_mem _ (ih (p := h) (by simp [heq]) hc)
        · exact List.mem_cons_of_mem _ (ih (p := p) (by simp [heq, hp]) hc)
      · simp at hp
        subst hp
        simp at hc
        simp [hc]

theorem subValues_pieces {s : Bytes} (hq : ∀ c ∈ s, c ∉ d.quotes) : SubValues d s (pieces d s) := by
  refine ⟨pieces d s, parts_of_pieces s hq, unquotes_plain ?_ ?_⟩
  · intro p hp
    simpa using (List.mem_filter.1 hp).2
  · intro p hp c hc
    exact hq c (mem_chunks (List.mem_filter.1 hp).1 hc)

/-- A part that is one lone quote makes the number of quotes odd. -/
theorem quoteCount_of_lone (hsq : ∀ c, Separator d c → c ∉ d.quotes) {s : Bytes} {ps : List Bytes}
    (h : Parts d s ps) {q : Byte} (hq : q ∈ d.quotes) (hm : [q] ∈ ps) : quoteCount d s % 2 = 1 := by
  have h1 : quoteCount d [q] = 1 := by simp [quoteCount, hq]
  induction h with
  | nil => simp at hm
  | @sep c s ps hc _ ih =>
    have : quoteCount d (c :: s) = quoteCount d s := by simp [quoteCount, hsq c hc]
    rw [this]
    exact ih hm
  | last _ => simp at hm; subst hm; omega
  | @cons p c s ps _ he hc _ ih =>
    have e : quoteCount d (p ++ c :: s) = quoteCount d p + quoteCount d s := by
      unfold quoteCount
      rw [List.countP_append, List.countP_cons]
      simp [hsq c hc]
    rcases List.mem_cons.1 hm with rfl | hm
    · omega
    · have := ih hm
      omega

/-- The parts and the separators account for the whole text. -/
theorem parts_interleave {s : Bytes} {ps : List Bytes} (h : Parts d s ps) :
    ∃ s0 rest, s = interleave s0 rest ∧ rest.map Prod.fst = ps ∧ (∀ c ∈ s0, Separator d c) ∧
      (∀ x ∈ rest, ∀ c ∈ x.2, Separator d c) ∧ (∀ x ∈ rest.dropLast, x.2 ≠ []) := by
  induction h with
  | nil => exact ⟨[], [], rfl, rfl, by simp, by simp, by simp⟩
  | @sep c s ps hc _ ih =>
    obtain ⟨s0, rest, rfl, h1, h2, h3, h4⟩ := ih
    refine ⟨c :: s0, rest, ?_, h1, ?_, h3, h4⟩
    · cases rest <;> simp [interleave]
    · intro x hx
      rcases List.mem_cons.1 hx with rfl | hx
      · exact hc
      · exact h2 x hx
  | @last p hp => exact ⟨[], [(p, [])], by simp [interleave], rfl, by simp, by simp, by simp⟩
  | @cons p c s ps hp he hc _ ih =>
    obtain ⟨s0, rest, rfl, h1, h2, h3, h4⟩ := ih
    refine ⟨[], (p, c :: s0) :: rest, ?_, by simp [h1], by simp, ?_, ?_⟩
    · cases rest <;> simp [interleave]
    · intro x hx
      rcases List.mem_cons.1 hx with rfl | hx
      · intro y hy
        rcases List.mem_cons.1 hy with rfl | hy
        · exact hc
        · exact h2 y hy
      · exact h3 x hx
    · intro x hx
      cases rest with
      | nil => simp at hx
      | cons r rest =>
        rw [List.dropLast_cons_of_ne_nil (by simp)] at hx
        rcases List.mem_cons.1 hx with rfl | hx
        · simp
        · exact h4 x hx

end

/-! ## Views -/

theorem View.read_isOk_iff {mem : Bytes} {v : View} : (v.read mem).IsOk ↔ v.off + v.len ≤ mem.length := by
  unfold View.read
  split <;> simp_all

theorem readViews_isOk_iff {mem : Bytes} {vs : List View} :
    (readViews mem vs).IsOk ↔ ∀ v ∈ vs, v.off + v.len ≤ mem.length := by
  induction vs with
  | nil => simp [readViews]
  | cons v vs ih =>
    have h1 := @View.read_isOk_iff mem v
    simp only [readViews, List.mem_cons, forall_eq_or_imp]
    rw [← ih, ← h1]
    cases v.read mem <;> simp
    cases readViews mem vs <;> simp

theorem gvalue_read_isOk_iff {mem : Bytes} {v : GValue View} :
    (v.read mem).IsOk ↔ ∀ w ∈ v.subvalues, w.off + w.len ≤ mem.length := by
  rw [← readViews_isOk_iff]
  unfold GValue.read
  cases readViews mem v.subvalues <;> simp

theorem readArgs_isOk_iff {mem : Bytes} {vs : List (GValue View)} :
    (readArgs mem vs).IsOk ↔ ∀ v ∈ vs, ∀ w ∈ v.subvalues, w.off + w.len ≤ mem.length := by
  induction vs with
  | nil => simp [readArgs]
  | cons v vs ih =>
    have h1 := @gvalue_read_isOk_iff mem v
    simp only [readArgs, List.mem_cons, forall_eq_or_imp]
    rw [← ih, ← h1]
    cases v.read mem <;> simp
    cases readArgs mem vs <;> simp

theorem readNamed_isOk_iff {mem : Bytes} {vs : List (GNamed View)} :
    (readNamed mem vs).IsOk ↔ (∀ a ∈ vs, a.key.off + a.key.len ≤ mem.length) ∧
      ∀ a ∈ vs, ∀ w ∈ a.value.subvalues, w.off + w.len ≤ mem.length := by
  induction vs with
  | nil => simp [readNamed]
  | cons v vs ih =>
    have h1 := @gvalue_read_isOk_iff mem v.value
    have h2 := @View.read_isOk_iff mem v.key
    simp only [readNamed, List.mem_cons, forall_eq_or_imp]
    rw [and_and_and_comm, ← ih, ← h1, ← h2]
    cases v.key.read mem <;> simp
    cases v.value.read mem <;> simp
    cases readNamed mem vs <;> simp

theorem read_isOk_iff {mem : Bytes} {i : GInput View} : (i.read mem).IsOk ↔ AllInside mem.length i := by
  have h1 := @View.read_isOk_iff mem i.name
  have h2 := @readArgs_isOk_iff mem i.arguments
  have h3 := @readNamed_isOk_iff mem i.namedArguments
  have : AllInside mem.length i ↔ (i.name.read mem).IsOk ∧ (readArgs mem i.arguments).IsOk ∧
      (readNamed mem i.namedArguments).IsOk := by
    rw [h1, h2, h3]
    constructor
    · rintro ⟨a, b, c, d⟩; exact ⟨a, b, c, d⟩
    · rintro ⟨a, b, c, d⟩; exact ⟨a, b, c, d⟩
  rw [this]
  unfold GInput.read
  cases i.name.read mem <;> simp
  cases readArgs mem i.arguments <;> simp
  cases readNamed mem i.namedArguments <;> simp

end Coil
