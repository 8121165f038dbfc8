import Verif.Proofs.LexTok

/-! # Splitting a group text computes the grammar of compound values -/

namespace Coil
open Spec

/-- Whether an odd number of quotes occur in a text. -/
def oddQuotes (d : Delims) (a : Bytes) : Bool := decide (quoteCount d a % 2 = 1)

theorem oddQuotes_nil {d : Delims} : oddQuotes d [] = false := by simp [oddQuotes, quoteCount]

theorem oddQuotes_cons {d : Delims} {c : Byte} {a : Bytes} :
    oddQuotes d (c :: a) = (decide (c ∈ d.quotes) ^^ oddQuotes d a) := by
  unfold oddQuotes quoteCount
  rw [List.countP_cons]
  by_cases h : c ∈ d.quotes
  · simp only [h, decide_true, if_true, Bool.true_bne]
    by_cases h2 : List.countP (fun c => decide (c ∈ d.quotes)) a % 2 = 1
    · have : ¬ (List.countP (fun c => decide (c ∈ d.quotes)) a + 1) % 2 = 1 := by omega
      simp [h2, this]
    · have : (List.countP (fun c => decide (c ∈ d.quotes)) a + 1) % 2 = 1 := by omega
      simp [h2, this]
  · simp [h]

section
variable {cfg : LexCfg}

theorem scanPieceFrom_append (hp : Ascii cfg) {p rest : Bytes} {i : Nat} {inq : Bool}
    (hin : ∀ a c b, p = a ++ c :: b → Separator (delims cfg) c → (inq ^^ oddQuotes (delims cfg) a) = true)
    (hr : ∀ c, rest.head? = some c → Separator (delims cfg) c ∧ (inq ^^ oddQuotes (delims cfg) p) = false) :
    scanPieceFrom cfg (p ++ rest) i inq = i + p.length := by
  induction p generalizing i inq with
  | nil =>
    cases rest with
    | nil => simp [scanPieceFrom]
    | cons c t =>
      obtain ⟨h1, h2⟩ := hr c (by simp)
      rw [oddQuotes_nil] at h2
      have h3 := (isGroupSeparator_iff hp c).2 h1
      simp at h2
      simp [scanPieceFrom, h2, h3]
  | cons c t ih =>
    have hc : (inq || !cfg.isGroupSeparator c) = true := by
      by_cases hs : cfg.isGroupSeparator c = true
      · have := hin [] c t rfl ((isGroupSeparator_iff hp c).1 hs)
        rw [oddQuotes_nil] at this
        simp at this
        simp [this]
      · simp [hs]
    simp only [List.cons_append, scanPieceFrom, hc, if_true]
    have hq : (if cfg.isQuote c = true then !inq else inq) = (inq ^^ decide (c ∈ (delims cfg).quotes)) := by
      have := isQuote_iff hp c
      by_cases h : cfg.isQuote c = true
      · simp [h, delims, this.1 h]
      · have h' : c ∉ cfg.quotes := fun x => h (this.2 x)
        simp [h, delims, h']
    rw [hq, ih]
    · simp; omega
    · intro a x b hab hx
      have := hin (c :: a) x b (by simp [hab]) hx
      rw [oddQuotes_cons] at this
      rw [← this]
      cases inq <;> cases decide (c ∈ (delims cfg).quotes) <;> simp
    · intro x hx
      obtain ⟨h1, h2⟩ := hr x hx
      refine ⟨h1, ?_⟩
      rw [oddQuotes_cons] at h2
      rw [← h2]
      cases inq <;> cases decide (c ∈ (delims cfg).quotes) <;> simp

/-- The view pushed for a raw part that starts at index `i` of the group. -/
def partView (cfg : LexCfg) (v : View) (i : Nat) (p : Bytes) : View :=
  if (∃ q ∈ p.head?, q ∈ cfg.quotes) ∧ (∃ q ∈ p.getLast?, q ∈ cfg.quotes) then
    ⟨v.off + (i + 1), sub64 (i + p.length - 1) (i + 1)⟩
  else ⟨v.off + i, p.length⟩

variable {s : Bytes} {v : View}

theorem splitLoop_end {fuel i : Nat} {r : List View} (hi : s.length ≤ i) :
    splitLoop cfg s v (fuel + 1) i r = .ok r := by
  have : ¬ i < s.length := by omega
  simp [splitLoop, this]

theorem splitLoop_sep {fuel i : Nat} {r : List View} {c : Byte} {rest : Bytes}
    (hd : s.drop i = c :: rest) (hc : cfg.isGroupSeparator c = true) :
    splitLoop cfg s v (fuel + 1) i r = splitLoop cfg s v (fuel + 1) (i + 1) r := by
  obtain ⟨hlt, -, hr⟩ := drop_eq_cons hd
  have hscan : scan s cfg.isGroupSeparator i = scan s cfg.isGroupSeparator (i + 1) := by
    unfold scan
    rw [hd, hr]
    simp [scanFrom, hc]
  by_cases h2 : i + 1 < s.length
  · conv => lhs; unfold splitLoop
    conv => rhs; unfold splitLoop
    rw [if_pos hlt, if_pos h2, hscan]
  · rw [splitLoop_end (i := i + 1) (by omega)]
    have : rest = [] := by
      rw [← hr, List.drop_of_length_le (by omega)]
    subst this
    conv => lhs; unfold splitLoop
    rw [if_pos hlt]
    have : scan s cfg.isGroupSeparator i = i + 1 := by
      unfold scan; rw [hd]; simp [scanFrom, hc]
    simp only [this]
    rw [if_pos (by omega)]

theorem splitLoop_part (hp : Ascii cfg) {fuel i : Nat} {r : List View} {p rest : Bytes}
    (hd : s.drop i = p ++ rest) (hpart : RawPart (delims cfg) p)
    (hr : ∀ c, rest.head? = some c → Separator (delims cfg) c ∧ quoteCount (delims cfg) p % 2 = 0) :
    splitLoop cfg s v (fuel + 1) i r =
      splitLoop cfg s v fuel (i + p.length + 1) (r ++ [partView cfg v i p]) := by
  obtain ⟨c, t, rfl, hc⟩ := hpart.head
  have hd' : s.drop i = c :: (t ++ rest) := by simpa using hd
  obtain ⟨hlt, -, hdr⟩ := drop_eq_cons hd'
  have hlen := drop_length_eq (by omega) hd
  simp only [List.length_cons] at hlen
  have hnsep : cfg.isGroupSeparator c = false := by
    cases h : cfg.isGroupSeparator c
    · rfl
    · exact absurd ((isGroupSeparator_iff hp c).1 h) hc
  conv => lhs; unfold splitLoop
  rw [if_pos hlt]
  simp only [scan_stay (p := cfg.isGroupSeparator) hd' hnsep]
  rw [if_neg (by omega)]
  have hpiece : scanPiece cfg s i = i + (c :: t).length := by
    unfold scanPiece
    rw [hd]
    apply scanPieceFrom_append hp
    · intro a x b hab hx
      have := hpart.inner a x b hab hx
      simp [oddQuotes, this]
    · intro x hx
      obtain ⟨h1, h2⟩ := hr x hx
      refine ⟨h1, ?_⟩
      simp [oddQuotes, h2]
  have hlast : readAt s (i + (c :: t).length - 1) = .ok ((c :: t).getLast (by simp)) := by
    have : s[i + (c :: t).length - 1]? = some ((c :: t).getLast (by simp)) := by
      have h1 : (s.drop i)[(c :: t).length - 1]? = some ((c :: t).getLast (by simp)) := by
        rw [hd, List.getElem?_append_left (by simp), ← List.getLast?_eq_getElem?, List.getLast?_eq_some_getLast]
      rw [List.getElem?_drop] at h1
      rw [← h1]
      congr 1
    simp only [readAt, this]
  simp only [readAt_of_drop hd', Res.bind_ok, hpiece]
  rw [sub64_of_le (by simp; omega)]
  have hq1 := isQuote_iff hp c
  have hq2 := isQuote_iff hp ((c :: t).getLast (by simp))
  have hgl : (c :: t).getLast? = some ((c :: t).getLast (by simp)) := List.getLast?_eq_some_getLast _
  by_cases h1 : cfg.isQuote c = true
  · simp only [h1, if_true, hlast, Res.bind_ok]
    by_cases h2 : cfg.isQuote ((c :: t).getLast (by simp)) = true
    · have hpv : partView cfg v i (c :: t) =
          ⟨v.off + (i + 1), sub64 (i + (c :: t).length - 1) (i + 1)⟩ := by
        unfold partView
        rw [if_pos ⟨⟨c, by simp, hq1.1 h1⟩, ⟨_, by simp [hgl], hq2.1 h2⟩⟩]
      rw [hpv]
      simp only [h2, if_true, View.substr]
    · have hpv : partView cfg v i (c :: t) = ⟨v.off + i, (c :: t).length⟩ := by
        unfold partView
        rw [if_neg]
        rintro ⟨-, q, hq, hq'⟩
        rw [hgl] at hq
        simp only [Option.mem_def, Option.some.injEq] at hq
        subst hq
        exact h2 (hq2.2 hq')
      rw [hpv]
      simp only [h2, View.substr, Bool.false_eq_true, if_false]
      rw [sub64_of_le (by omega), Nat.add_sub_cancel_left]
  · have hpv : partView cfg v i (c :: t) = ⟨v.off + i, (c :: t).length⟩ := by
      unfold partView
      rw [if_neg]
      rintro ⟨⟨q, hq, hq'⟩, -⟩
      simp at hq
      subst hq
      exact h1 (hq1.2 hq')
    rw [hpv]
    simp only [h1, Bool.false_eq_true, if_false, Res.bind_ok, View.substr]
    rw [sub64_of_le (by omega), Nat.add_sub_cancel_left]

/-- What the view pushed for a raw part looks like to a reader of the text `mem`. -/
def PartMatches (cfg : LexCfg) (mem : Bytes) (w : View) (p : Bytes) : Prop :=
  (∃ r, Unquote (delims cfg) p r ∧ w.read mem = .ok r) ∨
  (∃ q ∈ cfg.quotes, p = [q] ∧ w.len = 2 ^ 64 - 1)

theorem View.read_sub {mem s a b : Bytes} {v : View} {i : Nat} (hv : v.read mem = .ok s)
    (hi : i ≤ s.length) (hd : s.drop i = a ++ b) :
    (⟨v.off + i, a.length⟩ : View).read mem = .ok a := by
  unfold View.read at hv
  split at hv
  · rename_i h
    simp only [Res.ok.injEq] at hv
    have hl : s.length = v.len := by rw [← hv]; simp; omega
    have hle := drop_length_eq hi hd
    have h2 : v.off + i ≤ mem.length := by omega
    have hmem : mem.drop (v.off + i) = a ++ (b ++ mem.drop (v.off + v.len)) := by
      have : mem.drop v.off = s ++ mem.drop (v.off + v.len) := by
        rw [← hv, ← List.drop_drop, List.take_append_drop]
      rw [← List.drop_drop, this, List.drop_append_of_le_length hi, hd, List.append_assoc]
    exact view_read_of_drop h2 hmem
  · cases hv

theorem partView_matches {mem p rest : Bytes} {i : Nat} (hv : v.read mem = .ok s)
    (hi : i ≤ s.length) (hd : s.drop i = p ++ rest) (hne : p ≠ []) :
    PartMatches cfg mem (partView cfg v i p) p := by
  have hlen := drop_length_eq hi hd
  unfold partView
  split
  · rename_i h
    obtain ⟨⟨q, hq, hqq⟩, q', hq', hqq'⟩ := h
    cases p with
    | nil => simp at hq
    | cons c t =>
      simp at hq
      subst hq
      rcases List.eq_nil_or_concat t with rfl | ⟨b, x, rfl⟩
      · right
        refine ⟨c, hqq, rfl, ?_⟩
        simp only [List.length_cons, List.length_nil, sub64]
        rw [if_neg (by omega)]
        omega
      · simp only [List.concat_eq_append] at hd hlen hq' ⊢
        left
        have : x = q' := by
          simp [List.getLast?_cons] at hq'
          exact hq'
        subst this
        refine ⟨b, .quoted hqq hqq', ?_⟩
        rw [sub64_of_le (by simp)]
        have hdd : s.drop (i + 1) = b ++ (x :: rest) := by
          have := drop_eq_cons (l := s) (i := i) (c := c) (r := b ++ [x] ++ rest) (by simpa using hd)
          simpa using this.2.2
        have hl : (i + (c :: (b ++ [x])).length - 1) - (i + 1) = b.length := by simp; omega
        rw [hl]
        exact View.read_sub hv (by simp at hlen; omega) hdd
  · rename_i h
    left
    refine ⟨p, ?_, View.read_sub hv hi hd⟩
    cases p with
    | nil => exact absurd rfl hne
    | cons c t =>
      by_cases hc : c ∈ cfg.quotes
      · have hgl : (c :: t).getLast? = some ((c :: t).getLast (by simp)) := List.getLast?_eq_some_getLast _
        have hl : (c :: t).getLast (by simp) ∉ cfg.quotes := by
          intro hx
          exact h ⟨⟨c, by simp, hc⟩, ⟨_, by simp [hgl], hx⟩⟩
        have := List.dropLast_concat_getLast (l := c :: t) (by simp)
        rw [← this]
        exact .plainLast hl
      · exact .plainHead hc

theorem splitLoop_parts (hp : Ascii cfg) {mem : Bytes} (hv : v.read mem = .ok s) {u : Bytes}
    {ps : List Bytes} (h : Parts (delims cfg) u ps) :
    ∀ (i fuel : Nat) (r : List View), i ≤ s.length → s.drop i = u → u.length < fuel →
      ∃ vs, Forall2 (PartMatches cfg mem) vs ps ∧ splitLoop cfg s v fuel i r = .ok (r ++ vs) := by
  induction h with
  | nil =>
    intro i fuel r hi hd hf
    obtain ⟨fuel, rfl⟩ : ∃ f, fuel = f + 1 := ⟨fuel - 1, by omega⟩
    have : s.length ≤ i := by simpa using hd
    exact ⟨[], .nil, by rw [splitLoop_end this]; simp⟩
  | @sep c u ps hc _ ih =>
    intro i fuel r hi hd hf
    obtain ⟨fuel, rfl⟩ : ∃ f, fuel = f + 1 := ⟨fuel - 1, by omega⟩
    obtain ⟨hlt, -, hdr⟩ := drop_eq_cons hd
    obtain ⟨vs, h1, h2⟩ := ih (i + 1) (fuel + 1) r (by omega) hdr (by simp at hf; omega)
    exact ⟨vs, h1, by rw [splitLoop_sep hd ((isGroupSeparator_iff hp c).2 hc), h2]⟩
  | @last p hpart =>
    intro i fuel r hi hd hf
    obtain ⟨c, t, hct, -⟩ := hpart.head
    obtain ⟨fuel, rfl⟩ : ∃ f, fuel = f + 1 := ⟨fuel - 1, by omega⟩
    obtain ⟨fuel, rfl⟩ : ∃ f, fuel = f + 1 := ⟨fuel - 1, by subst hct; simp at hf; omega⟩
    have hd' : s.drop i = p ++ [] := by simpa using hd
    have hlen := drop_length_eq hi hd'
    simp only [List.length_nil] at hlen
    refine ⟨[partView cfg v i p], .cons (partView_matches hv hi hd' (by simp [hct])) .nil, ?_⟩
    rw [splitLoop_part hp hd' hpart (by simp), splitLoop_end (by omega)]
  | @cons p c u ps hpart heven hc _ ih =>
    intro i fuel r hi hd hf
    obtain ⟨x, t, hct, -⟩ := hpart.head
    obtain ⟨fuel, rfl⟩ : ∃ f, fuel = f + 1 := ⟨fuel - 1, by omega⟩
    have hlen := drop_length_eq hi hd
    simp only [List.length_cons] at hlen
    have hd2 : s.drop (i + p.length + 1) = u := by
      have := drop_add_of_append hd
      exact (drop_eq_cons this).2.2
    obtain ⟨vs, h1, h2⟩ := ih (i + p.length + 1) fuel (r ++ [partView cfg v i p]) (by omega) hd2
      (by simp at hf; omega)
    refine ⟨partView cfg v i p :: vs, .cons (partView_matches hv hi hd (by simp [hct])) h1, ?_⟩
    rw [splitLoop_part hp hd hpart (by intro y hy; simp at hy; subst hy; exact ⟨hc, heven⟩), h2]
    simp

end

namespace Spec
variable {d : Delims}

theorem raw_prefix (s : Bytes) (inq : Bool) :
    ∃ p rest, s = p ++ rest ∧
      (∀ a c b, p = a ++ c :: b → Separator d c → (inq ^^ oddQuotes d a) = true) ∧
      (rest = [] ∨ ∃ c r, rest = c :: r ∧ Separator d c ∧ (inq ^^ oddQuotes d p) = false) := by
  induction s generalizing inq with
  | nil => exact ⟨[], [], rfl, by simp, .inl rfl⟩
  | cons c t ih =>
    by_cases h : Separator d c ∧ inq = false
    · exact ⟨[], c :: t, rfl, by simp, .inr ⟨c, t, rfl, h.1, by simp [oddQuotes_nil, h.2]⟩⟩
    · obtain ⟨p, rest, h1, h2, h3⟩ := ih (inq ^^ decide (c ∈ d.quotes))
      refine ⟨c :: p, rest, by simp [h1], ?_, ?_⟩
      · intro a x b hab hx
        cases a with
        | nil =>
          simp at hab
          obtain ⟨rfl, rfl⟩ := hab
          cases inq
          · exact absurd ⟨hx, rfl⟩ h
          · simp [oddQuotes_nil]
        | cons y a =>
          simp at hab
          obtain ⟨rfl, hab⟩ := hab
          have := h2 a x b hab hx
          rw [oddQuotes_cons, ← this]
          cases inq <;> cases decide (c ∈ d.quotes) <;> simp
      · rcases h3 with h3 | ⟨x, r, h4, h5, h6⟩
        · exact .inl h3
        · refine .inr ⟨x, r, h4, h5, ?_⟩
          rw [oddQuotes_cons, ← h6]
          cases inq <;> cases decide (c ∈ d.quotes) <;> simp

/-- Every group text splits into parts. -/
theorem parts_total (s : Bytes) : ∃ ps, Parts d s ps := by
  induction hn : s.length using Nat.strongRecOn generalizing s with
  | ind n ih =>
  subst hn
  cases s with
  | nil => exact ⟨[], .nil⟩
  | cons c t =>
    by_cases hc : Separator d c
    · obtain ⟨ps, h⟩ := ih t.length (by simp) t rfl
      exact ⟨ps, .sep hc h⟩
    · obtain ⟨p, rest, h1, h2, h3⟩ := raw_prefix (d := d) (c :: t) false
      have hne : p ≠ [] := by
        rintro rfl
        rcases h3 with rfl | ⟨x, r, rfl, hx, -⟩
        · simp at h1
        · simp at h1; rw [← h1.1] at hx; exact hc hx
      obtain ⟨y, p', rfl⟩ := List.exists_cons_of_ne_nil hne
      have hy : y = c := by simp at h1; exact h1.1.symm
      subst hy
      have hraw : RawPart d (y :: p') := by
        refine ⟨⟨y, p', rfl, hc⟩, ?_⟩
        intro a x b hab hx
        have := h2 a x b hab hx
        simpa [oddQuotes] using this
      rcases h3 with rfl | ⟨x, r, rfl, hx, hev⟩
      · refine ⟨[y :: p'], ?_⟩
        rw [h1]
        simpa using Parts.last hraw
      · obtain ⟨ps, h⟩ := ih r.length (by rw [h1]; simp; omega) r rfl
        refine ⟨(y :: p') :: ps, ?_⟩
        rw [h1]
        refine .cons hraw ?_ hx h
        simp [oddQuotes] at hev
        omega

theorem parts_rawPart {s : Bytes} {ps : List Bytes} (h : Parts d s ps) : ∀ p ∈ ps, RawPart d p := by
  induction h with
  | nil => simp
  | sep _ _ ih => exact ih
  | last h => intro p hp; simp at hp; subst hp; exact h
  | cons h _ _ _ ih =>
    intro p hp
    rcases List.mem_cons.1 hp with rfl | hp
    · exact h
    · exact ih p hp

/-- A non-empty part has a value unless it is one lone quote. -/
theorem unquote_total {p : Bytes} (hne : p ≠ []) :
    (∃ r, Unquote d p r) ∨ ∃ q ∈ d.quotes, p = [q] := by
  cases p with
  | nil => exact absurd rfl hne
  | cons c t =>
    by_cases hc : c ∈ d.quotes
    · rcases List.eq_nil_or_concat t with rfl | ⟨b, x, rfl⟩
      · exact .inr ⟨c, hc, rfl⟩
      · rw [List.concat_eq_append]
        by_cases hx : x ∈ d.quotes
        · exact .inl ⟨b, .quoted hc hx⟩
        · exact .inl ⟨(c :: b) ++ [x], .plainLast (t := c :: b) hx⟩
    · exact .inl ⟨c :: t, .plainHead hc⟩

theorem not_unquote_lone {q : Byte} (hq : q ∈ d.quotes) {r : Bytes} : ¬ Unquote d [q] r := by
  generalize hp : [q] = p
  intro h
  cases h with
  | quoted => simp at hp
  | plainHead hc => simp at hp; exact hc (hp.1 ▸ hq)
  | @plainLast c t hc =>
    cases t with
    | nil => simp at hp; exact hc (hp ▸ hq)
    | cons => simp at hp

/-- Every group text has sub-values, unless some part of it is one lone quote. -/
theorem subValues_total (s : Bytes) : (∃ vs, SubValues d s vs) ∨ LoneQuote d s := by
  obtain ⟨ps, h⟩ := parts_total (d := d) s
  have key : ∀ l : List Bytes, (∀ p ∈ l, RawPart d p) →
      (∃ vs, Forall2 (Unquote d) l vs) ∨ ∃ q, q ∈ d.quotes ∧ [q] ∈ l := by
    intro l
    induction l with
    | nil => intro _; exact .inl ⟨[], .nil⟩
    | cons p l ih =>
      intro hl
      obtain ⟨c, t, hct, -⟩ := (hl p (by simp)).head
      rcases unquote_total (d := d) (p := p) (by simp [hct]) with ⟨r, hr⟩ | ⟨q, hq, hqp⟩
      · rcases ih (fun p hp => hl p (by simp [hp])) with ⟨vs, h⟩ | ⟨q, hq, hm⟩
        · exact .inl ⟨r :: vs, .cons hr h⟩
        · exact .inr ⟨q, hq, by simp [hm]⟩
      · exact .inr ⟨q, hq, by simp [hqp]⟩
  rcases key ps (parts_rawPart h) with ⟨vs, h'⟩ | ⟨q, hq, hm⟩
  · exact .inl ⟨vs, ps, h, h'⟩
  · exact .inr ⟨ps, q, h, hq, hm⟩

end Spec

section
variable {cfg : LexCfg} {mem g : Bytes} {v : View}

theorem View.read_ub_of_huge {w : View} (hmem : mem.length < 2 ^ 64 - 1) (hw : w.len = 2 ^ 64 - 1) :
    w.read mem = .ub .oobRead := by
  unfold View.read
  rw [if_neg (by omega)]

theorem Unquote.unique_aux {d : Delims} {p p' r r' : Bytes} (h : Unquote d p r)
    (h' : Unquote d p' r') (hp : p = p') : r = r' := by
  rcases h with ⟨h1, h2⟩ | h1 | h1 <;> rcases h' with ⟨h3, h4⟩ | h3 | h3
  · simp at hp; exact hp.2.1
  · simp at hp; exact absurd (hp.1 ▸ h1) h3
  · have := congrArg List.getLast? hp
    simp [List.getLast?_cons] at this
    exact absurd (this ▸ h2) h3
  · simp at hp; exact absurd (hp.1 ▸ h3) h1
  · exact hp
  · exact hp
  · have := congrArg List.getLast? hp
    simp [List.getLast?_cons] at this
    exact absurd (this ▸ h4) h1
  · exact hp
  · exact hp

theorem Unquote.unique {d : Delims} {p r r' : Bytes} (h : Unquote d p r) (h' : Unquote d p r') :
    r = r' := Unquote.unique_aux h h' rfl

/-- If every part has a value, the views can be read and give these values. -/
theorem readViews_of_parts {vs : List View} {ps rs : List Bytes}
    (h : Forall2 (PartMatches cfg mem) vs ps) (h' : Forall2 (Unquote (delims cfg)) ps rs) :
    readViews mem vs = .ok rs := by
  induction h generalizing rs with
  | nil => cases h'; rfl
  | cons h1 _ ih =>
    cases h' with
    | cons h1' h2' =>
      rcases h1 with ⟨r, hu, hr⟩ | ⟨q, hq, rfl, -⟩
      · simp [readViews, hr, ih h2', Unquote.unique h1' hu]
      · exact absurd h1' (not_unquote_lone hq)

theorem readViews_of_lone {vs : List View} {ps : List Bytes} (hmem : mem.length < 2 ^ 64 - 1)
    (h : Forall2 (PartMatches cfg mem) vs ps) {q : Byte} (hq : q ∈ cfg.quotes) (hm : [q] ∈ ps) :
    readViews mem vs = .ub .oobRead := by
  induction h with
  | nil => simp at hm
  | @cons w p ws ps h1 _ ih =>
    rcases List.mem_cons.1 hm with hm | hm
    · rcases h1 with ⟨r, hu, hr⟩ | ⟨q', hq', rfl, hl⟩
      · rw [← hm] at hu; exact absurd hu (not_unquote_lone hq)
      · simp [readViews, View.read_ub_of_huge hmem hl]
    · rcases h1 with ⟨r, hu, hr⟩ | ⟨q', hq', rfl, hl⟩
      · simp [readViews, hr, ih hm]
      · simp [readViews, View.read_ub_of_huge hmem hl]

theorem splitGroup_isOk (hp : Ascii cfg) (hv : v.read mem = .ok g) :
    ∃ vs ps, splitGroup cfg mem v = .ok vs ∧ Parts (delims cfg) g ps ∧ Forall2 (PartMatches cfg mem) vs ps := by
  obtain ⟨ps, h⟩ := parts_total (d := delims cfg) g
  obtain ⟨vs, h1, h2⟩ := splitLoop_parts hp hv h 0 (g.length + 1) [] (by simp) (by simp) (by omega)
  exact ⟨vs, ps, by simp [splitGroup, hv, h2], h, h1⟩

theorem splitGroup_of_subValues (hp : Ascii cfg) (hv : v.read mem = .ok g) {rs : List Bytes}
    (h : SubValues (delims cfg) g rs) :
    ∃ vs, splitGroup cfg mem v = .ok vs ∧ readViews mem vs = .ok rs := by
  obtain ⟨ps, hps, hrs⟩ := h
  obtain ⟨vs, h1, h2⟩ := splitLoop_parts hp hv hps 0 (g.length + 1) [] (by simp) (by simp) (by omega)
  exact ⟨vs, by simp [splitGroup, hv, h2], readViews_of_parts h1 hrs⟩

theorem splitGroup_of_lone (hp : Ascii cfg) (hmem : mem.length < 2 ^ 64 - 1) (hv : v.read mem = .ok g)
    (h : LoneQuote (delims cfg) g) :
    ∃ vs, splitGroup cfg mem v = .ok vs ∧ readViews mem vs = .ub .oobRead := by
  obtain ⟨ps, q, hps, hq, hm⟩ := h
  obtain ⟨vs, h1, h2⟩ := splitLoop_parts hp hv hps 0 (g.length + 1) [] (by simp) (by simp) (by omega)
  exact ⟨vs, by simp [splitGroup, hv, h2], readViews_of_lone hmem h1 hq hm⟩

theorem read_self (g : Bytes) : (⟨0, g.length⟩ : View).read g = .ok g := by simp [View.read]

theorem subValues_unique (hp : Ascii cfg) {rs rs' : List Bytes}
    (h : SubValues (delims cfg) g rs) (h' : SubValues (delims cfg) g rs') : rs = rs' := by
  obtain ⟨vs, h1, h2⟩ := splitGroup_of_subValues hp (read_self g) h
  obtain ⟨vs', h3, h4⟩ := splitGroup_of_subValues hp (read_self g) h'
  rw [h1] at h3
  simp at h3
  subst h3
  rw [h2] at h4
  simpa using h4

end

end Coil
