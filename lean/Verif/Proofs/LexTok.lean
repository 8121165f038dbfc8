import Verif.Proofs.LexChar

/-! # The tokeniser loop computes the lexical grammar -/

namespace Coil
open Spec

theorem sub64_of_le {a b : Nat} (h : b ≤ a) : sub64 a b = a - b := by simp [sub64, h]

/-- A token of the model stands for a token of the grammar. -/
def TokMatches (s : Bytes) (t : Token) : Tok → Prop
  | .word w => t.type = .string ∧ t.value.read s = .ok w
  | .compound g => t.type = .groupString ∧ t.value.read s = .ok g
  | .assign => t.type = .assignment ∧ t.value.read s = .ok [61]

theorem Forall2.snoc_left {α β : Type} {R : α → β → Prop} {as : List α} {bs : List β}
    (h : Forall2 R as bs) : as.length = bs.length := by
  induction h with
  | nil => rfl
  | cons _ _ ih => simp [ih]

section
variable {cfg : LexCfg} {s : Bytes}

theorem tokLoop_end {fuel i : Nat} {toks : List Token} (hi : s.length ≤ i) :
    tokLoop cfg s (fuel + 1) i toks = .ok (.ok toks) := by
  have : ¬ i < s.length := by omega
  simp [tokLoop, this]

theorem tokLoop_space {fuel i : Nat} {toks : List Token} {c : Byte} {rest : Bytes}
    (hd : s.drop i = c :: rest) (hc : cfg.getCharType c = .space) :
    tokLoop cfg s (fuel + 1) i toks = tokLoop cfg s (fuel + 1) (i + 1) toks := by
  obtain ⟨hlt, -, hr⟩ := drop_eq_cons hd
  have hscan : scan s (cfg.isType .space) i =
      scan s (cfg.isType .space) (i + 1) := by
    unfold scan
    rw [hd, hr]
    simp [scanFrom, LexCfg.isType, hc]
  by_cases h2 : i + 1 < s.length
  · conv => lhs; unfold tokLoop
    conv => rhs; unfold tokLoop
    rw [if_pos hlt, if_pos h2, hscan]
  · rw [tokLoop_end (i := i + 1) (by omega)]
    have : rest = [] := by
      rw [← hr, List.drop_of_length_le (by omega)]
    subst this
    conv => lhs; unfold tokLoop
    rw [if_pos hlt]
    have : scan s (cfg.isType .space) i = i + 1 := by
      unfold scan; rw [hd]; simp [scanFrom, LexCfg.isType, hc]
    simp only [this]
    rw [if_pos (by omega)]

theorem scan_stay {p : Byte → Bool} {i : Nat} {c : Byte} {rest : Bytes}
    (hd : s.drop i = c :: rest) (hc : p c = false) : scan s p i = i := by
  unfold scan; rw [hd]; simp [scanFrom, hc]

theorem readAt_of_drop {i : Nat} {c : Byte} {rest : Bytes} (hd : s.drop i = c :: rest) :
    readAt s i = .ok c := by
  obtain ⟨_, h, _⟩ := drop_eq_cons hd
  simp [readAt, h]

theorem tokLoop_assign {fuel i : Nat} {toks : List Token} {rest : Bytes}
    (hd : s.drop i = 61 :: rest) :
    tokLoop cfg s (fuel + 1) i toks =
      tokLoop cfg s fuel (i + 1) (toks ++ [⟨.assignment, ⟨i, 1⟩⟩]) := by
  obtain ⟨hlt, -, hr⟩ := drop_eq_cons hd
  have ht : cfg.getCharType 61 = .assignment := charType_assignment.2 rfl
  conv => lhs; unfold tokLoop
  rw [if_pos hlt]
  simp only [scan_stay (p := cfg.isType .space) hd (by simp [LexCfg.isType, ht])]
  rw [if_neg (by omega)]
  simp [readAt_of_drop hd, ht, View.substr]

theorem tokLoop_word {fuel i : Nat} {toks : List Token} {c : Byte} {w rest : Bytes}
    (hd : s.drop i = c :: (w ++ rest)) (hc : cfg.getCharType c = .string)
    (hw : ∀ x ∈ w, cfg.getCharType x = .string)
    (hr : ∀ x, rest.head? = some x → cfg.getCharType x ≠ .string) :
    tokLoop cfg s (fuel + 1) i toks =
      tokLoop cfg s fuel (i + (w.length + 1))
        (toks ++ [⟨if w.any cfg.isGroupSeparator then .groupString else .string,
          ⟨i, w.length + 1⟩⟩]) := by
  obtain ⟨hlt, -, hdr⟩ := drop_eq_cons hd
  conv => lhs; unfold tokLoop
  rw [if_pos hlt]
  simp only [scan_stay (p := cfg.isType .space) hd (by simp [LexCfg.isType, hc])]
  rw [if_neg (by omega)]
  have hsw : scanWord cfg s (i + 1) .string =
      (i + 1 + w.length, if w.any cfg.isGroupSeparator then .groupString else .string) := by
    unfold scanWord; rw [hdr]; exact scanWordFrom_append hw hr
  simp only [readAt_of_drop hd, Res.bind_ok, hc, hsw, View.substr]
  rw [sub64_of_le (by omega)]
  simp only [Nat.zero_add]
  rw [show i + 1 + w.length - 1 + 1 = i + (w.length + 1) by omega,
    show i + 1 + w.length - i = w.length + 1 by omega]

theorem tokLoop_quote {fuel i : Nat} {toks : List Token} {q q' : Byte} {body rest : Bytes}
    (hd : s.drop i = q :: (body ++ q' :: rest)) (hq : cfg.getCharType q = .quote)
    (hq' : cfg.getCharType q' = .quote)
    (hb : ∀ x ∈ body, cfg.getCharType x ≠ .quote) :
    tokLoop cfg s (fuel + 1) i toks =
      tokLoop cfg s fuel (i + (body.length + 2))
        (toks ++ [⟨.string, ⟨i + 1, body.length⟩⟩]) := by
  obtain ⟨hlt, -, hdr⟩ := drop_eq_cons hd
  have hlen := drop_length_eq (by omega) hdr
  simp only [List.length_cons] at hlen
  conv => lhs; unfold tokLoop
  rw [if_pos hlt]
  simp only [scan_stay (p := cfg.isType .space) hd (by simp [LexCfg.isType, hq])]
  rw [if_neg (by omega)]
  have hs : scan s (fun c => !cfg.isType .quote c) (i + 1) = i + 1 + body.length := by
    unfold scan; rw [hdr]
    exact scanFrom_append (by simpa [LexCfg.isType] using hb) (by simp [LexCfg.isType, hq'])
  simp only [readAt_of_drop hd, Res.bind_ok, hq, hs, View.substr]
  rw [if_neg (by omega), sub64_of_le (a := i + 1 + body.length) (b := i) (by omega), sub64_of_le (by omega)]
  simp only [Nat.zero_add]
  rw [show i + 1 + body.length + 1 = i + (body.length + 2) by omega,
    show i + 1 + body.length - i - 1 = body.length by omega]

theorem tokLoop_group {fuel i : Nat} {toks : List Token} {q q' : Byte} {body rest : Bytes}
    (hd : s.drop i = q :: (body ++ q' :: rest)) (hq : cfg.getCharType q = .group)
    (hq' : cfg.getCharType q' = .group)
    (hb : ∀ x ∈ body, cfg.getCharType x ≠ .group) :
    tokLoop cfg s (fuel + 1) i toks =
      tokLoop cfg s fuel (i + (body.length + 2))
        (toks ++ [⟨.groupString, ⟨i + 1, body.length⟩⟩]) := by
  obtain ⟨hlt, -, hdr⟩ := drop_eq_cons hd
  have hlen := drop_length_eq (by omega) hdr
  simp only [List.length_cons] at hlen
  conv => lhs; unfold tokLoop
  rw [if_pos hlt]
  simp only [scan_stay (p := cfg.isType .space) hd (by simp [LexCfg.isType, hq])]
  rw [if_neg (by omega)]
  have hs : scan s (fun c => !cfg.isType .group c) (i + 1) = i + 1 + body.length := by
    unfold scan; rw [hdr]
    exact scanFrom_append (by simpa [LexCfg.isType] using hb) (by simp [LexCfg.isType, hq'])
  simp only [readAt_of_drop hd, Res.bind_ok, hq, hs, View.substr]
  rw [if_neg (by omega), sub64_of_le (a := i + 1 + body.length) (b := i) (by omega), sub64_of_le (by omega)]
  simp only [Nat.zero_add]
  rw [show i + 1 + body.length + 1 = i + (body.length + 2) by omega,
    show i + 1 + body.length - i - 1 = body.length by omega]

theorem tokLoop_openQuote {fuel i : Nat} {toks : List Token} {q : Byte} {body : Bytes}
    (hd : s.drop i = q :: body) (hq : cfg.getCharType q = .quote)
    (hb : ∀ x ∈ body, cfg.getCharType x ≠ .quote) :
    tokLoop cfg s (fuel + 1) i toks = .ok (.error (errQuote q)) := by
  obtain ⟨hlt, -, hdr⟩ := drop_eq_cons hd
  have hlen := drop_length_eq (a := body) (b := []) (i := i + 1) (l := s) (by omega) (by simpa using hdr)
  conv => lhs; unfold tokLoop
  rw [if_pos hlt]
  simp only [scan_stay (p := cfg.isType .space) hd (by simp [LexCfg.isType, hq])]
  rw [if_neg (by omega)]
  have hs : scan s (fun c => !cfg.isType .quote c) (i + 1) = i + 1 + body.length := by
    unfold scan; rw [hdr]
    have := scanFrom_append (p := fun c => !cfg.isType .quote c) (a := body)
      (b := []) (i := i + 1) (by simpa [LexCfg.isType] using hb) (by simp)
    simpa using this
  simp only [readAt_of_drop hd, Res.bind_ok, hq, hs]
  simp only [List.length_nil] at hlen
  rw [if_pos (by omega)]

theorem tokLoop_openGroup {fuel i : Nat} {toks : List Token} {q : Byte} {body : Bytes}
    (hd : s.drop i = q :: body) (hq : cfg.getCharType q = .group)
    (hb : ∀ x ∈ body, cfg.getCharType x ≠ .group) :
    tokLoop cfg s (fuel + 1) i toks = .ok (.error (errGroup q)) := by
  obtain ⟨hlt, -, hdr⟩ := drop_eq_cons hd
  have hlen := drop_length_eq (a := body) (b := []) (i := i + 1) (l := s) (by omega) (by simpa using hdr)
  conv => lhs; unfold tokLoop
  rw [if_pos hlt]
  simp only [scan_stay (p := cfg.isType .space) hd (by simp [LexCfg.isType, hq])]
  rw [if_neg (by omega)]
  have hs : scan s (fun c => !cfg.isType .group c) (i + 1) = i + 1 + body.length := by
    unfold scan; rw [hdr]
    have := scanFrom_append (p := fun c => !cfg.isType .group c) (a := body)
      (b := []) (i := i + 1) (by simpa [LexCfg.isType] using hb) (by simp)
    simpa using this
  simp only [readAt_of_drop hd, Res.bind_ok, hq, hs]
  simp only [List.length_nil] at hlen
  rw [if_pos (by omega)]

/-- Scanning a prefix that consists of complete tokens: the loop arrives behind it with these
tokens pushed. -/
theorem tokLoop_prefix (hp : Proper cfg) {pre : Bytes} {ts : List Tok}
    (h : Tokens (delims cfg) pre ts) :
    ∀ (rest : Bytes) (i fuel : Nat) (toks : List Token), i ≤ s.length → s.drop i = pre ++ rest →
      NoOrdinaryHead (delims cfg) rest → pre.length < fuel →
      ∃ ts' fuel', Forall2 (TokMatches s) ts' ts ∧ fuel ≤ fuel' + pre.length ∧
        tokLoop cfg s fuel i toks = tokLoop cfg s fuel' (i + pre.length) (toks ++ ts') := by
  induction h with
  | nil =>
    intro rest i fuel toks hi hd _ hf
    exact ⟨[], fuel, .nil, by simp, by simp⟩
  | @space c u ts hc _ ih =>
    intro rest i fuel toks hi hd hr hf
    obtain ⟨fuel, rfl⟩ : ∃ f, fuel = f + 1 := ⟨fuel - 1, by omega⟩
    have hd' : s.drop i = c :: (u ++ rest) := by simpa using hd
    obtain ⟨hlt, -, hdr⟩ := drop_eq_cons hd'
    obtain ⟨ts', f', h1, h2, h3⟩ := ih rest (i + 1) (fuel + 1) toks (by omega) hdr hr (by simp at hf; omega)
    refine ⟨ts', f', h1, by simp at hf h2 ⊢; omega, ?_⟩
    rw [tokLoop_space hd' ((charType_space hp).2 hc), h3]
    congr 1
    simp; omega
  | @assign u ts _ ih =>
    intro rest i fuel toks hi hd hr hf
    obtain ⟨fuel, rfl⟩ : ∃ f, fuel = f + 1 := ⟨fuel - 1, by omega⟩
    have hd' : s.drop i = 61 :: (u ++ rest) := by simpa using hd
    obtain ⟨hlt, -, hdr⟩ := drop_eq_cons hd'
    obtain ⟨ts', f', h1, h2, h3⟩ := ih rest (i + 1) fuel (toks ++ [⟨.assignment, ⟨i, 1⟩⟩]) (by omega) hdr hr
      (by simp at hf; omega)
    refine ⟨⟨.assignment, ⟨i, 1⟩⟩ :: ts', f', .cons ⟨rfl, ?_⟩ h1, by simp at hf h2 ⊢; omega, ?_⟩
    · exact view_read_of_drop (a := [61]) (by omega) (by simpa using hd')
    rw [tokLoop_assign hd', h3]
    simp only [List.append_assoc, List.cons_append, List.nil_append, List.length_cons]
    congr 1
    omega
  | @quoted q q' body u ts hq hq' hb _ ih =>
    intro rest i fuel toks hi hd hr hf
    obtain ⟨fuel, rfl⟩ : ∃ f, fuel = f + 1 := ⟨fuel - 1, by omega⟩
    have hd' : s.drop i = q :: (body ++ q' :: (u ++ rest)) := by simpa using hd
    obtain ⟨hlt, -, hdr⟩ := drop_eq_cons hd'
    have hlen := drop_length_eq (by omega) hdr
    simp only [List.length_cons] at hlen
    have hd2 : s.drop (i + (body.length + 2)) = u ++ rest := by
      have := drop_add_of_append (l := s) (i := i) (a := q :: (body ++ [q'])) (b := u ++ rest) (by simpa using hd')
      simpa using this
    obtain ⟨ts', f', h1, h2, h3⟩ := ih rest (i + (body.length + 2)) fuel
      (toks ++ [⟨.string, ⟨i + 1, body.length⟩⟩]) (by omega) hd2 hr
      (by simp at hf; omega)
    refine ⟨⟨.string, ⟨i + 1, body.length⟩⟩ :: ts', f', .cons ⟨rfl, ?_⟩ h1, by simp at hf h2 ⊢; omega, ?_⟩
    · exact view_read_of_drop (by omega) hdr
    rw [tokLoop_quote hd' ((charType_quote hp).2 hq) ((charType_quote hp).2 hq')
      (fun x hx h => hb x hx ((charType_quote hp).1 h)), h3]
    simp only [List.append_assoc, List.cons_append, List.nil_append, List.length_cons, List.length_append]
    congr 1
    omega
  | @group q q' body u ts hq hq' hb _ ih =>
    intro rest i fuel toks hi hd hr hf
    obtain ⟨fuel, rfl⟩ : ∃ f, fuel = f + 1 := ⟨fuel - 1, by omega⟩
    have hd' : s.drop i = q :: (body ++ q' :: (u ++ rest)) := by simpa using hd
    obtain ⟨hlt, -, hdr⟩ := drop_eq_cons hd'
    have hlen := drop_length_eq (by omega) hdr
    simp only [List.length_cons] at hlen
    have hd2 : s.drop (i + (body.length + 2)) = u ++ rest := by
      have := drop_add_of_append (l := s) (i := i) (a := q :: (body ++ [q'])) (b := u ++ rest) (by simpa using hd')
      simpa using this
    obtain ⟨ts', f', h1, h2, h3⟩ := ih rest (i + (body.length + 2)) fuel
      (toks ++ [⟨.groupString, ⟨i + 1, body.length⟩⟩]) (by omega) hd2 hr
      (by simp at hf; omega)
    refine ⟨⟨.groupString, ⟨i + 1, body.length⟩⟩ :: ts', f', .cons ⟨rfl, ?_⟩ h1, by simp at hf h2 ⊢; omega, ?_⟩
    · exact view_read_of_drop (by omega) hdr
    rw [tokLoop_group hd' ((charType_group hp).2 hq) ((charType_group hp).2 hq')
      (fun x hx h => hb x hx ((charType_group hp).1 h)), h3]
    simp only [List.append_assoc, List.cons_append, List.nil_append, List.length_cons, List.length_append]
    congr 1
    omega
  | @bare c w u ts hc hw hu hsep _ ih =>
    intro rest i fuel toks hi hd hr hf
    obtain ⟨fuel, rfl⟩ : ∃ f, fuel = f + 1 := ⟨fuel - 1, by omega⟩
    have hd' : s.drop i = c :: (w ++ (u ++ rest)) := by simpa using hd
    obtain ⟨hlt, -, hdr⟩ := drop_eq_cons hd'
    have hlen := drop_length_eq (by omega) hdr
    have hd1 : s.drop i = (c :: w) ++ (u ++ rest) := by simpa using hd'
    have hd2 : s.drop (i + (w.length + 1)) = u ++ rest := by
      have := drop_add_of_append hd1
      simpa using this
    have hany : w.any cfg.isGroupSeparator = false := by
      rw [List.any_eq_false]
      intro x hx h
      exact hsep x hx ((isGroupSeparator_iff hp.toAscii x).1 h)
    have hhead : ∀ x, (u ++ rest).head? = some x → cfg.getCharType x ≠ .string := by
      intro x hx h
      have ho := (charType_string hp).1 h
      cases u with
      | nil => exact hr x (by simpa using hx) ho
      | cons y t => exact hu x (by simpa using hx) ho
    obtain ⟨ts', f', h1, h2, h3⟩ := ih rest (i + (w.length + 1)) fuel
      (toks ++ [⟨.string, ⟨i, w.length + 1⟩⟩]) (by omega) hd2 hr
      (by simp at hf; omega)
    refine ⟨⟨.string, ⟨i, w.length + 1⟩⟩ :: ts', f', .cons ⟨rfl, ?_⟩ h1, by simp at hf h2 ⊢; omega, ?_⟩
    · exact view_read_of_drop (a := c :: w) (by omega) hd1
    rw [tokLoop_word hd' ((charType_string hp).2 hc)
      (fun x hx => (charType_string hp).2 (hw x hx)) hhead, hany]
    simp only [Bool.false_eq_true, if_false]
    rw [h3]
    simp only [List.append_assoc, List.cons_append, List.nil_append, List.length_cons, List.length_append]
    congr 1
    omega
  | @bareList c x w u ts hc hw hu hx hsep _ ih =>
    intro rest i fuel toks hi hd hr hf
    obtain ⟨fuel, rfl⟩ : ∃ f, fuel = f + 1 := ⟨fuel - 1, by omega⟩
    have hd' : s.drop i = c :: (w ++ (u ++ rest)) := by simpa using hd
    obtain ⟨hlt, -, hdr⟩ := drop_eq_cons hd'
    have hlen := drop_length_eq (by omega) hdr
    have hd1 : s.drop i = (c :: w) ++ (u ++ rest) := by simpa using hd'
    have hd2 : s.drop (i + (w.length + 1)) = u ++ rest := by
      have := drop_add_of_append hd1
      simpa using this
    have hany : w.any cfg.isGroupSeparator = true := by
      rw [List.any_eq_true]
      exact ⟨x, hx, (isGroupSeparator_iff hp.toAscii x).2 hsep⟩
    have hhead : ∀ x, (u ++ rest).head? = some x → cfg.getCharType x ≠ .string := by
      intro x hx h
      have ho := (charType_string hp).1 h
      cases u with
      | nil => exact hr x (by simpa using hx) ho
      | cons y t => exact hu x (by simpa using hx) ho
    obtain ⟨ts', f', h1, h2, h3⟩ := ih rest (i + (w.length + 1)) fuel
      (toks ++ [⟨.groupString, ⟨i, w.length + 1⟩⟩]) (by omega) hd2 hr
      (by simp at hf; omega)
    refine ⟨⟨.groupString, ⟨i, w.length + 1⟩⟩ :: ts', f', .cons ⟨rfl, ?_⟩ h1, by simp at hf h2 ⊢; omega, ?_⟩
    · exact view_read_of_drop (a := c :: w) (by omega) hd1
    rw [tokLoop_word hd' ((charType_string hp).2 hc)
      (fun x hx => (charType_string hp).2 (hw x hx)) hhead, hany]
    simp only [if_true]
    rw [h3]
    simp only [List.append_assoc, List.cons_append, List.nil_append, List.length_cons, List.length_append]
    congr 1
    omega

end

theorem split_first {α : Type u} (p : α → Prop) [DecidablePred p] (l : List α) :
    (∃ a c b, l = a ++ c :: b ∧ (∀ x ∈ a, ¬ p x) ∧ p c) ∨ ∀ x ∈ l, ¬ p x := by
  induction l with
  | nil => right; simp
  | cons c t ih =>
    by_cases hc : p c
    · left; exact ⟨[], c, t, rfl, by simp, hc⟩
    · rcases ih with ⟨a, x, b, h1, h2, h3⟩ | h
      · left
        refine ⟨c :: a, x, b, by simp [h1], ?_, h3⟩
        intro y hy
        rcases List.mem_cons.1 hy with rfl | hy
        · exact hc
        · exact h2 y hy
      · right
        intro y hy
        rcases List.mem_cons.1 hy with rfl | hy
        · exact hc
        · exact h y hy

theorem split_while {α : Type u} (p : α → Prop) [DecidablePred p] (l : List α) :
    ∃ a b, l = a ++ b ∧ (∀ x ∈ a, p x) ∧ (∀ c, b.head? = some c → ¬ p c) := by
  rcases split_first (fun x => ¬ p x) l with ⟨a, c, b, h1, h2, h3⟩ | h
  · exact ⟨a, c :: b, h1, fun x hx => Decidable.of_not_not (h2 x hx), by simpa using h3⟩
  · exact ⟨l, [], by simp, fun x hx => Decidable.of_not_not (h x hx), by simp⟩

namespace Spec
variable {d : Delims}

instance (c : Byte) : Decidable (Ordinary d c) := by unfold Ordinary; infer_instance
instance (c : Byte) : Decidable (Separator d c) := by unfold Separator; infer_instance

/-- Every text either consists of tokens or has an unmatched delimiter. -/
theorem tokens_total (s : Bytes) :
    (∃ ts, Tokens d s ts) ∨ (∃ q, UnmatchedQuote d s q) ∨ (∃ p, UnmatchedParen d s p) := by
  induction hn : s.length using Nat.strongRecOn generalizing s with
  | ind n ih =>
  subst hn
  -- a complete token (or a space) `x` in front of a shorter text
  have lift : ∀ (x u : Bytes) (f : List Tok → List Tok), s = x ++ u → u.length < s.length →
      (∀ v ts, (v = u ∨ ∃ c r, u = v ++ c :: r) → Tokens d v ts → Tokens d (x ++ v) (f ts)) →
      (∃ ts, Tokens d s ts) ∨ (∃ q, UnmatchedQuote d s q) ∨ (∃ p, UnmatchedParen d s p) := by
    intro x u f hs hlt hext
    rcases ih u.length hlt u rfl with ⟨ts, h⟩ | ⟨q, pre, rest, ts, h1, h2, h3, h4⟩ | ⟨q, pre, rest, ts, h1, h2, h3, h4⟩
    · left; exact ⟨f ts, hs ▸ hext u ts (.inl rfl) h⟩
    · right; left
      exact ⟨q, x ++ pre, rest, f ts, by simp [hs, h1], hext pre ts (.inr ⟨q, rest, h1⟩) h2, h3, h4⟩
    · right; right
      exact ⟨q, x ++ pre, rest, f ts, by simp [hs, h1], hext pre ts (.inr ⟨q, rest, h1⟩) h2, h3, h4⟩
  cases s with
  | nil => left; exact ⟨[], .nil⟩
  | cons c t =>
    by_cases hsp : c ∈ d.spaces
    · exact lift [c] t id rfl (by simp) (fun v ts _ h => .space hsp h)
    by_cases ha : c = 61
    · subst ha
      exact lift [61] t (.assign :: ·) rfl (by simp) (fun v ts _ h => .assign h)
    by_cases hpar : c ∈ d.parens
    · rcases split_first (fun x => x ∈ d.parens) t with ⟨body, c', u, h1, h2, h3⟩ | h
      · refine lift (c :: (body ++ [c'])) u (.compound body :: ·) (by simp [h1]) (by simp [h1]; omega) ?_
        intro v ts _ h
        have := Tokens.group hpar h3 h2 h
        simpa using this
      · right; right
        exact ⟨c, [], t, [], rfl, .nil, hpar, h⟩
    by_cases hq : c ∈ d.quotes
    · rcases split_first (fun x => x ∈ d.quotes) t with ⟨body, c', u, h1, h2, h3⟩ | h
      · refine lift (c :: (body ++ [c'])) u (.word body :: ·) (by simp [h1]) (by simp [h1]; omega) ?_
        intro v ts _ h
        have := Tokens.quoted hq h3 h2 h
        simpa using this
      · right; left
        exact ⟨c, [], t, [], rfl, .nil, hq, h⟩
    · have hc : Ordinary d c := ⟨ha, hsp, hpar, hq⟩
      obtain ⟨w, u, h1, h2, h3⟩ := split_while (fun x => Ordinary d x) t
      have hno : ∀ v, (v = u ∨ ∃ c r, u = v ++ c :: r) → NoOrdinaryHead d v := by
        rintro v (rfl | ⟨y, r, rfl⟩)
        · exact h3
        · intro z hz
          cases v with
          | nil => simp at hz
          | cons a b => exact h3 z (by simpa using hz)
      by_cases hsep : ∃ x ∈ w, Separator d x
      · obtain ⟨x, hx, hxs⟩ := hsep
        refine lift (c :: w) u (.compound (c :: w) :: ·) (by simp [h1]) (by simp [h1]; omega) ?_
        intro v ts hv h
        exact .bareList hc h2 (hno v hv) hx hxs h
      · refine lift (c :: w) u (.word (c :: w) :: ·) (by simp [h1]) (by simp [h1]; omega) ?_
        intro v ts hv h
        exact .bare hc h2 (hno v hv) (fun x hx hs => hsep ⟨x, hx, hs⟩) h

end Spec

section
variable {cfg : LexCfg} {s : Bytes}

theorem tokenize_of_tokens (hp : Proper cfg) {ts : List Tok} (h : Tokens (delims cfg) s ts) :
    ∃ ts', Forall2 (TokMatches s) ts' ts ∧ tokenize cfg s = .ok (.ok ts') := by
  obtain ⟨ts', f', h1, h2, h3⟩ := tokLoop_prefix (s := s) hp h [] 0 (s.length + 1) [] (by simp) (by simp)
    (by intro c hc; simp at hc) (by omega)
  refine ⟨ts', h1, ?_⟩
  unfold tokenize
  rw [h3]
  obtain ⟨f, rfl⟩ : ∃ f, f' = f + 1 := ⟨f' - 1, by omega⟩
  rw [tokLoop_end (by omega)]
  simp

theorem tokenize_of_unmatchedQuote (hp : Proper cfg) {q : Byte}
    (h : UnmatchedQuote (delims cfg) s q) : tokenize cfg s = .ok (.error (errQuote q)) := by
  obtain ⟨pre, rest, ts, hs, ht, hq, hr⟩ := h
  obtain ⟨ts', f', h1, h2, h3⟩ := tokLoop_prefix (s := s) hp ht (q :: rest) 0 (s.length + 1) [] (by simp)
    (by simp [hs]) (by intro c hc ho; simp at hc; subst hc; exact ho.2.2.2 hq) (by simp [hs]; omega)
  unfold tokenize
  rw [h3]
  obtain ⟨f, rfl⟩ : ∃ f, f' = f + 1 := ⟨f' - 1, by simp [hs] at h2; omega⟩
  exact tokLoop_openQuote (body := rest) (by simp [hs]) ((charType_quote hp).2 hq)
    (fun x hx h => hr x hx ((charType_quote hp).1 h))

theorem tokenize_of_unmatchedParen (hp : Proper cfg) {q : Byte}
    (h : UnmatchedParen (delims cfg) s q) : tokenize cfg s = .ok (.error (errGroup q)) := by
  obtain ⟨pre, rest, ts, hs, ht, hq, hr⟩ := h
  obtain ⟨ts', f', h1, h2, h3⟩ := tokLoop_prefix (s := s) hp ht (q :: rest) 0 (s.length + 1) [] (by simp)
    (by simp [hs]) (by intro c hc ho; simp at hc; subst hc; exact ho.2.2.1 hq) (by simp [hs]; omega)
  unfold tokenize
  rw [h3]
  obtain ⟨f, rfl⟩ : ∃ f, f' = f + 1 := ⟨f' - 1, by simp [hs] at h2; omega⟩
  exact tokLoop_openGroup (body := rest) (by simp [hs]) ((charType_group hp).2 hq)
    (fun x hx h => hr x hx ((charType_group hp).1 h))

theorem TokMatches.unique {t : Token} {a b : Tok} (ha : TokMatches s t a) (hb : TokMatches s t b) :
    a = b := by
  cases a <;> cases b <;> simp_all [TokMatches]

theorem Forall2.unique_right {α β : Type} {R : α → β → Prop}
    (hR : ∀ a b b', R a b → R a b' → b = b') {as : List α} {bs bs' : List β}
    (h : Forall2 R as bs) (h' : Forall2 R as bs') : bs = bs' := by
  induction h generalizing bs' with
  | nil => cases h'; rfl
  | cons h1 _ ih =>
    cases h' with
    | cons h1' h2' => rw [hR _ _ _ h1 h1', ih h2']

/-- The lexical grammar is unambiguous. -/
theorem tokens_unique (hp : Proper cfg) {ts ts' : List Tok} (h : Tokens (delims cfg) s ts)
    (h' : Tokens (delims cfg) s ts') : ts = ts' := by
  obtain ⟨a, h1, h2⟩ := tokenize_of_tokens hp h
  obtain ⟨b, h3, h4⟩ := tokenize_of_tokens hp h'
  rw [h2] at h4
  simp at h4
  subst h4
  exact Forall2.unique_right (R := TokMatches s) (fun _ _ _ x y => TokMatches.unique x y) h1 h3

theorem tokenize_ok (hp : Proper cfg) {toks : List Token} (h : tokenize cfg s = .ok (.ok toks)) :
    ∃ ts, Tokens (delims cfg) s ts ∧ Forall2 (TokMatches s) toks ts := by
  rcases tokens_total (d := delims cfg) s with ⟨ts, ht⟩ | ⟨q, hq⟩ | ⟨q, hq⟩
  · obtain ⟨a, h1, h2⟩ := tokenize_of_tokens hp ht
    rw [h2] at h
    simp at h
    subst h
    exact ⟨ts, ht, h1⟩
  · rw [tokenize_of_unmatchedQuote hp hq] at h; simp at h
  · rw [tokenize_of_unmatchedParen hp hq] at h; simp at h

theorem tokenize_error (hp : Proper cfg) {e : Bytes} (h : tokenize cfg s = .ok (.error e)) :
    (∃ q, UnmatchedQuote (delims cfg) s q ∧ e = errQuote q) ∨
    (∃ q, UnmatchedParen (delims cfg) s q ∧ e = errGroup q) := by
  rcases tokens_total (d := delims cfg) s with ⟨ts, ht⟩ | ⟨q, hq⟩ | ⟨q, hq⟩
  · obtain ⟨a, h1, h2⟩ := tokenize_of_tokens hp ht
    rw [h2] at h
    simp at h
  · rw [tokenize_of_unmatchedQuote hp hq] at h; simp at h; exact .inl ⟨q, hq, h.symm⟩
  · rw [tokenize_of_unmatchedParen hp hq] at h; simp at h; exact .inr ⟨q, hq, h.symm⟩

theorem tokenize_isOk (hp : Proper cfg) : (tokenize cfg s).IsOk := by
  rcases tokens_total (d := delims cfg) s with ⟨ts, ht⟩ | ⟨q, hq⟩ | ⟨q, hq⟩
  · obtain ⟨a, h1, h2⟩ := tokenize_of_tokens hp ht
    rw [h2]; trivial
  · rw [tokenize_of_unmatchedQuote hp hq]; trivial
  · rw [tokenize_of_unmatchedParen hp hq]; trivial

end

end Coil
