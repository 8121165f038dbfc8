import Verif.Model.LexCost
import Verif.Proofs.LexAny

/-! # What the lexer reads: proofs -/

namespace Coil
open Spec

/-! ## Single loops -/

theorem count_single (j p : Nat) : [j].count p = if p = j then 1 else 0 := by
  by_cases h : p = j
  · simp [h]
  · simp [h, Ne.symm h]

theorem scanReads_count (p : Byte → Bool) (l : Bytes) (i q : Nat) :
    (q < i → (scanReads p l i).count q = 0) ∧ (i ≤ q → q < scanFrom p l i → (scanReads p l i).count q = 1) ∧
    (q = scanFrom p l i → q < i + l.length → (scanReads p l i).count q = 1) ∧
    (scanFrom p l i < q → (scanReads p l i).count q = 0) ∧ (i + l.length ≤ q → (scanReads p l i).count q = 0) := by
  induction l generalizing i with
  | nil => simp [scanReads, scanFrom]; omega
  | cons c l ih =>
    have h := ih (i + 1)
    have g := le_scanFrom p l (i + 1)
    unfold scanReads scanFrom
    by_cases hc : p c
    · simp only [hc, if_true, List.count_cons, List.length_cons]
      by_cases hq : i = q
      · subst hq
        simp
        omega
      · simp [hq]
        omega
    · simp only [hc, if_false, Bool.false_eq_true, List.count_cons, List.length_cons, List.count_nil]
      by_cases hq : i = q
      · subst hq
        simp
      · simp [hq]
        omega

theorem wordReads_count (cfg : LexCfg) (l : Bytes) (i q : Nat) (t : TokenType) :
    (q < i → (wordReads cfg l i).count q = 0) ∧ (i ≤ q → q < (scanWordFrom cfg l i t).1 → (wordReads cfg l i).count q = 2) ∧
    (q = (scanWordFrom cfg l i t).1 → q < i + l.length → (wordReads cfg l i).count q = 1) ∧
    ((scanWordFrom cfg l i t).1 < q → (wordReads cfg l i).count q = 0) ∧
    (i + l.length ≤ q → (wordReads cfg l i).count q = 0) := by
  induction l generalizing i t with
  | nil => simp [wordReads, scanWordFrom]; omega
  | cons c l ih =>
    have h := ih (i + 1) (if cfg.isGroupSeparator c then .groupString else t)
    have g := le_scanWordFrom cfg l (i + 1) (if cfg.isGroupSeparator c then .groupString else t)
    unfold wordReads scanWordFrom
    by_cases hc : cfg.getCharType c = .string
    · simp only [hc, if_true, List.count_cons, List.length_cons]
      by_cases hq : i = q
      · subst hq
        simp
        omega
      · simp [hq]
        omega
    · simp only [hc, if_false, List.count_cons, List.length_cons, List.count_nil]
      by_cases hq : i = q
      · subst hq
        simp
      · simp [hq]
        omega

theorem pieceReads_count (cfg : LexCfg) (l : Bytes) (i q : Nat) (b : Bool) :
    (q < i → (pieceReads cfg l i b).count q = 0) ∧ (i ≤ q → q < scanPieceFrom cfg l i b → (pieceReads cfg l i b).count q = 2) ∧
    (q = scanPieceFrom cfg l i b → q < i + l.length → (pieceReads cfg l i b).count q = 1) ∧
    (scanPieceFrom cfg l i b < q → (pieceReads cfg l i b).count q = 0) ∧
    (i + l.length ≤ q → (pieceReads cfg l i b).count q = 0) := by
  induction l generalizing i b with
  | nil => simp [pieceReads, scanPieceFrom]; omega
  | cons c l ih =>
    have h := ih (i + 1) (if cfg.isQuote c then !b else b)
    have g := le_scanPieceFrom cfg l (i + 1) (if cfg.isQuote c then !b else b)
    unfold pieceReads scanPieceFrom
    by_cases hc : (b || !cfg.isGroupSeparator c) = true
    · simp only [hc, if_true, List.count_cons, List.length_cons]
      by_cases hq : i = q
      · subst hq
        simp
        omega
      · simp [hq]
        omega
    · simp only [hc, List.length_cons]
      by_cases hq : i = q
      · subst hq
        simp
      · simp [hq]
        omega

/-- The characters of a word are of the type `String`; the one after it is not. -/
theorem scanWordFrom_chars (cfg : LexCfg) (l : Bytes) (i : Nat) (t : TokenType) (q : Nat) (c : Byte) (hi : i ≤ q)
    (hc : l[q - i]? = some c) :
    (q < (scanWordFrom cfg l i t).1 → cfg.getCharType c = .string) ∧
    (q = (scanWordFrom cfg l i t).1 → cfg.getCharType c ≠ .string) := by
  induction l generalizing i t with
  | nil => simp at hc
  | cons d l ih =>
    unfold scanWordFrom
    have g := le_scanWordFrom cfg l (i + 1) (if cfg.isGroupSeparator d then .groupString else t)
    by_cases hd : cfg.getCharType d = .string
    · simp only [hd, if_true]
      by_cases hq : q = i
      · subst hq
        simp at hc
        subst hc
        exact ⟨fun _ => hd, by omega⟩
      · refine ih (i + 1) _ (by omega) ?_
        have : q - i = (q - (i + 1)) + 1 := by omega
        rwa [this, List.getElem?_cons_succ] at hc
    · simp only [hd, if_false]
      refine ⟨by omega, ?_⟩
      intro hq
      subst hq
      simp at hc
      subst hc
      exact hd

/-! ## Tokens -/

/-- The token has to be split and its text contains the position. -/
def Token.covers (p : Nat) (t : Token) : Bool :=
  decide (t.type = .groupString ∧ t.value.off ≤ p ∧ p < t.value.off + t.value.len)

/-- How often `splitGroup` may read a character. -/
def splitCost (cfg : LexCfg) (s : Bytes) (p : Nat) : Nat :=
  match s[p]? with
  | some c => if cfg.isQuote c then 5 else 4
  | none => 0

/-- The number of characters of a token, at least one. -/
def Token.weight (t : Token) : Nat := max 1 t.value.len

theorem splitCost_le (cfg : LexCfg) (s : Bytes) (p : Nat) : splitCost cfg s p ≤ 5 := by
  unfold splitCost
  split
  · split <;> omega
  · omega

theorem splitCost_string {cfg : LexCfg} {s : Bytes} {p : Nat} {c : Byte} (hc : s[p]? = some c) (h : cfg.getCharType c = .string) :
    splitCost cfg s p = 4 := by
  have : cfg.isQuote c = false := by
    unfold LexCfg.getCharType at h
    split at h
    · cases h
    · split at h
      · cases h
      · split at h
        · cases h
        · split at h
          · cases h
          · simp_all
  simp [splitCost, hc, this]

structure TokReads (cfg : LexCfg) (s : Bytes) (i : Nat) (new : List Nat) (ts : Option (List Token)) : Prop where
  before : ∀ p, p < i → new.count p = 0
  most : ∀ p, new.count p ≤ 4
  first : new.count i ≤ 3
  inside : ∀ p, s.length ≤ p → new.count p = 0
  all : ∀ p, i ≤ p → p < s.length → 1 ≤ new.count p
  once : ∀ l, ts = some l → ∀ p, l.countP (Token.covers p) ≤ 1
  later : ∀ l, ts = some l → ∀ p, p < i → l.countP (Token.covers p) = 0
  few : ∀ l, ts = some l → ∀ p, 0 < l.countP (Token.covers p) → new.count p + splitCost cfg s p ≤ 6
  start : ∀ l, ts = some l → 0 < l.countP (Token.covers i) → ∀ c, s[i]? = some c → cfg.getCharType c = .string
  weight : ∀ l, ts = some l → (l.map Token.weight).sum + i ≤ s.length
  valid : ∀ l, ts = some l → ∀ t ∈ l, t.value.Valid s.length

/-- The tokens that a result adds. -/
def added (toks : List Token) : Except Bytes (List Token) → Option (List Token) → Prop
  | .error _, o => o = none
  | .ok l, o => ∃ ts, o = some ts ∧ l = toks ++ ts

theorem tokReads_end {cfg : LexCfg} {s : Bytes} {i : Nat} {new : List Nat} {o : Option (List Token)} (ho : o = none ∨ o = some [])
    (hi : i ≤ s.length)
    (before : ∀ p, p < i → new.count p = 0) (most : ∀ p, new.count p ≤ 4) (first : new.count i ≤ 3)
    (inside : ∀ p, s.length ≤ p → new.count p = 0) (all : ∀ p, i ≤ p → p < s.length → 1 ≤ new.count p) :
    TokReads cfg s i new o := by
  refine ⟨before, most, first, inside, all, ?_, ?_, ?_, ?_, ?_, ?_⟩ <;> rcases ho with ho | ho <;> subst ho <;> simp [hi]

/-- One more token in front. -/
theorem tokReads_cons {cfg : LexCfg} {s : Bytes} {i j k : Nat} {own new : List Nat} {o : Option (List Token)} {t : Token}
    (h : TokReads cfg s k new o) (hij : i ≤ j) (hjk : j < k)
    (before : ∀ p, p < i → own.count p = 0)
    (most : ∀ p, p < k → own.count p ≤ 4) (first : own.count i ≤ 3)
    (last : own.count k ≤ 1) (inside : ∀ p, k < p ∨ s.length ≤ p → own.count p = 0)
    (all : ∀ p, i ≤ p → p < k → p < s.length → 1 ≤ own.count p)
    (lastc : 0 < own.count k → ∀ c, s[k]? = some c → cfg.getCharType c ≠ .string)
    (tj : t.type = .groupString → j ≤ t.value.off)
    (tk : t.value.off + t.value.len ≤ k) (hw : t.weight + j ≤ k) (hk : k ≤ s.length)
    (few : ∀ p, t.covers p = true → own.count p + splitCost cfg s p ≤ 6)
    (start : t.covers i = true → ∀ c, s[i]? = some c → cfg.getCharType c = .string) :
    TokReads cfg s i (own ++ new) (o.map (t :: ·)) := by
  have cov : ∀ p, t.covers p = true → j ≤ p ∧ p < k := by
    intro p hp
    unfold Token.covers at hp
    have := of_decide_eq_true hp
    have := tj this.1
    omega
  have cov0 : ∀ p, ¬ (j ≤ p ∧ p < k) → t.covers p = false := by
    intro p hp
    rcases hb : t.covers p with _ | _
    · rfl
    · exact absurd (cov p hb) hp
  refine ⟨?_, ?_, ?_, ?_, ?_, ?_, ?_, ?_, ?_, ?_, ?_⟩
  · intro p hp
    rw [List.count_append, before p hp, h.before p (by omega)]
  · intro p
    rw [List.count_append]
    by_cases hp : p < k
    · have := h.before p hp
      have := most p hp
      omega
    · by_cases hp' : p = k
      · subst hp'
        have := h.first
        omega
      · have := inside p (by omega)
        have := h.most p
        omega
  · rw [List.count_append]
    have := h.before i (by omega)
    omega
  · intro p hp
    rw [List.count_append, inside p (by omega), h.inside p hp]
  · intro p hp hp'
    rw [List.count_append]
    by_cases hpk : p < k
    · have := all p hp hpk hp'
      omega
    · have := h.all p (by omega) hp'
      omega
  · intro l hl p
    obtain ⟨l', rfl, rfl⟩ := Option.map_eq_some_iff.1 hl
    rw [List.countP_cons]
    have := h.once _ rfl p
    by_cases hp : p < k
    · have := h.later _ rfl p hp
      split <;> omega
    · rw [cov0 p (by omega)]
      simp
      omega
  · intro l hl p hp
    obtain ⟨l', rfl, rfl⟩ := Option.map_eq_some_iff.1 hl
    rw [List.countP_cons, cov0 p (by omega), h.later _ rfl p (by omega)]
    simp
  · intro l hl p hp
    obtain ⟨l', rfl, rfl⟩ := Option.map_eq_some_iff.1 hl
    rw [List.countP_cons] at hp
    rw [List.count_append]
    by_cases hpk : p < k
    · rw [h.later _ rfl p hpk] at hp
      have hc : t.covers p = true := by
        rcases hb : t.covers p with _ | _
        · simp [hb] at hp
        · rfl
      have := few p hc
      have := h.before p hpk
      omega
    · rw [cov0 p (by omega)] at hp
      simp only [Bool.false_eq_true, if_false, Nat.add_zero] at hp
      have hf := h.few _ rfl p hp
      by_cases hk0 : own.count p = 0
      · omega
      · have hpk' : p = k := by
          by_cases hp2 : k < p
          · exact absurd (inside p (.inl hp2)) hk0
          · omega
        subst hpk'
        have hlt : p < s.length := by
          by_cases hp3 : p < s.length
          · exact hp3
          · exact absurd (inside p (.inr (by omega))) hk0
        exact absurd (h.start _ rfl hp _ (List.getElem?_eq_getElem hlt)) (lastc (by omega) _ (List.getElem?_eq_getElem hlt))
  · intro l hl hp
    obtain ⟨l', rfl, rfl⟩ := Option.map_eq_some_iff.1 hl
    rw [List.countP_cons, h.later _ rfl i (by omega)] at hp
    apply start
    rcases hb : t.covers i with _ | _
    · simp [hb] at hp
    · rfl
  · intro l hl
    obtain ⟨l', rfl, rfl⟩ := Option.map_eq_some_iff.1 hl
    have := h.weight _ rfl
    simp only [List.map_cons, List.sum_cons]
    omega
  · intro l hl
    obtain ⟨l', rfl, rfl⟩ := Option.map_eq_some_iff.1 hl
    intro x hx
    rcases List.mem_cons.1 hx with rfl | hx
    · unfold View.Valid
      omega
    · exact h.valid _ rfl x hx

theorem added_cons {toks : List Token} {t : Token} {r : Except Bytes (List Token)} {o : Option (List Token)}
    (h : added (toks ++ [t]) r o) : added toks r (o.map (t :: ·)) := by
  cases r with
  | error e =>
    simp only [added] at h ⊢
    simp [h]
  | ok l =>
    obtain ⟨ts, rfl, rfl⟩ := h
    exact ⟨t :: ts, rfl, by simp⟩

theorem tokLoopR_spec (cfg : LexCfg) (s : Bytes) (fuel i : Nat) (toks : List Token) (tr : List Nat)
    (hi : i ≤ s.length) (h0 : 0 < fuel) (hf : s.length < fuel + i) :
    ∃ r new o, tokLoopR cfg s fuel i toks tr = .ok (r, tr ++ new) ∧ tokLoop cfg s fuel i toks = .ok r ∧
      added toks r o ∧ TokReads cfg s i new o := by
  induction fuel generalizing i toks tr with
  | zero => omega
  | succ fuel ih =>
    simp only [tokLoop, tokLoopR]
    by_cases hlt : i < s.length
    · rw [if_pos hlt, if_pos hlt]
      have c1 := scanReads_count (cfg.isType .space) (s.drop i) i
      have h1 := le_scan s (cfg.isType .space) i
      have h2 := scan_le (p := cfg.isType .space) hi
      have h3 := @scan_stop s (cfg.isType .space) i
      simp only [List.length_drop] at c1
      change ∀ q, (_ ∧ (_ → q < scan s (cfg.isType .space) i → _) ∧ (q = scan s (cfg.isType .space) i → _) ∧
        (scan s (cfg.isType .space) i < q → _) ∧ _) at c1
      generalize scan s (cfg.isType .space) i = j at h1 h2 h3 c1
      generalize scanReads (cfg.isType .space) (s.drop i) i = r1 at c1
      by_cases hj : j ≥ s.length
      · rw [if_pos hj, if_pos hj]
        refine ⟨_, r1, some [], rfl, rfl, ⟨[], rfl, by simp⟩, ?_⟩
        refine tokReads_end (.inr rfl) hi ?_ ?_ ?_ ?_ ?_
        · intro p hp; have := c1 p; omega
        · intro p; have := c1 p; omega
        · have := c1 i; omega
        · intro p hp; have := c1 p; omega
        · intro p hp hp'; have := c1 p; omega
      · rw [if_neg hj, if_neg hj]
        have hj' : j < s.length := by omega
        rw [readAt_lt hj']
        simp only [Res.bind_ok]
        have hsj : s[j]? = some s[j] := List.getElem?_eq_getElem hj'
        cases hct : cfg.getCharType s[j] with
        | space =>
          have := h3 hsj
          simp [LexCfg.isType, hct] at this
        | string =>
          simp only
          have c2 := fun q => wordReads_count cfg (s.drop (j + 1)) (j + 1) q .string
          have g1 := le_scanWordFrom cfg (s.drop (j + 1)) (j + 1) .string
          have g2 := scanWordFrom_le cfg (s.drop (j + 1)) (j + 1) .string
          have g3 := fun q c => scanWordFrom_chars cfg (s.drop (j + 1)) (j + 1) .string q c
          simp only [List.length_drop] at g2 c2
          unfold scanWord
          generalize scanWordFrom cfg (s.drop (j + 1)) (j + 1) .string = w at g1 g2 g3 c2
          obtain ⟨k, ty⟩ := w
          simp only at g1 g2 g3 c2 ⊢
          generalize wordReads cfg (s.drop (j + 1)) (j + 1) = r2 at c2
          have hk : k - 1 + 1 = k := by omega
          rw [hk]
          obtain ⟨r, new, o, e1, e2, e3, e4⟩ := ih k
            (toks ++ [⟨ty, (⟨0, s.length⟩ : View).substr j (sub64 k j)⟩]) (tr ++ r1 ++ [j] ++ r2) (by omega) (by omega) (by omega)
          have hc : ∀ p, (r1 ++ [j] ++ r2).count p = r1.count p + (if p = j then 1 else 0) + r2.count p := by
            intro p
            simp only [List.count_append, count_single]
          have str : ∀ p c, j ≤ p → p < k → s[p]? = some c → cfg.getCharType c = .string := by
            intro p c hp hp' hcc
            by_cases hpj : p = j
            · subst hpj
              rw [hsj] at hcc
              cases hcc
              exact hct
            · refine (g3 p c (by omega) ?_).1 hp'
              rw [List.getElem?_drop, show j + 1 + (p - (j + 1)) = p by omega]
              exact hcc
          refine ⟨r, r1 ++ [j] ++ r2 ++ new, o.map (_ :: ·), ?_, e2, added_cons e3,
            tokReads_cons (j := j) (k := k) e4 h1 (by omega) ?_ ?_ ?_ ?_ ?_ ?_ ?_ ?_ ?_ ?_ ?_ ?_ ?_⟩
          · rw [e1]
            simp [List.append_assoc]
          · intro p hp; rw [hc]; have := c1 p; have := c2 p; split <;> omega
          · intro p hp; rw [hc]; have := c1 p; have := c2 p; split <;> omega
          · rw [hc]; have := c1 i; have := c2 i; split <;> omega
          · rw [hc]; have := c1 k; have := c2 k; split <;> omega
          · intro p hp; rw [hc]; have := c1 p; have := c2 p; split <;> omega
          · intro p hp hp' hp''; rw [hc]; have := c1 p; have := c2 p; split <;> omega
          · intro _ c hcc
            refine (g3 k c (by omega) ?_).2 rfl
            rw [List.getElem?_drop, show j + 1 + (k - (j + 1)) = k by omega]
            exact hcc
          · intro _
            simp [View.substr]
          · simp [View.substr, sub64_of_le (a := k) (b := j) (by omega)]; omega
          · simp [Token.weight, View.substr, sub64_of_le (a := k) (b := j) (by omega)]; omega
          · omega
          · intro p hp
            simp [Token.covers, View.substr, sub64_of_le (a := k) (b := j) (by omega)] at hp
            have hps : p < s.length := by omega
            rw [splitCost_string (List.getElem?_eq_getElem hps) (str p _ hp.2.1 (by omega) (List.getElem?_eq_getElem hps)), hc]
            have := c1 p; have := c2 p
            split <;> omega
          · intro hp c hcc
            simp [Token.covers, View.substr, sub64_of_le (a := k) (b := j) (by omega)] at hp
            exact str i c hp.2.1 (by omega) hcc
        | assignment =>
          simp only
          obtain ⟨r, new, o, e1, e2, e3, e4⟩ := ih (j + 1)
            (toks ++ [⟨.assignment, (⟨0, s.length⟩ : View).substr j 1⟩]) (tr ++ r1 ++ [j]) (by omega) (by omega) (by omega)
          have hc : ∀ p, (r1 ++ [j]).count p = r1.count p + (if p = j then 1 else 0) := by
            intro p
            simp only [List.count_append, count_single]
          refine ⟨r, r1 ++ [j] ++ new, o.map (_ :: ·), ?_, e2, added_cons e3,
            tokReads_cons (j := j) (k := j + 1) e4 h1 (by omega) ?_ ?_ ?_ ?_ ?_ ?_ ?_ ?_ ?_ ?_ ?_ ?_ ?_⟩
          · rw [e1]
            simp [List.append_assoc]
          · intro p hp; rw [hc]; have := c1 p; split <;> omega
          · intro p hp; rw [hc]; have := c1 p; split <;> omega
          · rw [hc]; have := c1 i; split <;> omega
          · rw [hc]; have := c1 (j + 1); split <;> omega
          · intro p hp; rw [hc]; have := c1 p; split <;> omega
          · intro p hp hp' hp''; rw [hc]; have := c1 p; split <;> omega
          · intro h
            rw [hc] at h; have := c1 (j + 1)
            split at h <;> omega
          · simp
          · simp [View.substr]
          · simp [Token.weight, View.substr]; omega
          · omega
          · intro p hp
            simp [Token.covers] at hp
          · intro hp
            simp [Token.covers] at hp
        | quote =>
          simp only
          have c2 := scanReads_count (fun c => !cfg.isType .quote c) (s.drop (j + 1)) (j + 1)
          have g1 := le_scan s (fun c => !cfg.isType .quote c) (j + 1)
          have g2 := scan_le (s := s) (p := fun c => !cfg.isType .quote c) (i := j + 1) (by omega)
          simp only [List.length_drop] at c2
          change ∀ q, (_ ∧ (_ → q < scan s (fun c => !cfg.isType .quote c) (j + 1) → _) ∧
            (q = scan s (fun c => !cfg.isType .quote c) (j + 1) → _) ∧
            (scan s (fun c => !cfg.isType .quote c) (j + 1) < q → _) ∧ _) at c2
          generalize scan s (fun c => !cfg.isType .quote c) (j + 1) = k at g1 g2 c2
          generalize scanReads (fun c => !cfg.isType .quote c) (s.drop (j + 1)) (j + 1) = r2 at c2
          have hc : ∀ p, (r1 ++ [j] ++ r2).count p = r1.count p + (if p = j then 1 else 0) + r2.count p := by
            intro p
            simp only [List.count_append, count_single]
          by_cases hk : k ≥ s.length
          · rw [if_pos hk, if_pos hk]
            have hc2 : ∀ p, (r1 ++ [j] ++ r2 ++ [j]).count p = r1.count p + (if p = j then 2 else 0) + r2.count p := by
              intro p
              rw [List.count_append, hc]
              simp only [count_single]
              split <;> omega
            refine ⟨_, r1 ++ [j] ++ r2 ++ [j], none, ?_, rfl, rfl, tokReads_end (.inl rfl) hi ?_ ?_ ?_ ?_ ?_⟩
            · simp [List.append_assoc]
            · intro p hp; rw [hc2]; have := c1 p; have := c2 p; split <;> omega
            · intro p; rw [hc2]; have := c1 p; have := c2 p; split <;> omega
            · rw [hc2]; have := c1 i; have := c2 i; split <;> omega
            · intro p hp; rw [hc2]; have := c1 p; have := c2 p; split <;> omega
            · intro p hp hp'; rw [hc2]; have := c1 p; have := c2 p; split <;> omega
          · rw [if_neg hk, if_neg hk]
            have hl : sub64 (sub64 k j) 1 = k - j - 1 := by
              rw [sub64_of_le (a := k) (by omega), sub64_of_le (by omega)]
            rw [hl]
            obtain ⟨r, new, o, e1, e2, e3, e4⟩ := ih (k + 1)
              (toks ++ [⟨.string, (⟨0, s.length⟩ : View).substr (j + 1) (k - j - 1)⟩]) (tr ++ r1 ++ [j] ++ r2)
              (by omega) (by omega) (by omega)
            refine ⟨r, r1 ++ [j] ++ r2 ++ new, o.map (_ :: ·), ?_, e2, added_cons e3,
              tokReads_cons (j := j) (k := k + 1) e4 h1 (by omega) ?_ ?_ ?_ ?_ ?_ ?_ ?_ ?_ ?_ ?_ ?_ ?_ ?_⟩
            · rw [e1]
              simp [List.append_assoc]
            · intro p hp; rw [hc]; have := c1 p; have := c2 p; split <;> omega
            · intro p hp; rw [hc]; have := c1 p; have := c2 p; split <;> omega
            · rw [hc]; have := c1 i; have := c2 i; split <;> omega
            · rw [hc]; have := c1 (k + 1); have := c2 (k + 1); split <;> omega
            · intro p hp; rw [hc]; have := c1 p; have := c2 p; split <;> omega
            · intro p hp hp' hp''; rw [hc]; have := c1 p; have := c2 p; split <;> omega
            · intro h
              rw [hc] at h; have := c1 (k + 1); have := c2 (k + 1)
              split at h <;> omega
            · simp
            · simp [View.substr]; omega
            · simp [Token.weight, View.substr]; omega
            · omega
            · intro p hp
              simp [Token.covers] at hp
            · intro hp
              simp [Token.covers] at hp
        | group =>
          simp only
          have c2 := scanReads_count (fun c => !cfg.isType .group c) (s.drop (j + 1)) (j + 1)
          have g1 := le_scan s (fun c => !cfg.isType .group c) (j + 1)
          have g2 := scan_le (s := s) (p := fun c => !cfg.isType .group c) (i := j + 1) (by omega)
          simp only [List.length_drop] at c2
          change ∀ q, (_ ∧ (_ → q < scan s (fun c => !cfg.isType .group c) (j + 1) → _) ∧
            (q = scan s (fun c => !cfg.isType .group c) (j + 1) → _) ∧
            (scan s (fun c => !cfg.isType .group c) (j + 1) < q → _) ∧ _) at c2
          generalize scan s (fun c => !cfg.isType .group c) (j + 1) = k at g1 g2 c2
          generalize scanReads (fun c => !cfg.isType .group c) (s.drop (j + 1)) (j + 1) = r2 at c2
          have hc : ∀ p, (r1 ++ [j] ++ r2).count p = r1.count p + (if p = j then 1 else 0) + r2.count p := by
            intro p
            simp only [List.count_append, count_single]
          by_cases hk : k ≥ s.length
          · rw [if_pos hk, if_pos hk]
            have hc2 : ∀ p, (r1 ++ [j] ++ r2 ++ [j]).count p = r1.count p + (if p = j then 2 else 0) + r2.count p := by
              intro p
              rw [List.count_append, hc]
              simp only [count_single]
              split <;> omega
            refine ⟨_, r1 ++ [j] ++ r2 ++ [j], none, ?_, rfl, rfl, tokReads_end (.inl rfl) hi ?_ ?_ ?_ ?_ ?_⟩
            · simp [List.append_assoc]
            · intro p hp; rw [hc2]; have := c1 p; have := c2 p; split <;> omega
            · intro p; rw [hc2]; have := c1 p; have := c2 p; split <;> omega
            · rw [hc2]; have := c1 i; have := c2 i; split <;> omega
            · intro p hp; rw [hc2]; have := c1 p; have := c2 p; split <;> omega
            · intro p hp hp'; rw [hc2]; have := c1 p; have := c2 p; split <;> omega
          · rw [if_neg hk, if_neg hk]
            have hl : sub64 (sub64 k j) 1 = k - j - 1 := by
              rw [sub64_of_le (a := k) (by omega), sub64_of_le (by omega)]
            rw [hl]
            obtain ⟨r, new, o, e1, e2, e3, e4⟩ := ih (k + 1)
              (toks ++ [⟨.groupString, (⟨0, s.length⟩ : View).substr (j + 1) (k - j - 1)⟩]) (tr ++ r1 ++ [j] ++ r2)
              (by omega) (by omega) (by omega)
            refine ⟨r, r1 ++ [j] ++ r2 ++ new, o.map (_ :: ·), ?_, e2, added_cons e3,
              tokReads_cons (j := j) (k := k + 1) e4 h1 (by omega) ?_ ?_ ?_ ?_ ?_ ?_ ?_ ?_ ?_ ?_ ?_ ?_ ?_⟩
            · rw [e1]
              simp [List.append_assoc]
            · intro p hp; rw [hc]; have := c1 p; have := c2 p; split <;> omega
            · intro p hp; rw [hc]; have := c1 p; have := c2 p; split <;> omega
            · rw [hc]; have := c1 i; have := c2 i; split <;> omega
            · rw [hc]; have := c1 (k + 1); have := c2 (k + 1); split <;> omega
            · intro p hp; rw [hc]; have := c1 p; have := c2 p; split <;> omega
            · intro p hp hp' hp''; rw [hc]; have := c1 p; have := c2 p; split <;> omega
            · intro h
              rw [hc] at h; have := c1 (k + 1); have := c2 (k + 1)
              split at h <;> omega
            · intro _
              simp [View.substr]
            · simp [View.substr]; omega
            · simp [Token.weight, View.substr]; omega
            · omega
            · intro p hp
              simp [Token.covers, View.substr] at hp
              rw [hc]
              have := c1 p; have := c2 p; have := splitCost_le cfg s p
              split <;> omega
            · intro hp
              simp [Token.covers, View.substr] at hp
              omega
    · rw [if_neg hlt, if_neg hlt]
      refine ⟨_, [], some [], by simp, rfl, ⟨[], rfl, by simp⟩, tokReads_end (.inr rfl) hi ?_ ?_ ?_ ?_ ?_⟩ <;> simp
      omega

/-! ## Compound values -/

theorem splitLoopR_spec (cfg : LexCfg) (s : Bytes) (v : View) (fuel i : Nat) (res : List View) (tr : List Nat)
    (h0 : 0 < fuel) (hf : s.length < fuel + i) :
    ∃ r new, splitLoopR cfg s v fuel i res tr = .ok (r, tr ++ new) ∧ splitLoop cfg s v fuel i res = .ok r ∧
      (∀ p, p < i → new.count p = 0) ∧ (∀ p, s.length ≤ p → new.count p = 0) ∧ (∀ p, new.count p ≤ splitCost cfg s p) ∧
      r.length ≤ res.length + (s.length - i) := by
  induction fuel generalizing i res tr with
  | zero => omega
  | succ fuel ih =>
    simp only [splitLoop, splitLoopR]
    by_cases hlt : i < s.length
    · rw [if_pos hlt, if_pos hlt]
      have c1 := scanReads_count cfg.isGroupSeparator (s.drop i) i
      have h1 := le_scan s cfg.isGroupSeparator i
      have h3 := @scan_stop s cfg.isGroupSeparator i
      simp only [List.length_drop] at c1
      change ∀ q, (_ ∧ (_ → q < scan s cfg.isGroupSeparator i → _) ∧ (q = scan s cfg.isGroupSeparator i → _) ∧
        (scan s cfg.isGroupSeparator i < q → _) ∧ _) at c1
      generalize scan s cfg.isGroupSeparator i = j at h1 h3 c1
      generalize scanReads cfg.isGroupSeparator (s.drop i) i = r1 at c1
      have low : ∀ p, p < s.length → 4 ≤ splitCost cfg s p := by
        intro p hp
        simp only [splitCost, List.getElem?_eq_getElem hp]
        split <;> omega
      by_cases hj : j ≥ s.length
      · rw [if_pos hj, if_pos hj]
        refine ⟨_, r1, rfl, rfl, ?_, ?_, ?_, by omega⟩
        · intro p hp; have := c1 p; omega
        · intro p hp; have := c1 p; omega
        · intro p
          have := c1 p
          by_cases hp : p < s.length
          · have := low p hp; omega
          · omega
      · rw [if_neg hj, if_neg hj]
        have hj' : j < s.length := by omega
        have hns := h3 (List.getElem?_eq_getElem hj')
        have c2 := fun q => pieceReads_count cfg (s.drop j) j q false
        have hpiece : j + 1 ≤ scanPiece cfg s j ∧ scanPiece cfg s j ≤ s.length := by
          unfold scanPiece
          rw [List.drop_eq_getElem_cons hj']
          simp only [scanPieceFrom, hns, Bool.not_false, Bool.or_true, if_true]
          constructor
          · exact le_scanPieceFrom ..
          · have := scanPieceFrom_le cfg (s.drop (j + 1)) (j + 1) (if cfg.isQuote s[j] then true else false)
            rw [List.length_drop] at this
            omega
        simp only [List.length_drop] at c2
        change ∀ q, (_ ∧ (_ → q < scanPiece cfg s j → _) ∧ (q = scanPiece cfg s j → _) ∧
          (scanPiece cfg s j < q → _) ∧ _) at c2
        generalize scanPiece cfg s j = k at hpiece c2
        generalize pieceReads cfg (s.drop j) j false = r2 at c2
        rw [readAt_lt hj', sub64_of_le (a := k) (b := 1) (by omega), readAt_lt (i := k - 1) (by omega)]
        simp only [Res.bind_ok]
        by_cases hq : cfg.isQuote s[j] = true
        · simp only [hq, if_true, Res.bind_ok]
          have hcj : splitCost cfg s j = 5 := by
            simp [splitCost, List.getElem?_eq_getElem hj', hq]
          obtain ⟨r, new, e1, e2, e3, e4, e5, e6⟩ := ih (k + 1) (res ++ [v.substr (if cfg.isQuote s[k - 1] = true then j + 1 else j)
              (sub64 (if cfg.isQuote s[k - 1] = true then k - 1 else k) (if cfg.isQuote s[k - 1] = true then j + 1 else j))])
            (tr ++ r1 ++ r2 ++ [j] ++ [k - 1]) (by omega) (by omega)
          have hc : ∀ p, (r1 ++ r2 ++ [j] ++ [k - 1] ++ new).count p =
              r1.count p + r2.count p + (if p = j then 1 else 0) + (if p = k - 1 then 1 else 0) + new.count p := by
            intro p
            simp only [List.count_append, count_single]
          refine ⟨r, r1 ++ r2 ++ [j] ++ [k - 1] ++ new, ?_, e2, ?_, ?_, ?_, ?_⟩
          · rw [e1]
            simp [List.append_assoc]
          · intro p hp; rw [hc]; have := c1 p; have := c2 p; have := e3 p; split <;> split <;> omega
          · intro p hp; rw [hc]; have := c1 p; have := c2 p; have := e4 p; split <;> split <;> omega
          · intro p
            rw [hc]; have := c1 p; have := c2 p; have := e3 p; have := e5 p; have := e4 p
            have := low p
            by_cases hpj : p = j
            · subst hpj
              rw [hcj] at *
              split <;> split <;> omega
            · split <;> split <;> omega
          · simp only [List.length_append, List.length_cons, List.length_nil] at e6
            omega
        · simp only [hq, if_false, Res.bind_ok, Bool.false_eq_true]
          obtain ⟨r, new, e1, e2, e3, e4, e5, e6⟩ := ih (k + 1) (res ++ [v.substr j (sub64 k j)])
            (tr ++ r1 ++ r2 ++ [j]) (by omega) (by omega)
          have hc : ∀ p, (r1 ++ r2 ++ [j] ++ new).count p =
              r1.count p + r2.count p + (if p = j then 1 else 0) + new.count p := by
            intro p
            simp only [List.count_append, count_single]
          refine ⟨r, r1 ++ r2 ++ [j] ++ new, ?_, e2, ?_, ?_, ?_, ?_⟩
          · rw [e1]
            simp [List.append_assoc]
          · intro p hp; rw [hc]; have := c1 p; have := c2 p; have := e3 p; split <;> omega
          · intro p hp; rw [hc]; have := c1 p; have := c2 p; have := e4 p; split <;> omega
          · intro p
            rw [hc]; have := c1 p; have := c2 p; have := e3 p; have := e5 p; have := e4 p
            have := low p
            split <;> omega
          · simp only [List.length_append, List.length_cons, List.length_nil] at e6
            omega
    · rw [if_neg hlt, if_neg hlt]
      exact ⟨_, [], by simp, rfl, by simp, by simp, by simp, by omega⟩

theorem count_map_add (a : Nat) (l : List Nat) (p : Nat) :
    (l.map (a + ·)).count p = if a ≤ p then l.count (p - a) else 0 := by
  induction l with
  | nil => simp
  | cons x l ih =>
    rw [List.map_cons, List.count_cons, ih, List.count_cons]
    simp only [beq_iff_eq]
    repeat' split
    all_goals omega

/-- The number of reads of a value at a position is at most `splitCost` if the token contains it, else zero. -/
theorem createValueR_spec (cfg : LexCfg) (mem : Bytes) {t : Token} (h : t.value.Valid mem.length) (tr : List Nat) :
    ∃ v new, createValueR cfg mem t tr = .ok (v, tr ++ new) ∧ createValue cfg mem t = .ok v ∧
      (∀ p, new.count p ≤ splitCost cfg mem p * [t].countP (Token.covers p)) ∧ v.subvalues.length ≤ t.weight := by
  unfold createValueR createValue
  by_cases ht : t.type = .groupString
  · rw [if_pos ht, if_pos ht]
    unfold splitGroup
    have hr : t.value.read mem = .ok ((mem.drop t.value.off).take t.value.len) := by
      unfold View.read
      exact if_pos h
    rw [hr]
    simp only [Res.bind_ok]
    have hv : t.value.off + t.value.len ≤ mem.length := h
    have hlen : ((mem.drop t.value.off).take t.value.len).length = t.value.len := by
      simp; omega
    obtain ⟨r, new, e1, e2, -, e4, e5, e6⟩ := splitLoopR_spec cfg ((mem.drop t.value.off).take t.value.len) t.value
      (((mem.drop t.value.off).take t.value.len).length + 1) 0 [] [] (by omega) (by omega)
    rw [e1, e2]
    simp only [Res.bind_ok]
    refine ⟨⟨r⟩, new.map (t.value.off + ·), by simp, rfl, ?_, ?_⟩
    · intro p
      rw [count_map_add]
      rw [hlen] at e4
      by_cases hp : t.value.off ≤ p ∧ p < t.value.off + t.value.len
      · rw [if_pos hp.1]
        have hcov : t.covers p = true := decide_eq_true ⟨ht, hp.1, hp.2⟩
        simp only [List.countP_cons, List.countP_nil, hcov, if_true, Nat.zero_add, Nat.mul_one]
        refine Nat.le_trans (e5 _) (Nat.le_of_eq ?_)
        unfold splitCost
        rw [List.getElem?_take_of_lt (by omega), List.getElem?_drop, show t.value.off + (p - t.value.off) = p by omega]
      · split
        · rw [e4 _ (by omega)]
          omega
        · omega
    · rw [hlen] at e6
      unfold Token.weight
      simp at e6 ⊢
      omega
  · rw [if_neg ht, if_neg ht]
    refine ⟨_, [], by simp, rfl, by simp, ?_⟩
    simp [Token.weight]
    omega

/-- The number of views in an input. -/
def viewCount (inp : GInput View) : Nat :=
  1 + (inp.arguments.map fun v => v.subvalues.length).sum + (inp.namedArguments.map fun n => 1 + n.value.subvalues.length).sum

theorem parseLoopR_spec (cfg : LexCfg) (mem : Bytes) (toks : List Token) (st : ParseSt) (tr : List Nat)
    (hv : ∀ t ∈ toks, t.value.Valid mem.length) (hp : ∀ t, st.primary = some t → t.value.Valid mem.length) :
    ∃ r new, parseLoopR cfg mem toks st tr = .ok (r, tr ++ new) ∧ parseLoop cfg mem toks st = .ok r ∧
      (∀ p, new.count p ≤ splitCost cfg mem p * (st.primary.toList ++ toks).countP (Token.covers p)) ∧
      (∀ inp, r = .ok inp → viewCount inp ≤ viewCount st.input + ((st.primary.toList ++ toks).map Token.weight).sum) := by
  induction toks generalizing st tr with
  | nil =>
    obtain ⟨pr, w, inp⟩ := st
    simp only [parseLoop, parseLoopR, addCurrent, addCurrentR]
    cases w
    · cases pr with
      | none => exact ⟨_, [], by simp, rfl, by simp, by simp⟩
      | some p =>
        obtain ⟨v, new, e1, e2, e3, e4⟩ := createValueR_spec cfg mem (hp p rfl) tr
        refine ⟨_, new, by simp [e1]; rfl, by simp [e2], ?_, ?_⟩
        · simpa using e3
        · rintro _ ⟨⟩
          simp [viewCount]
          omega
    · exact ⟨_, [], by simp, rfl, by simp, by simp⟩
  | cons t toks ih =>
    have hv' : ∀ t ∈ toks, t.value.Valid mem.length := fun x hx => hv x (by simp [hx])
    have ht := hv t (by simp)
    obtain ⟨pr, w, inp⟩ := st
    have rest := fun st tr h => ih st tr hv' h
    -- a token that is neither `=`
    have word : t.type ≠ .assignment → ∃ r new, parseLoopR cfg mem (t :: toks) ⟨pr, w, inp⟩ tr = .ok (r, tr ++ new) ∧
        parseLoop cfg mem (t :: toks) ⟨pr, w, inp⟩ = .ok r ∧
        (∀ p, new.count p ≤ splitCost cfg mem p * (pr.toList ++ t :: toks).countP (Token.covers p)) ∧
        (∀ i, r = .ok i → viewCount i ≤ viewCount inp + ((pr.toList ++ t :: toks).map Token.weight).sum) := by
      intro hty
      cases w with
      | false =>
        cases pr with
        | none =>
          obtain ⟨r, new, e1, e2, e3, e4⟩ := rest ⟨some t, false, inp⟩ tr (by simpa using ht)
          refine ⟨r, new, ?_, ?_, by simpa using e3, by simpa using e4⟩
          · unfold parseLoopR parseStepR
            cases hb : t.type <;> simp_all
          · unfold parseLoop parseStep
            cases hb : t.type <;> simp_all
        | some p =>
          obtain ⟨v, n1, f1, f2, f3, f4⟩ := createValueR_spec cfg mem (hp p rfl) tr
          obtain ⟨r, new, e1, e2, e3, e4⟩ := rest ⟨some t, false, { inp with arguments := inp.arguments ++ [v] }⟩ (tr ++ n1)
            (by simpa using ht)
          refine ⟨r, n1 ++ new, ?_, ?_, ?_, ?_⟩
          · unfold parseLoopR parseStepR addCurrentR
            cases hb : t.type <;> simp_all
          · unfold parseLoop parseStep addCurrent
            cases hb : t.type <;> simp_all
          · intro q
            have g1 := f3 q
            have g2 := e3 q
            rw [List.count_append]
            simp only [List.countP_append, List.countP_cons, List.countP_nil, Option.toList, Nat.mul_add, Nat.zero_add] at g1 g2 ⊢
            omega
          · intro i hi
            have := e4 i hi
            simp only [viewCount, List.map_append, List.map_cons, List.map_nil, List.sum_append, List.sum_cons, List.sum_nil,
              Option.toList] at this ⊢
            omega
      | true =>
        cases pr with
        | none =>
          refine ⟨.error errInternal, [], ?_, ?_, by simp, by simp⟩
          · unfold parseLoopR parseStepR
            cases hb : t.type <;> simp_all
          · unfold parseLoop parseStep
            cases hb : t.type <;> simp_all
        | some p =>
          obtain ⟨v, n1, f1, f2, f3, f4⟩ := createValueR_spec cfg mem ht tr
          obtain ⟨r, new, e1, e2, e3, e4⟩ := rest ⟨none, false, { inp with namedArguments := inp.namedArguments ++ [⟨p.value, v⟩] }⟩
            (tr ++ n1) (by simp)
          refine ⟨r, n1 ++ new, ?_, ?_, ?_, ?_⟩
          · unfold parseLoopR parseStepR addCurrentR
            cases hb : t.type <;> simp_all
          · unfold parseLoop parseStep addCurrent
            cases hb : t.type <;> simp_all
          · intro q
            have g1 := f3 q
            have g2 := e3 q
            rw [List.count_append]
            simp only [List.countP_append, List.countP_cons, List.countP_nil, Option.toList, Nat.mul_add, Nat.zero_add] at g1 g2 ⊢
            omega
          · intro i hi
            have := e4 i hi
            have hw : 1 ≤ p.weight := by
              unfold Token.weight
              omega
            simp only [viewCount, List.map_append, List.map_cons, List.map_nil, List.sum_append, List.sum_cons, List.sum_nil,
              Option.toList] at this ⊢
            omega
    by_cases hty : t.type = .assignment
    · simp only [parseLoop, parseLoopR, parseStep, parseStepR, hty]
      cases pr with
      | none => exact ⟨_, [], by simp, rfl, by simp, by simp⟩
      | some p =>
        cases w with
        | true => exact ⟨_, [], by simp, rfl, by simp, by simp⟩
        | false =>
          obtain ⟨r, new, e1, e2, e3, e4⟩ := rest ⟨some p, true, inp⟩ tr hp
          refine ⟨r, new, by simpa using e1, by simpa using e2, ?_, ?_⟩
          · intro q
            refine Nat.le_trans (e3 q) (Nat.mul_le_mul_left _ ?_)
            simp only [List.countP_append, List.countP_cons, Option.toList]
            omega
          · intro i hi
            have := e4 i hi
            simp only [List.map_append, List.map_cons, List.map_nil, List.sum_append, List.sum_cons, List.sum_nil,
              Option.toList] at this ⊢
            omega
    · exact word hty

theorem length_le_of_count {l : List Nat} {c n : Nat} (h : ∀ p, l.count p ≤ c) (hn : ∀ p ∈ l, p < n) : l.length ≤ c * n := by
  induction n generalizing l with
  | zero =>
    cases l with
    | nil => simp
    | cons x l => exact absurd (hn x (by simp)) (by omega)
  | succ n ih =>
    have hl := List.length_eq_countP_add_countP (fun x => x == n) (l := l)
    have h1 : (l.filter (fun x => !(x == n))).length ≤ c * n := by
      apply ih
      · intro p
        refine Nat.le_trans (List.Sublist.count_le p (List.filter_sublist)) (h p)
      · intro p hp
        have := hn p (List.mem_filter.1 hp).1
        have := (List.mem_filter.1 hp).2
        simp at this
        omega
    have h2 : l.countP (fun x => x == n) ≤ c := h n
    have h3 : l.countP (fun a => decide ¬(a == n) = true) = (l.filter (fun x => !(x == n))).length := by
      rw [List.countP_eq_length_filter]
      congr 2
      funext a
      by_cases ha : a = n <;> simp [ha]
    rw [Nat.mul_add]
    omega

theorem le_length_of_count {l : List Nat} {n : Nat} (h : ∀ p, p < n → p ∈ l) : n ≤ l.length := by
  have := (List.nodup_range (n := n)).length_le_of_subset (l₂ := l) (by
    intro p hp
    exact h p (List.mem_range.1 hp))
  simpa using this

theorem lexParseR_spec (cfg : LexCfg) (s : Bytes) :
    ∃ r tr, lexParseR cfg s = .ok (r, tr) ∧ lexParse cfg s = .ok r ∧ (∀ p, tr.count p ≤ 6) ∧ (∀ p, s.length ≤ p → tr.count p = 0) ∧
      (∀ p, p < s.length → 1 ≤ tr.count p) ∧ (∀ inp, r = .ok inp → viewCount inp ≤ max 1 s.length) := by
  obtain ⟨r, new, o, e1, e2, e3, e4⟩ := tokLoopR_spec cfg s (s.length + 1) 0 [] [] (by omega) (by omega) (by omega)
  unfold lexParseR lexParse tokenizeR tokenize
  rw [e1, e2]
  simp only [Res.bind_ok, List.nil_append]
  have most : ∀ p, new.count p ≤ 6 := fun p => Nat.le_trans (e4.most p) (by omega)
  have all : ∀ p, p < s.length → 1 ≤ new.count p := fun p hp => e4.all p (by omega) hp
  cases r with
  | error e => exact ⟨_, _, rfl, rfl, most, e4.inside, all, by simp⟩
  | ok l =>
    obtain ⟨ts, ho, rfl⟩ := e3
    simp only
    cases l with
    | nil => exact ⟨_, _, rfl, rfl, most, e4.inside, all, by simp [viewCount]; omega⟩
    | cons first rest =>
      have hval := e4.valid _ ho
      simp only [parseTokens]
      by_cases hf : first.type ≠ .string
      · rw [if_pos hf, if_pos hf]
        have hr : first.value.read s = .ok ((s.drop first.value.off).take first.value.len) := by
          unfold View.read
          exact if_pos (hval first (by simp))
        rw [hr]
        exact ⟨_, _, rfl, rfl, most, e4.inside, all, by simp⟩
      · rw [if_neg hf, if_neg hf]
        obtain ⟨r, n2, f1, f2, f3, f4⟩ := parseLoopR_spec cfg s rest ⟨none, false, ⟨first.value, [], []⟩⟩ new
          (fun t ht => hval t (by simp [ht])) (by simp)
        refine ⟨r, new ++ n2, f1, f2, ?_, ?_, ?_, ?_⟩
        · intro p
          have g := f3 p
          have h1 := e4.once _ ho p
          have h2 := e4.few _ ho p
          rw [List.countP_cons] at h1 h2
          simp only [Option.toList, List.nil_append] at g
          rw [List.count_append]
          rcases Nat.lt_or_ge 0 (rest.countP (Token.covers p)) with hc | hc
          · have : rest.countP (Token.covers p) = 1 := by
              split at h1 <;> omega
            rw [this] at g h2
            have := h2 (by split <;> omega)
            omega
          · have : rest.countP (Token.covers p) = 0 := by omega
            rw [this] at g
            have := most p
            omega
        · intro p hp
          have g := f3 p
          have : splitCost cfg s p = 0 := by
            simp [splitCost, List.getElem?_eq_none hp]
          rw [this] at g
          rw [List.count_append, e4.inside p hp]
          omega
        · intro p hp
          rw [List.count_append]
          have := all p hp
          omega
        · intro inp hi
          have g := f4 inp hi
          have := e4.weight _ ho
          have hw : 1 ≤ first.weight := by
            unfold Token.weight
            omega
          simp only [viewCount, List.map_cons, List.sum_cons, Option.toList, List.nil_append, List.map_nil, List.sum_nil] at g this ⊢
          omega

end Coil
