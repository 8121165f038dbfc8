import Verif.Proofs.LexTok

/-! # The lexer with an arbitrary configuration: it terminates, without undefined behaviour -/

namespace Coil

theorem le_scanFrom (p : Byte → Bool) (l : Bytes) (i : Nat) : i ≤ scanFrom p l i := by
  induction l generalizing i with
  | nil => simp [scanFrom]
  | cons c l ih =>
    simp only [scanFrom]
    split
    · have := ih (i + 1); omega
    · omega

theorem scanFrom_le (p : Byte → Bool) (l : Bytes) (i : Nat) : scanFrom p l i ≤ i + l.length := by
  induction l generalizing i with
  | nil => simp [scanFrom]
  | cons c l ih =>
    simp only [scanFrom, List.length_cons]
    split
    · have := ih (i + 1); omega
    · omega

theorem scanFrom_stop (p : Byte → Bool) (l : Bytes) (i : Nat) {c : Byte}
    (h : l[scanFrom p l i - i]? = some c) : p c = false := by
  induction l generalizing i with
  | nil => simp at h
  | cons a l ih =>
    simp only [scanFrom] at h
    split at h
    · have h1 := le_scanFrom p l (i + 1)
      have : scanFrom p l (i + 1) - i = (scanFrom p l (i + 1) - (i + 1)) + 1 := by omega
      rw [this, List.getElem?_cons_succ] at h
      exact ih (i + 1) h
    · rename_i hp
      simp at h
      subst h
      simpa using hp

theorem le_scan (s : Bytes) (p : Byte → Bool) (i : Nat) : i ≤ scan s p i := le_scanFrom ..

theorem scan_le {s : Bytes} {p : Byte → Bool} {i : Nat} (h : i ≤ s.length) : scan s p i ≤ s.length := by
  have := scanFrom_le p (s.drop i) i
  simp only [List.length_drop] at this
  unfold scan
  omega

theorem scan_stop {s : Bytes} {p : Byte → Bool} {i : Nat} {c : Byte}
    (h : s[scan s p i]? = some c) : p c = false := by
  apply scanFrom_stop p (s.drop i) i
  rw [List.getElem?_drop]
  have := le_scan s p i
  unfold scan at *
  rw [← h]
  congr 1
  omega

theorem le_scanWordFrom (cfg : LexCfg) (l : Bytes) (i : Nat) (t : TokenType) :
    i ≤ (scanWordFrom cfg l i t).1 := by
  induction l generalizing i t with
  | nil => simp [scanWordFrom]
  | cons c l ih =>
    simp only [scanWordFrom]
    split
    · have := ih (i + 1) (if cfg.isGroupSeparator c then .groupString else t); omega
    · simp

theorem scanWordFrom_le (cfg : LexCfg) (l : Bytes) (i : Nat) (t : TokenType) :
    (scanWordFrom cfg l i t).1 ≤ i + l.length := by
  induction l generalizing i t with
  | nil => simp [scanWordFrom]
  | cons c l ih =>
    simp only [scanWordFrom, List.length_cons]
    split
    · have := ih (i + 1) (if cfg.isGroupSeparator c then .groupString else t); omega
    · simp

theorem scanWordFrom_type (cfg : LexCfg) (l : Bytes) (i : Nat) (t : TokenType) (ht : t ≠ .assignment) :
    (scanWordFrom cfg l i t).2 ≠ .assignment := by
  induction l generalizing i t with
  | nil => simpa [scanWordFrom]
  | cons c l ih =>
    simp only [scanWordFrom]
    split
    · apply ih
      split <;> simp [ht]
    · simpa

theorem le_scanPieceFrom (cfg : LexCfg) (l : Bytes) (i : Nat) (q : Bool) :
    i ≤ scanPieceFrom cfg l i q := by
  induction l generalizing i q with
  | nil => simp [scanPieceFrom]
  | cons c l ih =>
    simp only [scanPieceFrom]
    split
    · have := ih (i + 1) (if cfg.isQuote c then !q else q); omega
    · simp

theorem scanPieceFrom_le (cfg : LexCfg) (l : Bytes) (i : Nat) (q : Bool) :
    scanPieceFrom cfg l i q ≤ i + l.length := by
  induction l generalizing i q with
  | nil => simp [scanPieceFrom]
  | cons c l ih =>
    simp only [scanPieceFrom, List.length_cons]
    split
    · have := ih (i + 1) (if cfg.isQuote c then !q else q); omega
    · simp

/-- The errors `tokenize` can end with. -/
inductive TokErr : Bytes → Prop
  | quote (c : Byte) : TokErr (errQuote c)
  | group (c : Byte) : TokErr (errGroup c)

theorem readAt_lt {s : Bytes} {i : Nat} (h : i < s.length) : readAt s i = .ok (s[i]) := by
  simp [readAt, h]

theorem valid_snoc {n : Nat} {toks : List Token} {t : Token} (hv : ∀ t ∈ toks, t.value.Valid n)
    (ht : t.value.Valid n) : ∀ x ∈ toks ++ [t], x.value.Valid n := by
  intro x hx
  simp at hx
  rcases hx with hx | rfl
  · exact hv x hx
  · exact ht

theorem tokLoop_any (cfg : LexCfg) (s : Bytes) (fuel i : Nat) (toks : List Token)
    (hi : i ≤ s.length) (hf : s.length < fuel + i)
    (hv : ∀ t ∈ toks, t.value.Valid s.length) :
    (∃ e, tokLoop cfg s fuel i toks = .ok (.error e) ∧ TokErr e) ∨
    (∃ r, tokLoop cfg s fuel i toks = .ok (.ok r) ∧ ∀ t ∈ r, t.value.Valid s.length) := by
  induction fuel generalizing i toks with
  | zero => omega
  | succ fuel ih =>
    simp only [tokLoop]
    by_cases hlt : i < s.length
    · rw [if_pos hlt]
      have h1 := le_scan s (cfg.isType .space) i
      have h2 := scan_le (p := cfg.isType .space) hi
      have h3 := @scan_stop s (cfg.isType .space) i
      generalize scan s (cfg.isType .space) i = j at h1 h2 h3
      by_cases hj : j ≥ s.length
      · rw [if_pos hj]
        exact .inr ⟨toks, rfl, hv⟩
      · rw [if_neg hj]
        have hj' : j < s.length := by omega
        rw [readAt_lt hj']
        have hnsp : cfg.getCharType s[j] ≠ .space := by
          have := h3 (List.getElem?_eq_getElem hj')
          simpa [LexCfg.isType] using this
        simp only [Res.bind_ok]
        cases hct : cfg.getCharType s[j] with
        | space => exact absurd hct hnsp
        | string =>
          simp only
          have g1 := le_scanWordFrom cfg (s.drop (j + 1)) (j + 1) .string
          have g2 := scanWordFrom_le cfg (s.drop (j + 1)) (j + 1) .string
          rw [List.length_drop] at g2
          unfold scanWord
          generalize scanWordFrom cfg (s.drop (j + 1)) (j + 1) .string = r at g1 g2
          apply ih
          · omega
          · omega
          · apply valid_snoc hv
            simp only [View.Valid, View.substr]
            rw [sub64_of_le (by omega)]
            omega
        | assignment =>
          simp only
          apply ih
          · omega
          · omega
          · apply valid_snoc hv
            simp only [View.Valid, View.substr]
            omega
        | quote =>
          simp only
          have g1 := le_scan s (fun c => !cfg.isType .quote c) (j + 1)
          generalize scan s (fun c => !cfg.isType .quote c) (j + 1) = k at g1
          by_cases hk : k ≥ s.length
          · rw [if_pos hk]
            exact .inl ⟨_, rfl, .quote _⟩
          · rw [if_neg hk]
            apply ih
            · omega
            · omega
            · apply valid_snoc hv
              simp only [View.Valid, View.substr]
              rw [sub64_of_le (a := k) (by omega), sub64_of_le (by omega)]
              omega
        | group =>
          simp only
          have g1 := le_scan s (fun c => !cfg.isType .group c) (j + 1)
          generalize scan s (fun c => !cfg.isType .group c) (j + 1) = k at g1
          by_cases hk : k ≥ s.length
          · rw [if_pos hk]
            exact .inl ⟨_, rfl, .group _⟩
          · rw [if_neg hk]
            apply ih
            · omega
            · omega
            · apply valid_snoc hv
              simp only [View.Valid, View.substr]
              rw [sub64_of_le (a := k) (by omega), sub64_of_le (by omega)]
              omega
    · rw [if_neg hlt]
      exact .inr ⟨toks, rfl, hv⟩

theorem tokenize_any (cfg : LexCfg) (s : Bytes) :
    (∃ e, tokenize cfg s = .ok (.error e) ∧ TokErr e) ∨
    (∃ r, tokenize cfg s = .ok (.ok r) ∧ ∀ t ∈ r, t.value.Valid s.length) :=
  tokLoop_any cfg s _ 0 [] (by omega) (by omega) (by simp)

theorem splitLoop_any (cfg : LexCfg) (s : Bytes) (v : View) (fuel i : Nat) (r : List View)
    (h0 : 0 < fuel) (hf : s.length < fuel + i) :
    ∃ r', splitLoop cfg s v fuel i r = .ok r' := by
  induction fuel generalizing i r with
  | zero => omega
  | succ fuel ih =>
    simp only [splitLoop]
    by_cases hlt : i < s.length
    · rw [if_pos hlt]
      have h1 := le_scan s cfg.isGroupSeparator i
      have h3 := @scan_stop s cfg.isGroupSeparator i
      generalize scan s cfg.isGroupSeparator i = j at h1 h3
      by_cases hj : j ≥ s.length
      · rw [if_pos hj]
        exact ⟨r, rfl⟩
      · rw [if_neg hj]
        have hj' : j < s.length := by omega
        have hns := h3 (List.getElem?_eq_getElem hj')
        have hpiece : j + 1 ≤ scanPiece cfg s j ∧ scanPiece cfg s j ≤ s.length := by
          unfold scanPiece
          rw [List.drop_eq_getElem_cons hj']
          simp only [scanPieceFrom, hns, Bool.not_false, Bool.or_true, if_true]
          constructor
          · exact le_scanPieceFrom ..
          · have := scanPieceFrom_le cfg (s.drop (j + 1)) (j + 1) (if cfg.isQuote s[j] then true else false)
            rw [List.length_drop] at this
            omega
        generalize scanPiece cfg s j = k at hpiece
        rw [readAt_lt hj', sub64_of_le (a := k) (b := 1) (by omega), readAt_lt (i := k - 1) (by omega)]
        simp only [Res.bind_ok]
        split
        · simp only [Res.bind_ok]
          exact ih _ _ (by omega) (by omega)
        · simp only [Res.bind_ok]
          exact ih _ _ (by omega) (by omega)
    · rw [if_neg hlt]
      exact ⟨r, rfl⟩

theorem createValue_any (cfg : LexCfg) (mem : Bytes) {t : Token} (h : t.value.Valid mem.length) :
    ∃ v, createValue cfg mem t = .ok v := by
  unfold createValue
  split
  · unfold splitGroup
    have : t.value.read mem = .ok ((mem.drop t.value.off).take t.value.len) := by
      unfold View.read
      exact if_pos h
    rw [this]
    simp only [Res.bind_ok]
    obtain ⟨r, hr⟩ := splitLoop_any cfg (List.take t.value.len (List.drop t.value.off mem)) t.value
      ((List.take t.value.len (List.drop t.value.off mem)).length + 1) 0 [] (by omega) (by omega)
    rw [hr]
    exact ⟨_, rfl⟩
  · exact ⟨_, rfl⟩

/-- The errors the parser can end with. -/
inductive ParseErr : Bytes → Prop
  | noName : ParseErr errNoName
  | foundAssign : ParseErr errFoundAssign
  | foundEnd : ParseErr errFoundEnd
  | beginning (t : Bytes) : ParseErr (errBeginning t)

theorem parseLoop_any (cfg : LexCfg) (mem : Bytes) (toks : List Token) (st : ParseSt)
    (hv : ∀ t ∈ toks, t.value.Valid mem.length) (hp : ∀ t, st.primary = some t → t.value.Valid mem.length)
    (hs : st.wantSecondary = true → st.primary.isSome) :
    (∃ e, parseLoop cfg mem toks st = .ok (.error e) ∧ ParseErr e) ∨
    (∃ r, parseLoop cfg mem toks st = .ok (.ok r)) := by
  induction toks generalizing st with
  | nil =>
    obtain ⟨pr, w, inp⟩ := st
    simp only [parseLoop, addCurrent]
    cases w
    · cases pr with
      | none => exact .inr ⟨_, rfl⟩
      | some p =>
        obtain ⟨v, h⟩ := createValue_any cfg mem (hp p rfl)
        simp [h]
    · exact .inl ⟨_, rfl, .foundEnd⟩
  | cons t toks ih =>
    have hv' : ∀ t ∈ toks, t.value.Valid mem.length := fun x hx => hv x (by simp [hx])
    have ht := hv t (by simp)
    obtain ⟨tv, hcv⟩ := createValue_any cfg mem ht
    obtain ⟨pr, w, inp⟩ := st
    simp only [parseLoop, parseStep, addCurrent]
    have rest : ∀ (st : ParseSt), (∀ t, st.primary = some t → t.value.Valid mem.length) →
        (st.wantSecondary = true → st.primary.isSome) → _ := fun st h1 h2 => ih st hv' h1 h2
    cases hty : t.type with
    | assignment =>
      cases pr with
      | none => exact .inl ⟨_, rfl, .noName⟩
      | some p =>
        cases w
        · simp
          apply rest
          · exact hp
          · simp
        · exact .inl ⟨_, rfl, .foundAssign⟩
    | string =>
      cases w <;> cases pr with
      | none => first
        | (simp at hs; done)
        | (simp; apply rest <;> simp [ht])
      | some p =>
        obtain ⟨pv, hpv⟩ := createValue_any cfg mem (hp p rfl)
        simp [hcv, hpv]
        apply rest <;> simp [ht]
    | groupString =>
      cases w <;> cases pr with
      | none => first
        | (simp at hs; done)
        | (simp; apply rest <;> simp [ht])
      | some p =>
        obtain ⟨pv, hpv⟩ := createValue_any cfg mem (hp p rfl)
        simp [hcv, hpv]
        apply rest <;> simp [ht]

theorem lexParse_any (cfg : LexCfg) (s : Bytes) :
    (∃ e, lexParse cfg s = .ok (.error e) ∧ (TokErr e ∨ ParseErr e)) ∨
    (∃ r, lexParse cfg s = .ok (.ok r)) := by
  unfold lexParse
  rcases tokenize_any cfg s with ⟨e, h, he⟩ | ⟨toks, h, hv⟩
  · rw [h]
    exact .inl ⟨e, rfl, .inl he⟩
  · rw [h]
    simp only [Res.bind_ok]
    unfold parseTokens
    cases toks with
    | nil => exact .inr ⟨_, rfl⟩
    | cons t toks =>
      simp only
      split
      · have : t.value.read s = .ok ((s.drop t.value.off).take t.value.len) := by
          unfold View.read
          exact if_pos (hv t (by simp))
        rw [this]
        exact .inl ⟨_, rfl, .inr (.beginning _)⟩
      · rcases parseLoop_any cfg s toks ⟨none, false, ⟨t.value, [], []⟩⟩
          (fun x hx => hv x (by simp [hx])) (by simp) (by simp) with ⟨e, h, he⟩ | ⟨r, h⟩
        · exact .inl ⟨e, h, .inr he⟩
        · exact .inr ⟨r, h⟩

end Coil
