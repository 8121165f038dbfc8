import Verif.Model.CheckedLexer
import Verif.Proofs.Assert
import Verif.Proofs.LexAny
import Verif.Proofs.LexCtx

/-! # The lexer with assertions against the lexer without -/

namespace Coil
open Spec

theorem substrC_of {v : View} {off len : Nat} (hv : v.len < 2 ^ 64) (h : off + len ≤ v.len) :
    v.substrC off len = .ok (v.substr off len) := by
  unfold View.substrC
  rw [assertThat_pos (by omega), Res.bind_ok, assertThat_pos (by omega), Res.bind_ok, assertThat_pos, Res.bind_ok]
  rw [Nat.mod_eq_of_lt (by omega)]
  exact h

theorem substrC_huge {v : View} {off len : Nat} (hl : v.len < len) : v.substrC off len = .ub .assertion := by
  unfold View.substrC assertThat
  split
  · rw [Res.bind_ok, if_neg (by omega)]
    rfl
  · rfl

theorem stops_substr {v : View} {off len : Nat} : Stops (v.substrC off len) (.ok (v.substr off len)) :=
  Stops.check (Stops.check (Stops.check (.refl _)))

theorem readC_lt {s : Bytes} {i : Nat} (h : i < s.length) : readC s i = .ok s[i] := readC_of_ok (readAt_lt h)

/-! ## Tokens -/

theorem tokLoopC_eq (cfg : LexCfg) (s : Bytes) (hlen : s.length < 2 ^ 64 - 1) (fuel i : Nat) (toks : List Token)
    (hi : i ≤ s.length) : tokLoopC cfg s fuel i toks = tokLoop cfg s fuel i toks := by
  induction fuel generalizing i toks with
  | zero => rfl
  | succ fuel ih =>
    simp only [tokLoop, tokLoopC]
    by_cases hlt : i < s.length
    · rw [if_pos hlt, if_pos hlt]
      have h1 := le_scan s (cfg.isType .space) i
      generalize scan s (cfg.isType .space) i = j at h1
      by_cases hj : j ≥ s.length
      · rw [if_pos hj, if_pos hj]
      · rw [if_neg hj, if_neg hj]
        have hj' : j < s.length := by omega
        rw [readAt_lt hj', readC_lt hj']
        simp only [Res.bind_ok]
        cases hct : cfg.getCharType s[j] with
        | space => rfl
        | string =>
          simp only
          have g1 := le_scanWordFrom cfg (s.drop (j + 1)) (j + 1) .string
          have g2 := scanWordFrom_le cfg (s.drop (j + 1)) (j + 1) .string
          rw [List.length_drop] at g2
          unfold scanWord
          generalize scanWordFrom cfg (s.drop (j + 1)) (j + 1) .string = r at g1 g2
          rw [substrC_of (by simp; omega) (by rw [sub64_of_le (by omega)]; simp; omega)]
          exact ih _ _ (by omega)
        | assignment =>
          simp only
          rw [substrC_of (by simp; omega) (by simp; omega)]
          exact ih _ _ (by omega)
        | quote =>
          simp only
          have g1 := le_scan s (fun c => !cfg.isType .quote c) (j + 1)
          generalize scan s (fun c => !cfg.isType .quote c) (j + 1) = k at g1
          by_cases hk : k ≥ s.length
          · rw [if_pos hk, if_pos hk]
          · rw [if_neg hk, if_neg hk]
            rw [substrC_of (by simp; omega) (by
              rw [sub64_of_le (a := k) (by omega), sub64_of_le (by omega)]
              simp
              omega)]
            exact ih _ _ (by omega)
        | group =>
          simp only
          have g1 := le_scan s (fun c => !cfg.isType .group c) (j + 1)
          generalize scan s (fun c => !cfg.isType .group c) (j + 1) = k at g1
          by_cases hk : k ≥ s.length
          · rw [if_pos hk, if_pos hk]
          · rw [if_neg hk, if_neg hk]
            rw [substrC_of (by simp; omega) (by
              rw [sub64_of_le (a := k) (by omega), sub64_of_le (by omega)]
              simp
              omega)]
            exact ih _ _ (by omega)
    · rw [if_neg hlt, if_neg hlt]

theorem tokenizeC_eq {cfg : LexCfg} {s : Bytes} (hlen : s.length < 2 ^ 64 - 1) : tokenizeC cfg s = tokenize cfg s :=
  tokLoopC_eq cfg s hlen _ 0 [] (by omega)

/-! ## Compound values -/

/-- The views inside `v`. -/
def Within (v w : View) : Prop := v.off ≤ w.off ∧ w.off + w.len ≤ v.off + v.len

theorem splitLoop_both (cfg : LexCfg) (s : Bytes) (v : View) (hv : v.len = s.length) (hlen : s.length < 2 ^ 64 - 1) (fuel i : Nat)
    (r : List View) (h0 : 0 < fuel) (hf : s.length < fuel + i) :
    ∃ vs, splitLoop cfg s v fuel i r = .ok (r ++ vs) ∧
      (((∀ w ∈ vs, Within v w) ∧ splitLoopC cfg s v fuel i r = .ok (r ++ vs)) ∨
        ((∃ w ∈ vs, w.len = 2 ^ 64 - 1) ∧ splitLoopC cfg s v fuel i r = .ub .assertion)) := by
  induction fuel generalizing i r with
  | zero => omega
  | succ fuel ih =>
    simp only [splitLoop, splitLoopC]
    by_cases hlt : i < s.length
    · rw [if_pos hlt, if_pos hlt]
      have h1 := le_scan s cfg.isGroupSeparator i
      have h3 := @scan_stop s cfg.isGroupSeparator i
      generalize scan s cfg.isGroupSeparator i = j at h1 h3
      by_cases hj : j ≥ s.length
      · rw [if_pos hj, if_pos hj]
        exact ⟨[], by simp, .inl ⟨by simp, by simp⟩⟩
      · rw [if_neg hj, if_neg hj]
        have hj' : j < s.length := by omega
        have hns := h3 (List.getElem?_eq_getElem hj')
        have hpiece : j + 1 ≤ scanPiece cfg s j ∧ scanPiece cfg s j ≤ s.length := by
          unfold scanPiece
          rw [List.drop_eq_getElem_cons hj']
          simp only [scanPieceFrom, hns, Bool.not_false, Bool.or_true, if_true]
          constructor
          · exact le_scanPieceFrom ..
          · have := scanPieceFrom_le cfg (s.drop (j + 1)) (j + 1) (if cfg.isQuote s[j] then true else false)
            rw [List.length_drop] at this
            omega
        generalize scanPiece cfg s j = k at hpiece
        unfold strippedC
        rw [readAt_lt hj', readC_lt hj', sub64_of_le (a := k) (b := 1) (by omega), readAt_lt (i := k - 1) (by omega),
          readC_lt (i := k - 1) (by omega)]
        simp only [Res.bind_ok]
        -- one piece with its two bounds
        have piece : ∀ b e : Nat, (b ≤ e ∧ e ≤ s.length) ∨ sub64 e b = 2 ^ 64 - 1 →
            ∃ vs, splitLoop cfg s v fuel (k + 1) (r ++ [v.substr b (sub64 e b)]) = .ok (r ++ vs) ∧
              (((∀ w ∈ vs, Within v w) ∧
                  (v.substrC b (sub64 e b) >>= fun w => splitLoopC cfg s v fuel (k + 1) (r ++ [w])) = .ok (r ++ vs)) ∨
                ((∃ w ∈ vs, w.len = 2 ^ 64 - 1) ∧
                  (v.substrC b (sub64 e b) >>= fun w => splitLoopC cfg s v fuel (k + 1) (r ++ [w])) = .ub .assertion)) := by
          intro b e hbe
          obtain ⟨vs, e1, e2⟩ := ih (k + 1) (r ++ [v.substr b (sub64 e b)]) (by omega) (by omega)
          refine ⟨v.substr b (sub64 e b) :: vs, by rw [e1]; simp, ?_⟩
          rcases hbe with ⟨hb, he⟩ | hh
          · rw [sub64_of_le hb] at e2 ⊢
            rw [substrC_of (by omega) (by omega), Res.bind_ok]
            rcases e2 with ⟨a1, a2⟩ | ⟨⟨w, a1, a3⟩, a2⟩
            · refine .inl ⟨?_, by rw [a2]; simp⟩
              intro w hw
              rcases List.mem_cons.1 hw with rfl | hw
              · simp only [Within, View.substr]
                omega
              · exact a1 w hw
            · exact .inr ⟨⟨w, by simp [a1], a3⟩, by rw [a2]⟩
          · refine .inr ⟨⟨_, List.mem_cons_self .., hh⟩, ?_⟩
            rw [substrC_huge (by omega)]
            rfl
        have stripped : ((j + 1) ≤ (k - 1) ∧ (k - 1) ≤ s.length) ∨ sub64 (k - 1) (j + 1) = 2 ^ 64 - 1 := by
          by_cases hk : j + 2 ≤ k
          · left; omega
          · right
            have : k = j + 1 := by omega
            subst this
            unfold sub64
            rw [if_neg (by omega)]
            omega
        split
        · simp only [Res.bind_ok]
          by_cases hq : cfg.isQuote s[k - 1] = true
          · rw [hq]
            exact piece (j + 1) (k - 1) stripped
          · simp only [Bool.not_eq_true] at hq
            rw [hq]
            exact piece j k (by omega)
        · simp only [Res.bind_ok]
          exact piece j k (by omega)
    · rw [if_neg hlt, if_neg hlt]
      exact ⟨[], by simp, .inl ⟨by simp, by simp⟩⟩

theorem createValue_both {cfg : LexCfg} {mem : Bytes} (hlen : mem.length < 2 ^ 64 - 1) {t : Token} (h : t.value.Valid mem.length) :
    ∃ gv, createValue cfg mem t = .ok gv ∧
      (((∀ w ∈ gv.subvalues, w.Valid mem.length) ∧ createValueC cfg mem t = .ok gv) ∨
        ((∃ w ∈ gv.subvalues, w.len = 2 ^ 64 - 1) ∧ createValueC cfg mem t = .ub .assertion)) := by
  unfold createValue createValueC
  split
  · unfold splitGroup splitGroupC
    have hr : t.value.read mem = .ok ((mem.drop t.value.off).take t.value.len) := by
      unfold View.read
      exact if_pos h
    have hl : t.value.len = ((mem.drop t.value.off).take t.value.len).length := by
      simp only [View.Valid] at h
      simp
      omega
    rw [hr]
    simp only [Res.bind_ok]
    obtain ⟨vs, e1, e2⟩ := splitLoop_both cfg (List.take t.value.len (List.drop t.value.off mem)) t.value hl
      (by simp only [View.Valid] at h; omega)
      ((List.take t.value.len (List.drop t.value.off mem)).length + 1) 0 [] (by omega) (by omega)
    rw [e1]
    refine ⟨⟨vs⟩, rfl, ?_⟩
    rcases e2 with ⟨a1, a2⟩ | ⟨a1, a2⟩
    · refine .inl ⟨?_, by rw [a2]; rfl⟩
      intro w hw
      have := a1 w hw
      simp only [Within, View.Valid] at this h ⊢
      omega
    · exact .inr ⟨a1, by rw [a2]; rfl⟩
  · refine ⟨_, rfl, .inl ⟨?_, rfl⟩⟩
    intro w hw
    simp at hw
    rw [hw]
    exact h

/-! ## Commands -/

/-- All the views of an input. -/
def inputViews (i : GInput View) : List View :=
  i.name :: (i.arguments.flatMap GValue.subvalues ++ i.namedArguments.flatMap (fun a => a.key :: a.value.subvalues))

theorem allInside_iff {n : Nat} {i : GInput View} : AllInside n i ↔ ∀ w ∈ inputViews i, w.Valid n := by
  simp only [inputViews, List.mem_cons, List.mem_append, List.mem_flatMap, View.Valid]
  constructor
  · rintro ⟨h1, h2, h3, h4⟩ w (rfl | ⟨a, ha, hw⟩ | ⟨a, ha, rfl | hw⟩)
    · exact h1
    · exact h2 a ha w hw
    · exact h3 a ha
    · exact h4 a ha w hw
  · intro h
    exact ⟨h _ (.inl rfl), fun v hv w hw => h w (.inr (.inl ⟨v, hv, hw⟩)), fun a ha => h _ (.inr (.inr ⟨a, ha, .inl rfl⟩)),
      fun a ha w hw => h w (.inr (.inr ⟨a, ha, .inr hw⟩))⟩

theorem views_args {i : GInput View} {gv : GValue View} {w : View} :
    w ∈ inputViews { i with arguments := i.arguments ++ [gv] } ↔ w ∈ inputViews i ∨ w ∈ gv.subvalues := by
  simp only [inputViews, List.mem_cons, List.mem_append, List.flatMap_append, List.flatMap_cons, List.flatMap_nil, List.append_nil]
  grind

theorem views_named {i : GInput View} {k : View} {gv : GValue View} {w : View} :
    w ∈ inputViews { i with namedArguments := i.namedArguments ++ [⟨k, gv⟩] } ↔
      w ∈ inputViews i ∨ w = k ∨ w ∈ gv.subvalues := by
  simp only [inputViews, List.mem_cons, List.mem_append, List.flatMap_append, List.flatMap_cons, List.flatMap_nil, List.append_nil]
  grind

/-- What holds of the parser state at the head of the loop. -/
structure StOk (n : Nat) (st : ParseSt) : Prop where
  prim : ∀ t, st.primary = some t → t.value.Valid n
  sec : st.wantSecondary = true → st.primary.isSome

/-- The state `st'` comes from `st` with assertions, or the program has stopped. -/
def Goes {σ : Type} (n : Nat) (st : GInput View) (st' : GInput View) (checked plain : Res σ) : Prop :=
  (∀ w ∈ inputViews st, w ∈ inputViews st') ∧
    ((checked = plain ∧ ∀ w ∈ inputViews st', w ∈ inputViews st ∨ w.Valid n) ∨
      (checked = .ub .assertion ∧ ∃ w ∈ inputViews st', w.len = 2 ^ 64 - 1))

theorem addCurrent_both {cfg : LexCfg} {mem : Bytes} (hlen : mem.length < 2 ^ 64 - 1) {st : ParseSt} (h : StOk mem.length st)
    {sec : Option Token} (hs : ∀ t, sec = some t → t.value.Valid mem.length) :
    ∃ st', addCurrent cfg mem st sec = .ok st' ∧ st'.wantSecondary = st.wantSecondary ∧ st'.primary = none ∧
      Goes mem.length st.input st'.input (addCurrentC cfg mem st sec) (.ok st') := by
  obtain ⟨pr, want, inp⟩ := st
  cases pr with
  | none => exact ⟨_, rfl, rfl, rfl, fun w hw => hw, .inl ⟨rfl, fun w hw => .inl hw⟩⟩
  | some p =>
    have hpv := h.prim p rfl
    cases sec with
    | none =>
      obtain ⟨gv, e1, e2⟩ := createValue_both (cfg := cfg) hlen hpv
      refine ⟨⟨none, want, { inp with arguments := inp.arguments ++ [gv] }⟩, by simp [addCurrent, e1], rfl, rfl, ?_, ?_⟩
      · intro w hw
        exact views_args.2 (.inl hw)
      · rcases e2 with ⟨a1, a2⟩ | ⟨⟨w, a1, a3⟩, a2⟩
        · refine .inl ⟨by simp [addCurrentC, a2], fun w hw => ?_⟩
          exact (views_args.1 hw).imp_right (a1 w)
        · exact .inr ⟨by simp [addCurrentC, a2], w, views_args.2 (.inr a1), a3⟩
    | some t =>
      obtain ⟨gv, e1, e2⟩ := createValue_both (cfg := cfg) hlen (hs t rfl)
      refine ⟨⟨none, want, { inp with namedArguments := inp.namedArguments ++ [⟨p.value, gv⟩] }⟩, by simp [addCurrent, e1], rfl, rfl, ?_, ?_⟩
      · intro w hw
        exact views_named.2 (.inl hw)
      · rcases e2 with ⟨a1, a2⟩ | ⟨⟨w, a1, a3⟩, a2⟩
        · refine .inl ⟨by simp [addCurrentC, a2], fun w hw => ?_⟩
          rcases views_named.1 hw with hw | rfl | hw
          · exact .inl hw
          · exact .inr hpv
          · exact .inr (a1 w hw)
        · exact .inr ⟨by simp [addCurrentC, a2], w, views_named.2 (.inr (.inr a1)), a3⟩

theorem parseStep_both {cfg : LexCfg} {mem : Bytes} (hlen : mem.length < 2 ^ 64 - 1) {st : ParseSt} (h : StOk mem.length st)
    {t : Token} (ht : t.value.Valid mem.length) :
    (∃ e, parseStep cfg mem st t = .ok (.error e) ∧ parseStepC cfg mem st t = .ok (.error e)) ∨
    ∃ st', parseStep cfg mem st t = .ok (.ok st') ∧ StOk mem.length st' ∧
      Goes mem.length st.input st'.input (parseStepC cfg mem st t) (.ok (.ok st')) := by
  have value : t.type ≠ .assignment →
      (∃ e, parseStep cfg mem st t = .ok (.error e) ∧ parseStepC cfg mem st t = .ok (.error e)) ∨
      ∃ st', parseStep cfg mem st t = .ok (.ok st') ∧ StOk mem.length st' ∧
        Goes mem.length st.input st'.input (parseStepC cfg mem st t) (.ok (.ok st')) := by
    intro hty
    have e1 : parseStep cfg mem st t = (if st.wantSecondary then
        if st.primary.isNone then .ok (.error errInternal)
        else do
          let st ← addCurrent cfg mem st (some t)
          .ok (.ok { st with wantSecondary := false })
      else do
        let st ← (if st.primary.isSome then addCurrent cfg mem st none else .ok st)
        .ok (.ok { st with primary := some t, wantSecondary := false })) := by
      unfold parseStep
      cases hc : t.type <;> simp_all
    have e2 : parseStepC cfg mem st t = (if st.wantSecondary then
        if st.primary.isNone then .ok (.error errInternal)
        else do
          let st ← addCurrentC cfg mem st (some t)
          .ok (.ok { st with wantSecondary := false })
      else do
        let st ← (if st.primary.isSome then addCurrentC cfg mem st none else .ok st)
        .ok (.ok { st with primary := some t, wantSecondary := false })) := by
      unfold parseStepC
      cases hc : t.type <;> simp_all
    rw [e1, e2]
    by_cases hw : st.wantSecondary = true
    · rw [if_pos hw, if_pos hw]
      have hp := h.sec hw
      have hn : ¬ st.primary.isNone = true := by
        rw [Option.isNone_iff_eq_none]
        intro hx
        simp [hx] at hp
      rw [if_neg hn, if_neg hn]
      obtain ⟨st', a1, a2, a3, a4, a5⟩ := addCurrent_both (cfg := cfg) hlen h (sec := some t) (by intro x hx; cases hx; exact ht)
      refine .inr ⟨{ st' with wantSecondary := false }, by rw [a1]; rfl, ⟨by simp [a3], by simp⟩, a4, ?_⟩
      rcases a5 with ⟨b1, b2⟩ | ⟨b1, b2⟩
      · exact .inl ⟨by rw [b1]; rfl, b2⟩
      · exact .inr ⟨by rw [b1]; rfl, b2⟩
    · rw [if_neg hw, if_neg hw]
      by_cases hp : st.primary.isSome = true
      · rw [if_pos hp, if_pos hp]
        obtain ⟨st', a1, a2, a3, a4, a5⟩ := addCurrent_both (cfg := cfg) hlen h (sec := none) (by simp)
        refine .inr ⟨{ st' with primary := some t, wantSecondary := false }, by rw [a1]; rfl, ⟨by simpa using ht, by simp⟩, a4, ?_⟩
        rcases a5 with ⟨b1, b2⟩ | ⟨b1, b2⟩
        · exact .inl ⟨by rw [b1]; rfl, b2⟩
        · exact .inr ⟨by rw [b1]; rfl, b2⟩
      · rw [if_neg hp, if_neg hp]
        exact .inr ⟨{ st with primary := some t, wantSecondary := false }, rfl, ⟨by simpa using ht, by simp⟩, fun w hw => hw,
          .inl ⟨rfl, fun w hw => .inl hw⟩⟩
  cases hty : t.type with
  | assignment =>
    unfold parseStep parseStepC
    rw [hty]
    simp only
    split
    · exact .inl ⟨_, rfl, rfl⟩
    · rename_i hn
      split
      · exact .inl ⟨_, rfl, rfl⟩
      · refine .inr ⟨_, rfl, ⟨h.prim, fun _ => ?_⟩, fun w hw => hw, .inl ⟨rfl, fun w hw => .inl hw⟩⟩
        simpa [Option.isSome_iff_ne_none] using hn
  | string => exact value (by simp [hty])
  | groupString => exact value (by simp [hty])

theorem parseLoop_both {cfg : LexCfg} {mem : Bytes} (hlen : mem.length < 2 ^ 64 - 1) (toks : List Token) (st : ParseSt)
    (h : StOk mem.length st) (hv : ∀ t ∈ toks, t.value.Valid mem.length) :
    (∃ e, parseLoop cfg mem toks st = .ok (.error e) ∧ Stops (parseLoopC cfg mem toks st) (.ok (.error e))) ∨
    ∃ i, parseLoop cfg mem toks st = .ok (.ok i) ∧ Goes mem.length st.input i (parseLoopC cfg mem toks st) (.ok (.ok i)) := by
  induction toks generalizing st with
  | nil =>
    unfold parseLoop parseLoopC
    split
    · exact .inl ⟨_, rfl, .refl _⟩
    · obtain ⟨st', a1, a2, a3, a4, a5⟩ := addCurrent_both (cfg := cfg) hlen h (sec := none) (by simp)
      refine .inr ⟨st'.input, by rw [a1]; rfl, a4, ?_⟩
      rcases a5 with ⟨b1, b2⟩ | ⟨b1, b2⟩
      · exact .inl ⟨by rw [b1]; rfl, b2⟩
      · exact .inr ⟨by rw [b1]; rfl, b2⟩
  | cons t toks ih =>
    simp only [parseLoop, parseLoopC]
    rcases parseStep_both (cfg := cfg) hlen h (hv t (by simp)) with ⟨e, e1, e2⟩ | ⟨st', a1, a2, a3, a4⟩
    · rw [e1, e2]
      exact .inl ⟨e, rfl, .refl _⟩
    · rw [a1]
      simp only [Res.bind_ok]
      have hv' : ∀ t ∈ toks, t.value.Valid mem.length := fun x hx => hv x (by simp [hx])
      rcases a4 with ⟨b1, b2⟩ | ⟨b1, w, b2, b3⟩
      · rw [b1]
        simp only [Res.bind_ok]
        rcases ih st' a2 hv' with h1 | ⟨i, i1, i2, i3⟩
        · exact .inl h1
        · refine .inr ⟨i, i1, fun w hw => i2 w (a3 w hw), ?_⟩
          rcases i3 with ⟨c1, c2⟩ | ⟨c1, c2⟩
          · refine .inl ⟨c1, fun w hw => ?_⟩
            rcases c2 w hw with hw | hw
            · exact b2 w hw
            · exact .inr hw
          · exact .inr ⟨c1, c2⟩
      · rw [b1]
        simp only [Res.bind_ub]
        rcases ih st' a2 hv' with ⟨e, h1, _⟩ | ⟨i, i1, i2, i3⟩
        · exact .inl ⟨e, h1, .inr rfl⟩
        · exact .inr ⟨i, i1, fun w hw => i2 w (a3 w hw), .inr ⟨rfl, w, i2 w b2, b3⟩⟩

/-- With assertions a text gives the same error or stops, or it gives the same input if that lies inside the text and stops otherwise. -/
theorem lexParse_both {cfg : LexCfg} {s : Bytes} (hlen : s.length < 2 ^ 64 - 1) :
    (∃ e, lexParse cfg s = .ok (.error e) ∧ Stops (lexParseC cfg s) (.ok (.error e))) ∨
    ∃ i, lexParse cfg s = .ok (.ok i) ∧
      ((lexParseC cfg s = .ok (.ok i) ∧ AllInside s.length i) ∨ (lexParseC cfg s = .ub .assertion ∧ ¬ AllInside s.length i)) := by
  unfold lexParse lexParseC
  rw [tokenizeC_eq hlen]
  rcases tokenize_any cfg s with ⟨e, h, -⟩ | ⟨toks, h, hv⟩
  · rw [h]
    exact .inl ⟨e, rfl, .refl _⟩
  · rw [h]
    simp only [Res.bind_ok]
    unfold parseTokens parseTokensC
    cases toks with
    | nil => exact .inr ⟨_, rfl, .inl ⟨rfl, ⟨by simp, by simp, by simp, by simp⟩⟩⟩
    | cons t toks =>
      simp only
      split
      · have : t.value.read s = .ok ((s.drop t.value.off).take t.value.len) := by
          unfold View.read
          exact if_pos (hv t (by simp))
        rw [this]
        exact .inl ⟨_, rfl, .refl _⟩
      · have ht := hv t (by simp)
        rcases parseLoop_both (cfg := cfg) hlen toks ⟨none, false, ⟨t.value, [], []⟩⟩ ⟨by simp, by simp⟩
          (fun x hx => hv x (by simp [hx])) with h1 | ⟨i, i1, i2, i3⟩
        · exact .inl h1
        · refine .inr ⟨i, i1, ?_⟩
          rcases i3 with ⟨c1, c2⟩ | ⟨c1, w, c2, c3⟩
          · refine .inl ⟨c1, allInside_iff.2 fun w hw => ?_⟩
            rcases c2 w hw with hw | hw
            · simp [inputViews] at hw
              rw [hw]
              exact ht
            · exact hw
          · refine .inr ⟨c1, fun hi => ?_⟩
            have := allInside_iff.1 hi w c2
            simp only [View.Valid] at this
            omega

/-! ## Which texts stop -/

section
variable {cfg : LexCfg} {mem : Bytes}

theorem view_valid_of_read {w : View} {b : Bytes} (h : w.read mem = .ok b) : w.Valid mem.length := by
  unfold View.read at h
  split at h
  · assumption
  · simp at h

theorem TokMatches.valid {t : Token} {st : Tok} (h : TokMatches mem t st) : t.value.Valid mem.length := by
  cases st <;> exact view_valid_of_read h.2

theorem readViews_valid {vs : List View} {bs : List Bytes} (h : readViews mem vs = .ok bs) : ∀ w ∈ vs, w.Valid mem.length := by
  induction vs generalizing bs with
  | nil => simp
  | cons v vs ih =>
    obtain ⟨b, h1, h2⟩ := Res.bind_eq_ok.1 h
    obtain ⟨bs', h3, -⟩ := Res.bind_eq_ok.1 h2
    intro w hw
    rcases List.mem_cons.1 hw with rfl | hw
    · exact view_valid_of_read h1
    · exact ih h3 w hw

theorem createValueC_of_tokValue (hp : Proper cfg) (hlen : mem.length < 2 ^ 64 - 1) {t : Token} {st : Tok} {v : GValue Bytes}
    (hm : TokMatches mem t st) (h : TokValue (delims cfg) st v) :
    ∃ gv, createValue cfg mem t = .ok gv ∧ createValueC cfg mem t = .ok gv := by
  obtain ⟨gv, e1, e2⟩ := createValue_of_tokValue hp.toAscii hm h
  obtain ⟨gv', g1, g2⟩ := createValue_both (cfg := cfg) hlen hm.valid
  rw [e1] at g1
  cases g1
  refine ⟨gv, e1, ?_⟩
  rcases g2 with ⟨-, g2⟩ | ⟨⟨w, hw, hl⟩, -⟩
  · exact g2
  · obtain ⟨bs, h1, -⟩ := Res.bind_eq_ok.1 e2
    have := readViews_valid h1 w hw
    simp only [View.Valid] at this
    omega

theorem createValueC_of_lone (hp : Proper cfg) (hlen : mem.length < 2 ^ 64 - 1) {t : Token} {g : Bytes}
    (hm : TokMatches mem t (.compound g)) (h : LoneQuote (delims cfg) g) : createValueC cfg mem t = .ub .assertion := by
  obtain ⟨gv, e1, e2⟩ := createValue_of_lone hp.toAscii hlen hm h
  obtain ⟨gv', g1, g2⟩ := createValue_both (cfg := cfg) hlen hm.valid
  rw [e1] at g1
  cases g1
  rcases g2 with ⟨g2, -⟩ | ⟨-, g2⟩
  · exfalso
    have : ∀ vs : List View, (∀ w ∈ vs, w.Valid mem.length) → ∃ bs, readViews mem vs = .ok bs := by
      intro vs
      induction vs with
      | nil => exact fun _ => ⟨[], rfl⟩
      | cons v vs ih =>
        intro hv
        obtain ⟨bs, hb⟩ := ih (fun w hw => hv w (by simp [hw]))
        have hr : v.read mem = .ok ((mem.drop v.off).take v.len) := if_pos (hv v (by simp))
        exact ⟨_, by simp only [readViews, hr, hb, Res.bind_ok]; rfl⟩
    obtain ⟨bs, hb⟩ := this _ g2
    simp [GValue.read, hb] at e2
  · exact g2

/-- A value token has a value or is a compound with a lone quote. -/
theorem tokText_cases {d : Delims} {t : Tok} {k : Bytes} (h : TokText t k) :
    (∃ v, TokValue d t v) ∨ (t = .compound k ∧ LoneQuote d k) := by
  cases h with
  | word => exact .inl ⟨_, .word⟩
  | compound =>
    rcases subValues_total (d := d) k with ⟨vs, hv⟩ | h
    · exact .inl ⟨_, .compound hv⟩
    · exact .inr ⟨rfl, h⟩

theorem parseLoopC_flush {toks : List Token} {p : Token} {inp : GInput View} {gv : GValue View}
    (hc : createValueC cfg mem p = .ok gv) (hh : ∀ t, toks.head? = some t → t.type ≠ .assignment) :
    parseLoopC cfg mem toks ⟨some p, false, inp⟩ =
      parseLoopC cfg mem toks ⟨none, false, { inp with arguments := inp.arguments ++ [gv] }⟩ := by
  cases toks with
  | nil => simp [parseLoopC, addCurrentC, hc]
  | cons t ts =>
    have := hh t (by simp)
    cases ht : t.type with
    | assignment => exact absurd ht this
    | string => simp [parseLoopC, parseStepC, ht, addCurrentC, hc]
    | groupString => simp [parseLoopC, parseStepC, ht, addCurrentC, hc]

theorem parseLoopC_flush_stop {toks : List Token} {p : Token} {inp : GInput View}
    (hc : createValueC cfg mem p = .ub .assertion) (hh : ∀ t, toks.head? = some t → t.type ≠ .assignment) :
    parseLoopC cfg mem toks ⟨some p, false, inp⟩ = .ub .assertion := by
  cases toks with
  | nil => simp [parseLoopC, addCurrentC, hc]
  | cons t ts =>
    have := hh t (by simp)
    cases ht : t.type with
    | assignment => exact absurd ht this
    | string => simp [parseLoopC, parseStepC, ht, addCurrentC, hc]
    | groupString => simp [parseLoopC, parseStepC, ht, addCurrentC, hc]

theorem parseLoopC_take {t : Token} {toks : List Token} {inp : GInput View} (ht : t.type ≠ .assignment) :
    parseLoopC cfg mem (t :: toks) ⟨none, false, inp⟩ = parseLoopC cfg mem toks ⟨some t, false, inp⟩ := by
  cases h : t.type with
  | assignment => exact absurd h ht
  | string => simp [parseLoopC, parseStepC, h]
  | groupString => simp [parseLoopC, parseStepC, h]

theorem parseLoopC_named {t a t' : Token} {toks : List Token} {inp : GInput View}
    (ht : t.type ≠ .assignment) (ha : a.type = .assignment) (ht' : t'.type ≠ .assignment) :
    parseLoopC cfg mem (t :: a :: t' :: toks) ⟨none, false, inp⟩ =
      createValueC cfg mem t' >>= fun gv => parseLoopC cfg mem toks ⟨none, false,
        { inp with namedArguments := inp.namedArguments ++ [⟨t.value, gv⟩] }⟩ := by
  rw [parseLoopC_take ht]
  cases h : t'.type with
  | assignment => exact absurd h ht'
  | string => cases hc : createValueC cfg mem t' <;> simp [parseLoopC, parseStepC, h, ha, addCurrentC, hc]
  | groupString => cases hc : createValueC cfg mem t' <;> simp [parseLoopC, parseStepC, h, ha, addCurrentC, hc]

/-- A compound value with a lone quote that is evaluated stops the parser. -/
theorem parseLoopC_stop (hp : Proper cfg) (hlen : mem.length < 2 ^ 64 - 1) {pre vs rest : List Tok} (h : Shape pre vs)
    (hh : rest.head? ≠ some .assign)
    (hr : ∀ toks inp, Forall2 (TokMatches mem) toks rest → parseLoopC cfg mem toks ⟨none, false, inp⟩ = .ub .assertion) :
    ∀ toks inp, Forall2 (TokMatches mem) toks (pre ++ rest) → parseLoopC cfg mem toks ⟨none, false, inp⟩ = .ub .assertion := by
  induction h with
  | nil => exact hr
  | @positional t k ts vs hk hs ih =>
    intro toks inp hm
    cases hm with
    | @cons a _ toks _ h1 h2 =>
      have hd : (ts ++ rest).head? ≠ some .assign := by
        cases hs with
        | nil => exact hh
        | positional hk _ => cases hk <;> simp
        | named hk _ _ => cases hk <;> simp
      rw [parseLoopC_take (h1.not_assignment hk)]
      rcases tokText_cases (d := delims cfg) hk with ⟨v, hv⟩ | ⟨rfl, hl⟩
      · obtain ⟨gv, -, hc⟩ := createValueC_of_tokValue hp hlen h1 hv
        rw [parseLoopC_flush hc (head_not_assignment h2 hd)]
        exact ih _ _ h2
      · exact parseLoopC_flush_stop (createValueC_of_lone hp hlen h1 hl) (head_not_assignment h2 hd)
  | @named t t' k k' ts vs hk hk' hs ih =>
    intro toks inp hm
    cases hm with
    | @cons a _ toks _ h1 h2 =>
    cases h2 with
    | @cons b _ toks _ h2 h3 =>
    cases h3 with
    | @cons c _ toks _ h3 h4 =>
      rw [parseLoopC_named (h1.not_assignment hk) h2.1 (h3.not_assignment hk')]
      rcases tokText_cases (d := delims cfg) hk' with ⟨v, hv⟩ | ⟨rfl, hl⟩
      · obtain ⟨gv, -, hc⟩ := createValueC_of_tokValue hp hlen h3 hv
        rw [hc]
        exact ih _ _ h4
      · rw [createValueC_of_lone hp hlen h3 hl]
        rfl

theorem parseLoopC_of_evaluated (hp : Proper cfg) (hlen : mem.length < 2 ^ 64 - 1) {ts : List Tok} {g : Bytes} (h : Evaluated ts g)
    (hl : LoneQuote (delims cfg) g) :
    ∀ toks inp, Forall2 (TokMatches mem) toks ts → parseLoopC cfg mem toks ⟨none, false, inp⟩ = .ub .assertion := by
  obtain ⟨pre, vs, post, hs, ⟨rfl, hh⟩ | ⟨k, key, hk, rfl⟩⟩ := h
  · refine parseLoopC_stop hp hlen hs (by simp) ?_
    intro toks inp hm
    cases hm with
    | @cons a _ toks _ h1 h2 =>
      rw [parseLoopC_take (h1.not_assignment .compound)]
      exact parseLoopC_flush_stop (createValueC_of_lone hp hlen h1 hl) (head_not_assignment h2 hh)
  · refine parseLoopC_stop hp hlen hs (by cases hk <;> simp) ?_
    intro toks inp hm
    cases hm with
    | @cons a _ toks _ h1 h2 =>
    cases h2 with
    | @cons b _ toks _ h2 h3 =>
    cases h3 with
    | @cons c _ toks _ h3 h4 =>
      rw [parseLoopC_named (h1.not_assignment hk) h2.1 (h3.not_assignment .compound), createValueC_of_lone hp hlen h3 hl]
      rfl

theorem Evaluated.positional {t : Tok} {k g : Bytes} {ts : List Tok} (hk : TokText t k) (h : Evaluated ts g) : Evaluated (t :: ts) g := by
  obtain ⟨pre, vs, post, hs, ⟨rfl, hh⟩ | ⟨k', key, hk', rfl⟩⟩ := h
  · exact ⟨t :: pre, _, post, .positional hk hs, .inl ⟨rfl, hh⟩⟩
  · exact ⟨t :: pre, _, post, .positional hk hs, .inr ⟨k', key, hk', rfl⟩⟩

theorem Evaluated.named {t t' : Tok} {k k' g : Bytes} {ts : List Tok} (hk : TokText t k) (hk' : TokText t' k') (h : Evaluated ts g) :
    Evaluated (t :: .assign :: t' :: ts) g := by
  obtain ⟨pre, vs, post, hs, ⟨rfl, hh⟩ | ⟨k'', key, hk'', rfl⟩⟩ := h
  · exact ⟨t :: .assign :: t' :: pre, _, post, .named hk hk' hs, .inl ⟨rfl, hh⟩⟩
  · exact ⟨t :: .assign :: t' :: pre, _, post, .named hk hk' hs, .inr ⟨k'', key, hk'', rfl⟩⟩

/-- In a well-formed argument list every value is evaluated. -/
theorem evaluated_of_shape {ts vs : List Tok} (h : Shape ts vs) {g : Bytes} (hg : Tok.compound g ∈ vs) : Evaluated ts g := by
  induction h with
  | nil => simp at hg
  | @positional t k ts vs hk hs ih =>
    rcases List.mem_cons.1 hg with rfl | hg
    · exact ⟨[], [], ts, .nil, .inl ⟨rfl, Shape.head hs⟩⟩
    · exact Evaluated.positional hk (ih hg)
  | @named t t' k k' ts vs hk hk' hs ih =>
    rcases List.mem_cons.1 hg with rfl | hg
    · exact ⟨[], [], ts, .nil, .inr ⟨t, k, hk, rfl⟩⟩
    · exact Evaluated.named hk hk' (ih hg)

theorem parseLoopC_of_badItems (hp : Proper cfg) (hlen : mem.length < 2 ^ 64 - 1) {ts : List Tok} {e : Bytes} (h : BadItems ts e)
    (hn : ∀ g, Evaluated ts g → ¬ LoneQuote (delims cfg) g) :
    ∀ toks inp, Forall2 (TokMatches mem) toks ts → parseLoopC cfg mem toks ⟨none, false, inp⟩ = .ok (.error e) := by
  induction h with
  | noName =>
    intro toks inp hm
    cases hm with
    | @cons t _ toks _ h1 h2 => simp [parseLoopC, parseStepC, h1.1, errNoName]
  | twoAssign hk =>
    intro toks inp hm
    cases hm with
    | @cons t _ toks _ h1 h2 =>
    cases h2 with
    | @cons a _ toks _ h2 h3 =>
    cases h3 with
    | @cons t' _ toks _ h3 h4 =>
      rw [parseLoopC_take (h1.not_assignment hk)]
      simp [parseLoopC, parseStepC, h2.1, h3.1, errFoundAssign]
  | noValue hk =>
    intro toks inp hm
    cases hm with
    | @cons t _ toks _ h1 h2 =>
    cases h2 with
    | @cons a _ toks _ h2 h3 =>
    cases h3
    rw [parseLoopC_take (h1.not_assignment hk)]
    simp [parseLoopC, parseStepC, h2.1, errFoundEnd]
  | @positional t k ts e hk hh _ ih =>
    intro toks inp hm
    cases hm with
    | @cons t _ toks _ h1 h2 =>
      rcases tokText_cases (d := delims cfg) hk with ⟨v, hv⟩ | ⟨rfl, hl⟩
      · obtain ⟨gv, -, hc⟩ := createValueC_of_tokValue hp hlen h1 hv
        rw [parseLoopC_take (h1.not_assignment hk), parseLoopC_flush hc (head_not_assignment h2 hh)]
        exact ih (fun g hg => hn g (Evaluated.positional hk hg)) _ _ h2
      · exact absurd hl (hn _ ⟨[], [], ts, .nil, .inl ⟨rfl, hh⟩⟩)
  | @named t t' k k' ts e hk hk' _ ih =>
    intro toks inp hm
    cases hm with
    | @cons t _ toks _ h1 h2 =>
    cases h2 with
    | @cons a _ toks _ h2 h3 =>
    cases h3 with
    | @cons t' _ toks _ h3 h4 =>
      rcases tokText_cases (d := delims cfg) hk' with ⟨v, hv⟩ | ⟨rfl, hl⟩
      · obtain ⟨gv, -, hc⟩ := createValueC_of_tokValue hp hlen h3 hv
        rw [parseLoopC_named (h1.not_assignment hk) h2.1 (h3.not_assignment hk'), hc]
        exact ih (fun g hg => hn g (Evaluated.named hk hk' hg)) _ _ h4
      · exact absurd hl (hn _ ⟨[], [], ts, .nil, .inr ⟨_, _, hk, rfl⟩⟩)

/-- The texts that stop the parser. -/
theorem lexParseC_stops_iff (hp : Proper cfg) {s : Bytes} (hlen : s.length < 2 ^ 64 - 1) :
    lexParseC cfg s = .ub .assertion ↔
      ∃ n ts g, Tokens (delims cfg) s (.word n :: ts) ∧ Evaluated ts g ∧ LoneQuote (delims cfg) g := by
  constructor
  · intro hst
    rcases command_total (d := delims cfg) s with ⟨i, hi⟩ | ⟨e, he⟩ | ⟨n, ts, vs, g, h1, h2, h3, h4⟩
    · obtain ⟨gi, g1, g2⟩ := lexRead_of_accepts hp hi
      rcases lexParse_both (cfg := cfg) hlen with ⟨e, e1, -⟩ | ⟨i', e1, ⟨e2, -⟩ | ⟨-, e2⟩⟩
      · rw [g1] at e1
        cases e1
      · rw [hst] at e2
        cases e2
      · rw [g1] at e1
        cases e1
        exact absurd (read_isOk_iff.1 (by rw [g2]; trivial)) e2
    · rcases he with ⟨ts, ht, hb⟩ | ⟨q, hq, rfl⟩ | ⟨q, hq, rfl⟩
      · obtain ⟨toks, hm, htok⟩ := tokenize_of_tokens hp ht
        unfold lexParseC at hst
        rw [tokenizeC_eq hlen, htok] at hst
        cases hb with
        | assignFirst =>
          cases hm with
          | @cons t _ toks _ h1 h2 =>
            simp [parseTokensC, h1.1, h1.2] at hst
        | compoundFirst =>
          cases hm with
          | @cons t _ toks _ h1 h2 =>
            simp [parseTokensC, h1.1, h1.2] at hst
        | @items n ts e hb =>
          cases hm with
          | @cons t _ toks _ h1 h2 =>
            by_cases hn : ∃ g, Evaluated ts g ∧ LoneQuote (delims cfg) g
            · obtain ⟨g, e1, e2⟩ := hn
              exact ⟨n, ts, g, ht, e1, e2⟩
            · simp [parseTokensC, h1.1, parseLoopC_of_badItems hp hlen hb (fun g e1 e2 => hn ⟨g, e1, e2⟩) toks _ h2] at hst
      · unfold lexParseC at hst
        rw [tokenizeC_eq hlen, tokenize_of_unmatchedQuote hp hq] at hst
        simp at hst
      · unfold lexParseC at hst
        rw [tokenizeC_eq hlen, tokenize_of_unmatchedParen hp hq] at hst
        simp at hst
    · exact ⟨n, ts, g, h1, evaluated_of_shape h2 h3, h4⟩
  · rintro ⟨n, ts, g, ht, he, hl⟩
    obtain ⟨toks, hm, htok⟩ := tokenize_of_tokens hp ht
    unfold lexParseC
    rw [tokenizeC_eq hlen, htok]
    cases hm with
    | @cons t _ toks _ h1 h2 =>
      simp [parseTokensC, h1.1, parseLoopC_of_evaluated hp hlen he hl toks _ h2]

end

end Coil
