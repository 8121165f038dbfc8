import Verif.Spec.Text
import Verif.Model.Conv

/-! # Lemmas about the texts of lists -/

namespace Coil.Texts
open Spec

variable {α : Type}

theorem commaList_cons (t : Bytes) {rest : List Bytes} (h : rest ≠ []) :
    commaList (t :: rest) = t ++ lit ", " ++ commaList rest := by
  cases rest with
  | nil => exact absurd rfl h
  | cons u rest => rfl

/-- The rest of the list as the loop writes it. -/
theorem loop_rest (c : Conv α) (xs : List α) (acc : Bytes) (h : xs ≠ []) :
    vecPrintLoop c xs (lit ", ") acc = acc ++ lit ", " ++ commaList (xs.map c.toString) := by
  induction xs generalizing acc with
  | nil => exact absurd rfl h
  | cons x xs ih =>
    by_cases hx : xs = []
    · subst hx
      simp [vecPrintLoop, commaList]
    · rw [vecPrintLoop, ih _ hx, List.map_cons, commaList_cons _ (by simpa using hx)]
      simp [List.append_assoc]

theorem loop_first (c : Conv α) (xs : List α) (acc : Bytes) :
    vecPrintLoop c xs [] acc = acc ++ commaList (xs.map c.toString) := by
  cases xs with
  | nil => simp [vecPrintLoop, commaList]
  | cons x xs =>
    by_cases hx : xs = []
    · subst hx
      simp [vecPrintLoop, commaList]
    · rw [vecPrintLoop, loop_rest c xs _ hx, List.map_cons, commaList_cons _ (by simpa using hx)]
      simp [List.append_assoc]

theorem nesting_append (d : Nat) (a b : Bytes) : nesting d (a ++ b) = (nesting d a).bind fun e => nesting e b := by
  induction a generalizing d with
  | nil => rfl
  | cons c a ih =>
    simp only [List.cons_append, nesting, ih]
    repeat' split
    all_goals rfl

theorem nesting_deeper {d e : Nat} {t : Bytes} (h : nesting d t = some e) (k : Nat) : nesting (d + k) t = some (e + k) := by
  induction t generalizing d with
  | nil => cases h; rfl
  | cons c t ih =>
    simp only [nesting] at h ⊢
    split at h
    · rw [if_pos ‹_›, Nat.add_right_comm]
      exact ih h
    · rw [if_neg ‹_›]
      split at h
      · rw [if_pos ‹_›]
        split at h
        · cases h
        · rw [if_neg (by omega), show d + k - 1 = d - 1 + k by omega]
          exact ih h
      · rw [if_neg ‹_›]
        split at h
        · cases h
        · rw [if_neg (by rintro ⟨rfl, h0⟩; simp_all)]
          exact ih h

theorem nesting_comma (x : Bytes) : nesting 0 (44 :: x) = none := by simp [nesting]

/-- A comma outside brackets ends the first text. -/
theorem split_comma {a b x y : Bytes} (ha : nesting 0 a = some 0) (hb : nesting 0 b = some 0) (h : a ++ 44 :: x = b ++ 44 :: y) :
    a = b ∧ x = y := by
  rcases List.append_eq_append_iff.1 h with ⟨z, h1, h2⟩ | ⟨z, h1, h2⟩
  · cases z with
    | nil => simp at h1 h2; exact ⟨h1.symm, h2⟩
    | cons c z =>
      simp only [List.cons_append, List.cons.injEq] at h2
      rw [h1, nesting_append, ha, ← h2.1] at hb
      simp [nesting_comma] at hb
  · cases z with
    | nil => simp at h1 h2; exact ⟨h1, h2.symm⟩
    | cons c z =>
      simp only [List.cons_append, List.cons.injEq] at h2
      rw [h1, nesting_append, hb, ← h2.1] at ha
      simp [nesting_comma] at ha

theorem comma_text : lit ", " = [44, 32] := by decide

theorem commaList_ne {ts : List Bytes} (h : ∀ t ∈ ts, Separable t) (hn : ts ≠ []) : commaList ts ≠ [] := by
  cases ts with
  | nil => exact absurd rfl hn
  | cons t ts =>
    have := (h t (by simp)).1
    cases ts with
    | nil => simpa [commaList] using this
    | cons u us => simp [commaList, this]

theorem commaList_inj {ts us : List Bytes} (ht : ∀ t ∈ ts, Separable t) (hu : ∀ t ∈ us, Separable t)
    (h : commaList ts = commaList us) : ts = us := by
  induction ts generalizing us with
  | nil =>
    cases us with
    | nil => rfl
    | cons u us => exact absurd h.symm (commaList_ne hu (by simp))
  | cons t ts ih =>
    cases us with
    | nil => exact absurd h (commaList_ne ht (by simp))
    | cons u us =>
      have h1 := (ht t (by simp)).2
      have h2 := (hu u (by simp)).2
      by_cases hts : ts = []
      · subst hts
        by_cases hus : us = []
        · subst hus
          simpa [commaList] using h
        · rw [commaList_cons u hus, comma_text] at h
          simp only [commaList, List.append_assoc, List.cons_append, List.nil_append] at h
          rw [h, nesting_append, h2] at h1
          simp [nesting_comma] at h1
      · by_cases hus : us = []
        · subst hus
          rw [commaList_cons t hts, comma_text] at h
          simp only [commaList, List.append_assoc, List.cons_append, List.nil_append] at h
          rw [← h, nesting_append, h1] at h2
          simp [nesting_comma] at h2
        · rw [commaList_cons t hts, commaList_cons u hus, comma_text] at h
          simp only [List.append_assoc, List.cons_append, List.nil_append] at h
          obtain ⟨h3, h4⟩ := split_comma h1 h2 h
          rw [h3, ih (fun x hx => ht x (by simp [hx])) (fun x hx => hu x (by simp [hx])) (List.cons.inj h4).2]

theorem nesting_commaList {ts : List Bytes} (h : ∀ t ∈ ts, Separable t) : nesting 1 (commaList ts) = some 1 := by
  induction ts with
  | nil => rfl
  | cons t ts ih =>
    have h1 : nesting 1 t = some 1 := nesting_deeper (h t (by simp)).2 1
    by_cases hts : ts = []
    · subst hts
      simpa [commaList] using h1
    · rw [commaList_cons t hts, List.append_assoc, nesting_append, h1]
      show nesting 1 (lit ", " ++ commaList ts) = some 1
      rw [nesting_append, show nesting 1 (lit ", ") = some 1 by decide]
      exact ih fun x hx => h x (by simp [hx])

theorem bracketed_separable {ts : List Bytes} (h : ∀ t ∈ ts, Separable t) : Separable (bracketed ts) := by
  refine ⟨?_, ?_⟩
  · rw [bracketed, show lit "[" = [91] by decide]
    simp
  · rw [bracketed, List.append_assoc, nesting_append, show nesting 0 (lit "[") = some 1 by decide]
    show nesting 1 (commaList ts ++ lit "]") = some 0
    rw [nesting_append, nesting_commaList h]
    decide

theorem bracketed_inj {ts us : List Bytes} (ht : ∀ t ∈ ts, Separable t) (hu : ∀ t ∈ us, Separable t)
    (h : bracketed ts = bracketed us) : ts = us := by
  simp only [bracketed, List.append_assoc, List.append_cancel_left_eq, List.append_cancel_right_eq] at h
  exact commaList_inj ht hu h

/-- Texts without brackets and commas. -/
theorem plain_separable {t : Bytes} (hn : t ≠ []) (h : ∀ c ∈ t, c ≠ 44 ∧ c ≠ 91 ∧ c ≠ 93) : Separable t := by
  refine ⟨hn, ?_⟩
  clear hn
  induction t with
  | nil => rfl
  | cons c t ih =>
    obtain ⟨h1, h2, h3⟩ := h c (by simp)
    simp [nesting, h1, h2, h3, ih fun x hx => h x (by simp [hx])]

theorem vector_text (c : Conv α) (xs : List α) : (vecConv c).toString xs = bracketed (xs.map c.toString) := by
  show vecPrintLoop c xs [] (lit "[") ++ lit "]" = _
  rw [loop_first, bracketed]

theorem natDecAux_digits (fuel n : Nat) : ∀ c ∈ natDecAux fuel n, 48 ≤ c ∧ c ≤ 57 := by
  have hd : ∀ k, k < 10 → (48 : UInt8) ≤ (48 + k).toUInt8 ∧ (48 + k).toUInt8 ≤ 57 := by decide
  induction fuel generalizing n with
  | zero => simp [natDecAux]
  | succ fuel ih =>
    rw [natDecAux]
    split
    · intro c hc
      simp only [List.mem_singleton] at hc
      subst hc
      exact hd n ‹_›
    · intro c hc
      rcases List.mem_append.1 hc with hc | hc
      · exact ih _ c hc
      · simp only [List.mem_singleton] at hc
        subst hc
        exact hd _ (Nat.mod_lt _ (by omega))

theorem natDec_nonempty (n : Nat) : natDec n ≠ [] := by
  rw [natDec, natDecAux]
  split <;> simp

theorem number_separable (t : IntType) (z : Int) : Separable (t.toString z) := by
  have hk : ∀ c : UInt8, 48 ≤ c ∧ c ≤ 57 → c ≠ 44 ∧ c ≠ 91 ∧ c ≠ 93 := by
    intro c ⟨h1, h2⟩
    refine ⟨?_, ?_, ?_⟩ <;> (rintro rfl; revert h1 h2; decide)
  have hn : ∀ n, Separable (natDec n) := fun n =>
    Texts.plain_separable (natDec_nonempty n) fun c hc => hk c (natDecAux_digits _ _ c hc)
  have hi : Separable (intDec z) := by
    unfold intDec
    split
    · exact hn _
    · refine Texts.plain_separable (by simp) fun c hc => ?_
      rcases List.mem_cons.1 hc with rfl | hc
      · decide
      · exact hk c (natDecAux_digits _ _ c hc)
  cases t <;> first | exact hn _ | exact hi

theorem numeric_separable (pl : Platform) (a : PTy) (ha : a.Numeric) (x : a.T) : Separable ((a.conv pl).toString x) := by
  induction a with
  | int t => exact number_separable t x
  | bool =>
    have hb : ∀ b : Bool, Separable (if b then lit "true" else lit "false") := by
      intro b
      refine Texts.plain_separable ?_ ?_ <;> (cases b <;> decide)
    exact hb x
  | text => exact ha.elim
  | raw => exact ha.elim
  | opt a => exact ha.elim
  | vec a ih =>
    show Separable ((vecConv (a.conv pl)).toString x)
    rw [vector_text]
    refine Texts.bracketed_separable fun t ht => ?_
    obtain ⟨y, _, rfl⟩ := List.mem_map.1 ht
    exact ih ha y

end Coil.Texts
