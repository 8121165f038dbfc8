import Verif.Props.Lexer

/-!
# Which characters the texts of a parsed command can have
-/

namespace Coil
open Spec

variable {d : Delims}

theorem tokens_word_no_quote {s : Bytes} {ts : List Tok} (h : Tokens d s ts) :
    ∀ w, Tok.word w ∈ ts → ∀ c ∈ w, c ∉ d.quotes := by
  induction h with
  | nil => simp
  | space _ _ ih => exact ih
  | assign _ ih => simpa using ih
  | quoted _ _ hb _ ih =>
    intro w hw
    rcases List.mem_cons.1 hw with hw | hw
    · cases hw
      exact hb
    · exact ih w hw
  | group _ _ _ _ ih => simpa using ih
  | bare h1 h2 _ _ _ ih =>
    intro w hw
    rcases List.mem_cons.1 hw with hw | hw
    · cases hw
      intro c hc
      rcases List.mem_cons.1 hc with rfl | hc
      · exact h1.2.2.2
      · exact (h2 c hc).2.2.2
    · exact ih w hw
  | bareList _ _ _ _ _ _ ih => simpa using ih

theorem tokens_compound_no_paren {s : Bytes} {ts : List Tok} (h : Tokens d s ts) :
    ∀ g, Tok.compound g ∈ ts → ∀ c ∈ g, c ∉ d.parens := by
  induction h with
  | nil => simp
  | space _ _ ih => exact ih
  | assign _ ih => simpa using ih
  | quoted _ _ _ _ ih => simpa using ih
  | group _ _ hb _ ih =>
    intro w hw
    rcases List.mem_cons.1 hw with hw | hw
    · cases hw
      exact hb
    · exact ih w hw
  | bare _ _ _ _ _ ih => simpa using ih
  | bareList h1 h2 _ _ _ _ ih =>
    intro w hw
    rcases List.mem_cons.1 hw with hw | hw
    · cases hw
      intro c hc
      rcases List.mem_cons.1 hc with rfl | hc
      · exact h1.2.2.1
      · exact (h2 c hc).2.2.1
    · exact ih w hw

theorem parts_mem {s : Bytes} {ps : List Bytes} (h : Parts d s ps) : ∀ p ∈ ps, ∀ c ∈ p, c ∈ s := by
  induction h with
  | nil => simp
  | sep _ _ ih =>
    intro p hp c hc
    exact List.mem_cons_of_mem _ (ih p hp c hc)
  | last _ =>
    intro p hp c hc
    simp only [List.mem_singleton] at hp
    rwa [← hp]
  | cons _ _ _ _ ih =>
    intro p hp c hc
    rcases List.mem_cons.1 hp with rfl | hp
    · simp [hc]
    · simp [ih p hp c hc]

theorem unquote_mem {p v : Bytes} (h : Unquote d p v) : ∀ c ∈ v, c ∈ p := by
  cases h with
  | quoted => intro c hc; simp [hc]
  | plainHead => exact fun c hc => hc
  | plainLast => exact fun c hc => hc

theorem subValues_mem {g : Bytes} {vs : List Bytes} (h : SubValues d g vs) : ∀ v ∈ vs, ∀ c ∈ v, c ∈ g := by
  obtain ⟨ps, h1, h2⟩ := h
  have hm := parts_mem h1
  clear h1
  induction h2 with
  | nil => simp
  | cons hu _ ih =>
    intro v hv c hc
    rcases List.mem_cons.1 hv with rfl | hv
    · exact hm _ (by simp) c (unquote_mem hu c hc)
    · exact ih (fun p hp => hm p (by simp [hp])) v hv c hc

theorem items_no_paren {ts : List Tok} {ps : List (GValue Bytes)} {ns : List (GNamed Bytes)} (h : Items d ts ps ns)
    (ht : ∀ g, Tok.compound g ∈ ts → ∀ c ∈ g, c ∉ d.parens) :
    (∀ v ∈ ps, v.subvalues.length ≠ 1 → ∀ w ∈ v.subvalues, ∀ c ∈ w, c ∉ d.parens) ∧
    (∀ n ∈ ns, n.value.subvalues.length ≠ 1 → ∀ w ∈ n.value.subvalues, ∀ c ∈ w, c ∉ d.parens) := by
  have one : ∀ {t : Tok} {v : GValue Bytes}, TokValue d t v → (∀ g, t = .compound g → ∀ c ∈ g, c ∉ d.parens) →
      v.subvalues.length ≠ 1 → ∀ w ∈ v.subvalues, ∀ c ∈ w, c ∉ d.parens := by
    intro t v hv hg hl
    cases hv with
    | word => simp at hl
    | compound hs => exact fun w hw c hc => hg _ rfl c (subValues_mem hs w hw c hc)
  induction h with
  | nil => simp
  | positional hv _ ih =>
    obtain ⟨i1, i2⟩ := ih fun g hg => ht g (by simp [hg])
    refine ⟨?_, i2⟩
    intro v hm
    rcases List.mem_cons.1 hm with rfl | hm
    · exact one hv fun g hg => ht g (by simp [hg])
    · exact i1 v hm
  | named _ hv _ ih =>
    obtain ⟨i1, i2⟩ := ih fun g hg => ht g (by simp [hg])
    refine ⟨i1, ?_⟩
    intro n hm
    rcases List.mem_cons.1 hm with rfl | hm
    · exact one hv fun g hg => ht g (by simp [hg])
    · exact i2 n hm

theorem accepts_spellable {s : Bytes} {i : GInput Bytes} (h : Accepts d s i) (hq : QuoteFree d i) : SpellableInput d i := by
  obtain ⟨ts, h1, h2⟩ := h
  cases h2 with
  | empty => exact ⟨by simp, by simp, by simp, by simp⟩
  | cmd hi =>
    obtain ⟨p1, p2⟩ := items_no_paren hi fun g hg => tokens_compound_no_paren h1 g (by simp [hg])
    exact ⟨tokens_word_no_quote h1 _ (by simp), fun v hv => ⟨hq.1 v hv, p1 v hv⟩, fun n hn => (hq.2 n hn).1,
      fun n hn => ⟨(hq.2 n hn).2, p2 n hn⟩⟩

/-- The text of a line without quotes inside groups is quote-free. -/
theorem accepts_quoteFree {s : Bytes} {i : GInput Bytes} (h : Accepts d s i)
    (hg : ∀ ts g, Tokens d s ts → Tok.compound g ∈ ts → ∀ c ∈ g, c ∉ d.quotes) : QuoteFree d i := by
  obtain ⟨ts, h1, h2⟩ := h
  have hw := tokens_word_no_quote h1
  have hg' := fun g => hg ts g h1
  clear h1 hg
  have one : ∀ {t : Tok} {v : GValue Bytes}, TokValue d t v → t ∈ ts → ∀ w ∈ v.subvalues, ∀ c ∈ w, c ∉ d.quotes := by
    intro t v hv ht
    cases hv with
    | word =>
      intro w hm
      simp only [List.mem_singleton] at hm
      rw [hm]
      exact hw _ ht
    | compound hs => exact fun w hm c hc => hg' _ ht c (subValues_mem hs w hm c hc)
  have key : ∀ {t : Tok} {k : Bytes}, TokText t k → t ∈ ts → ∀ c ∈ k, c ∉ d.quotes := by
    intro t k hk ht
    cases hk with
    | word => exact hw _ ht
    | compound => exact hg' _ ht
  have items : ∀ {l : List Tok} {ps : List (GValue Bytes)} {ns : List (GNamed Bytes)}, Items d l ps ns → (∀ t ∈ l, t ∈ ts) →
      (∀ v ∈ ps, ∀ w ∈ v.subvalues, ∀ c ∈ w, c ∉ d.quotes) ∧
      (∀ n ∈ ns, (∀ c ∈ n.key, c ∉ d.quotes) ∧ ∀ w ∈ n.value.subvalues, ∀ c ∈ w, c ∉ d.quotes) := by
    intro l ps ns hi
    induction hi with
    | nil => simp
    | positional hv _ ih =>
      intro hl
      obtain ⟨i1, i2⟩ := ih fun t ht => hl t (by simp [ht])
      refine ⟨?_, i2⟩
      intro v hm
      rcases List.mem_cons.1 hm with rfl | hm
      · exact one hv (hl _ (by simp))
      · exact i1 v hm
    | named hk hv _ ih =>
      intro hl
      obtain ⟨i1, i2⟩ := ih fun t ht => hl t (by simp [ht])
      refine ⟨i1, ?_⟩
      intro n hm
      rcases List.mem_cons.1 hm with rfl | hm
      · exact ⟨key hk (hl _ (by simp)), one hv (hl _ (by simp))⟩
      · exact i2 n hm
  cases h2 with
  | empty => exact ⟨by simp, by simp⟩
  | cmd hi => exact items hi fun t ht => by simp [ht]

end Coil
