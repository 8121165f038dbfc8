import Verif.Proofs.LexMain
import Verif.Spec.Surface

/-! # Spelled commands derive in the grammar -/

namespace Coil
open Spec

section
variable {cfg : LexCfg} (hp : Proper cfg)
include hp

theorem quote_not_sep {q : Byte} (h : q ∈ (delims cfg).quotes) : ¬ Separator (delims cfg) q := by
  rintro (h1 | h1)
  · exact hp.spaceQuote q h1 h
  · exact hp.sepQuote q h1 h

omit hp in
theorem quoteCount_zero {d : Delims} {w : Bytes} (h : ∀ c ∈ w, c ∉ d.quotes) : quoteCount d w = 0 := by
  unfold quoteCount
  rw [List.countP_eq_zero]
  intro c hc
  simpa using h c hc

theorem rawPart_of_spart {p : SPart} (h : p.WF (delims cfg)) :
    RawPart (delims cfg) p.text ∧ quoteCount (delims cfg) p.text % 2 = 0 ∧
      Unquote (delims cfg) p.text p.denotes := by
  cases p with
  | bare w =>
    obtain ⟨hne, hw⟩ := h
    cases w with
    | nil => exact absurd rfl hne
    | cons c t =>
      refine ⟨⟨⟨c, t, rfl, (hw c (by simp)).1⟩, ?_⟩, ?_, .plainHead (hw c (by simp)).2.1⟩
      · intro a x b hx hs
        simp only [SPart.text] at hx
        exact absurd hs (hw x (by rw [hx]; simp)).1
      · simp only [SPart.text]
        rw [quoteCount_zero (fun x hx => (hw x hx).2.1)]
  | quoted q q' w =>
    obtain ⟨hq, hq', hw⟩ := h
    have hq1 : quoteCount (delims cfg) [q'] = 1 := by simp [quoteCount, hq']
    refine ⟨⟨⟨q, _, rfl, quote_not_sep hp hq⟩, ?_⟩, ?_, .quoted hq hq'⟩
    · intro a x b hx hs
      simp only [SPart.text] at hx
      cases a with
      | nil =>
        simp at hx
        exact absurd (hx.1 ▸ hs) (quote_not_sep hp hq)
      | cons a0 a =>
        simp at hx
        obtain ⟨rfl, hx⟩ := hx
        have : quoteCount (delims cfg) (q :: a) = 1 + quoteCount (delims cfg) a := by
          simp [quoteCount, hq]; omega
        rw [this, quoteCount_zero]
        intro c hc
        rcases List.append_eq_append_iff.1 hx with ⟨a', h1, h2⟩ | ⟨a', h1, h2⟩
        · cases a' with
          | nil =>
            simp at h1
            exact (hw c (h1 ▸ hc)).1
          | cons y a' =>
            simp at h2
        · exact (hw c (by rw [h1]; simp [hc])).1
    · simp only [SPart.text]
      have : quoteCount (delims cfg) (q :: (w ++ [q'])) = 1 + (quoteCount (delims cfg) w + 1) := by
        have e : q :: (w ++ [q']) = [q] ++ (w ++ [q']) := rfl
        rw [e]
        unfold quoteCount at *
        rw [List.countP_append, List.countP_append, hq1]
        simp [hq]
      rw [this, quoteCount_zero (fun c hc => (hw c hc).1)]

omit hp in
theorem parts_seps {d : Delims} {run u : Bytes} {ps : List Bytes} (hr : ∀ c ∈ run, Separator d c)
    (h : Parts d u ps) : Parts d (run ++ u) ps := by
  induction run with
  | nil => exact h
  | cons c run ih => exact .sep (hr c (by simp)) (ih (fun x hx => hr x (by simp [hx])))

theorem parts_of_sparts {l : List (SPart × Bytes)} (h : PartsWF (delims cfg) l) :
    Parts (delims cfg) (partsText l) (l.map (·.1.text)) := by
  induction l with
  | nil => exact .nil
  | cons x l ih =>
    obtain ⟨p, run⟩ := x
    obtain ⟨h1, h2, h3, h4⟩ := h
    obtain ⟨r1, r2, _⟩ := rawPart_of_spart hp h1
    simp only [partsText, List.map_cons]
    cases run with
    | nil =>
      have : l = [] := by
        apply Classical.byContradiction
        intro hl
        exact absurd rfl (h3 hl)
      subst this
      simpa [partsText] using Parts.last r1
    | cons c run =>
      exact .cons r1 r2 (h2 c (by simp)) (parts_seps (fun x hx => h2 x (by simp [hx])) (ih h4))

theorem unquotes_of_sparts {l : List (SPart × Bytes)} (h : PartsWF (delims cfg) l) :
    Forall2 (Unquote (delims cfg)) (l.map (·.1.text)) (l.map (·.1.denotes)) := by
  induction l with
  | nil => exact .nil
  | cons x l ih =>
    obtain ⟨p, run⟩ := x
    obtain ⟨h1, h2, h3, h4⟩ := h
    exact .cons (rawPart_of_spart hp h1).2.2 (ih h4)

omit hp in
theorem sparts_no_paren {l : List (SPart × Bytes)} (hp : Proper cfg) (h : PartsWF (delims cfg) l) :
    ∀ c ∈ partsText l, c ∉ (delims cfg).parens := by
  induction l with
  | nil => simp [partsText]
  | cons x l ih =>
    obtain ⟨p, run⟩ := x
    obtain ⟨h1, h2, h3, h4⟩ := h
    intro c hc
    simp only [partsText, List.mem_append] at hc
    rcases hc with hc | hc | hc
    · cases p with
      | bare w => exact (h1.2 c hc).2.2
      | quoted q q' w =>
        obtain ⟨g1, g2, g3⟩ := h1
        simp only [SPart.text, List.mem_cons, List.mem_append, List.not_mem_nil, or_false] at hc
        rcases hc with rfl | hc | rfl
        · exact fun hh => hp.parenQuote _ hh g1
        · exact (g3 c hc).2
        · exact fun hh => hp.parenQuote _ hh g2
    · rcases h2 c hc with h | h
      · exact hp.spaceParen c h
      · exact hp.sepParen c h
    · exact ih h4 c hc

omit hp in
theorem tokens_blank {d : Delims} {ws u : Bytes} {ts : List Tok} (hw : Blank d ws) (h : Tokens d u ts) :
    Tokens d (ws ++ u) ts := by
  induction ws with
  | nil => exact h
  | cons c ws ih => exact .space (hw c (by simp)) (ih (fun x hx => hw x (by simp [hx])))

/-- A spelled value is one token, if what follows does not continue a bare word. -/
theorem tokens_of_svalue {v : SValue} (h : v.WF (delims cfg)) :
    ∃ t, TokValue (delims cfg) t v.denotes ∧ (∀ w, IsSimple v w → t = .word w ∧ v.simpleText = w) ∧
      ∀ u ts, Tokens (delims cfg) u ts → (v.isBare = true → NoOrdinaryHead (delims cfg) u) →
        Tokens (delims cfg) (v.text ++ u) (t :: ts) := by
  cases v with
  | bare w =>
    obtain ⟨hne, hw⟩ := h
    cases w with
    | nil => exact absurd rfl hne
    | cons c t =>
      refine ⟨.word (c :: t), .word, ?_, ?_⟩
      · intro w hw
        cases hw
        exact ⟨rfl, rfl⟩
      · intro u ts hu hb
        exact .bare (hw c (by simp)).1 (fun x hx => (hw x (by simp [hx])).1) (hb rfl)
          (fun x hx => (hw x (by simp [hx])).2) hu
  | quoted q q' w =>
    obtain ⟨hq, hq', hw⟩ := h
    refine ⟨.word w, .word, ?_, ?_⟩
    · intro w hw
      cases hw
      exact ⟨rfl, rfl⟩
    · intro u ts hu _
      simpa [SValue.text] using Tokens.quoted hq hq' hw hu
  | group p p' lead parts =>
    obtain ⟨h1, h2, h3, h4⟩ := h
    refine ⟨.compound (lead ++ partsText parts), .compound ⟨_, parts_seps h3 (parts_of_sparts hp h4),
      unquotes_of_sparts hp h4⟩, ?_, ?_⟩
    · intro w hw
      cases hw
    · intro u ts hu _
      have := Tokens.group (body := lead ++ partsText parts) h1 h2 ?_ hu
      · simpa [SValue.text] using this
      · intro c hc
        rw [List.mem_append] at hc
        rcases hc with hc | hc
        · rcases h3 c hc with h | h
          · exact hp.spaceParen c h
          · exact hp.sepParen c h
        · exact sparts_no_paren hp h4 c hc
  | list parts =>
    obtain ⟨h1, h2, h3, h4, x, hx, hxs⟩ := h
    have hparts := parts_of_sparts hp h1
    have hun := unquotes_of_sparts hp h1
    refine ⟨.compound (partsText parts), .compound ⟨_, hparts, hun⟩, ?_, ?_⟩
    · intro w hw
      cases hw
    · intro u ts hu hb
      simp only [SValue.text]
      cases parts with
      | nil => exact absurd rfl h4
      | cons y parts =>
        obtain ⟨p, run⟩ := y
        obtain ⟨g1, g2, g3, g4⟩ := h1
        obtain ⟨w, hw⟩ := h2 (p, run) (by simp)
        simp at hw
        subst hw
        obtain ⟨hne, hw⟩ := g1
        cases w with
        | nil => exact absurd rfl hne
        | cons c t =>
          simp only [partsText, SPart.text, List.cons_append] at *
          refine Tokens.bareList (x := x) (h3 c (by simp)) (fun x hx => h3 x (List.mem_cons_of_mem _ hx)) (hb rfl) ?_ hxs hu
          rcases List.mem_cons.1 hx with rfl | hx
          · exact absurd hxs (hw _ (by simp)).1
          · exact hx

end

section
variable {cfg : LexCfg} (hp : Proper cfg)
include hp

omit hp in
theorem noOrdinaryHead_blank {d : Delims} {ws u : Bytes} (hw : Blank d ws)
    (h : ws ≠ [] ∨ NoOrdinaryHead d u) : NoOrdinaryHead d (ws ++ u) := by
  cases ws with
  | nil => simpa using h
  | cons c ws =>
    intro x hx
    simp at hx
    subst hx
    exact fun ho => ho.2.1 (hw _ (by simp))

omit hp in
/-- What a spelled value that is not bare starts with. -/
theorem noOrdinaryHead_svalue {v : SValue} (h : v.WF (delims cfg)) (hb : v.isBare = false) (u : Bytes) :
    NoOrdinaryHead (delims cfg) (v.text ++ u) := by
  cases v with
  | bare w => simp [SValue.isBare] at hb
  | list w => simp [SValue.isBare] at hb
  | quoted q q' w =>
    intro c hc
    simp [SValue.text] at hc
    subst hc
    exact fun ho => ho.2.2.2 h.1
  | group p p' lead parts =>
    intro c hc
    simp [SValue.text] at hc
    subst hc
    exact fun ho => ho.2.2.1 h.1

omit hp in
theorem noOrdinaryHead_sep {b : Bool} {ws u : Bytes} {v : SValue} (hw : Blank (delims cfg) ws)
    (hv : v.WF (delims cfg)) (hs : Separated b ws v) (hb : b = true) :
    NoOrdinaryHead (delims cfg) (ws ++ (v.text ++ u)) := by
  apply noOrdinaryHead_blank hw
  cases hvb : v.isBare with
  | true => exact .inl (hs hb hvb)
  | false => exact .inr (noOrdinaryHead_svalue hv hvb u)

theorem items_of_surface {b : Bool} {items : List SItem} (h : ItemsWF (delims cfg) b items) {trail : Bytes}
    (ht : Blank (delims cfg) trail) :
    ∃ ts, Items (delims cfg) ts (positionals items) (nameds items) ∧
      Tokens (delims cfg) ((items.map SItem.text).flatten ++ trail) ts ∧
      (b = true → NoOrdinaryHead (delims cfg) ((items.map SItem.text).flatten ++ trail)) := by
  have htr : Tokens (delims cfg) trail [] := by simpa using tokens_blank ht .nil
  have hb0 : NoOrdinaryHead (delims cfg) trail := by
    simpa using noOrdinaryHead_blank (u := []) ht (.inr (by intro c hc; simp at hc))
  induction h with
  | nil => exact ⟨[], .nil, by simpa using htr, fun _ => by simpa using hb0⟩
  | @positional b ws v rest h1 h2 h3 h4 ih =>
    obtain ⟨ts, i1, i2, i3⟩ := ih
    obtain ⟨t, g1, g2, g3⟩ := tokens_of_svalue hp h2
    refine ⟨t :: ts, .positional g1 i1, ?_, ?_⟩
    · have := tokens_blank h1 (g3 _ _ i2 i3)
      simpa [SItem.text] using this
    · intro hb
      have := noOrdinaryHead_sep (u := (rest.map SItem.text).flatten ++ trail) h1 h2 h3 hb
      simpa [SItem.text] using this
  | @named b ws ws1 ws2 k v w rest h1 h2 h3 h4 h5 h6 h7 h8 ih =>
    obtain ⟨ts, i1, i2, i3⟩ := ih
    obtain ⟨t, g1, g2, g3⟩ := tokens_of_svalue hp h6
    obtain ⟨tk, k1, k2, k3⟩ := tokens_of_svalue hp h4
    obtain ⟨rfl, hkw⟩ := k2 w h5
    refine ⟨.word w :: .assign :: t :: ts, ?_, ?_, ?_⟩
    · have := Items.named (d := delims cfg) (TokText.word (w := w)) g1 i1
      simpa [positionals, nameds, hkw] using this
    · have a1 := tokens_blank h3 (g3 _ _ i2 i3)
      have a2 := tokens_blank h2 (Tokens.assign a1)
      have a3 := tokens_blank h1 (k3 _ _ a2 (fun _ => by
        apply noOrdinaryHead_blank h2
        refine .inr ?_
        intro c hc
        simp at hc
        subst hc
        exact fun ho => ho.1 rfl))
      simpa [SItem.text] using a3
    · intro hb
      have := noOrdinaryHead_sep
        (u := ws1 ++ 61 :: (ws2 ++ (v.text ++ ((rest.map SItem.text).flatten ++ trail)))) h1 h4 h7 hb
      simpa [SItem.text] using this

theorem accepts_of_surface {c : SCommand} (h : c.WF (delims cfg)) :
    Accepts (delims cfg) c.text c.denotes := by
  obtain ⟨ts, i1, i2, i3⟩ := items_of_surface hp h.items h.trail
  obtain ⟨t, g1, g2, g3⟩ := tokens_of_svalue hp h.name
  obtain ⟨w, hw⟩ := h.simple
  obtain ⟨rfl, hkw⟩ := g2 w hw
  refine ⟨.word w :: ts, ?_, ?_⟩
  · have := tokens_blank h.lead (g3 _ _ i2 i3)
    simpa [SCommand.text] using this
  · have := Command.cmd (n := w) i1
    simpa [SCommand.denotes, hkw] using this

end

/-! ## The canonical spelling -/

/-- The spelling `quoteValue` writes. -/
def canonValue (q p p' sp : Byte) (v : GValue Bytes) : SValue :=
  match v.subvalues with
  | [w] => .quoted q q w
  | ws => .group p p' [] (ws.map (fun w => (.quoted q q w, [sp])))

theorem canonValue_text (q p p' sp : Byte) (v : GValue Bytes) :
    (canonValue q p p' sp v).text = quoteValue q p p' sp v := by
  have key : ∀ ws : List Bytes, partsText (ws.map (fun w => (SPart.quoted q q w, [sp]))) =
      (ws.map (fun w => q :: (w ++ [q, sp]))).flatten := by
    intro ws
    induction ws with
    | nil => rfl
    | cons w ws ih => simp [partsText, SPart.text, ih]
  obtain ⟨ws⟩ := v
  match ws with
  | [] => rfl
  | [w] => rfl
  | a :: b :: t => simp only [canonValue, quoteValue, SValue.text, key, List.nil_append]

theorem canonValue_denotes (q p p' sp : Byte) (v : GValue Bytes) :
    (canonValue q p p' sp v).denotes = v := by
  obtain ⟨ws⟩ := v
  match ws with
  | [] => rfl
  | [w] => rfl
  | a :: b :: t => simp [canonValue, SValue.denotes, SPart.denotes, Function.comp_def]

theorem canonValue_isBare (q p p' sp : Byte) (v : GValue Bytes) :
    (canonValue q p p' sp v).isBare = false := by
  obtain ⟨ws⟩ := v
  match ws with
  | [] => rfl
  | [w] => rfl
  | a :: b :: t => rfl

section
variable {d : Delims} {q p p' sp : Byte} (hq : q ∈ d.quotes) (h1 : p ∈ d.parens) (h2 : p' ∈ d.parens)
  (hs : sp ∈ d.spaces)
include hq h1 h2 hs

theorem canonValue_wf {v : GValue Bytes} (h : Spellable d v) : (canonValue q p p' sp v).WF d := by
  have key : ∀ ws : List Bytes, (∀ w ∈ ws, ∀ c ∈ w, c ∉ d.quotes) → (∀ w ∈ ws, ∀ c ∈ w, c ∉ d.parens) →
      PartsWF d (ws.map (fun w => (SPart.quoted q q w, [sp]))) := by
    intro ws
    induction ws with
    | nil => intro _ _; trivial
    | cons w ws ih =>
      intro g1 g2
      refine ⟨⟨hq, hq, fun c hc => ⟨g1 w (by simp) c hc, g2 w (by simp) c hc⟩⟩, ?_, ?_, ?_⟩
      · intro c hc
        simp at hc
        subst hc
        exact .inl hs
      · simp
      · exact ih (fun w hw => g1 w (by simp [hw])) (fun w hw => g2 w (by simp [hw]))
  obtain ⟨g1, g2⟩ := h
  obtain ⟨ws⟩ := v
  match ws with
  | [] => exact ⟨h1, h2, by simp, trivial⟩
  | [w] => exact ⟨hq, hq, g1 w (by simp)⟩
  | a :: b :: t => exact ⟨h1, h2, by simp, key _ g1 (g2 (by simp))⟩

/-- The spelling `render` writes. -/
def canonCommand (q p p' sp : Byte) (i : GInput Bytes) : SCommand where
  lead := []
  name := .quoted q q i.name
  items := i.arguments.map (fun v => .positional [sp] (canonValue q p p' sp v)) ++
    i.namedArguments.map (fun n => .named [sp] (.quoted q q n.key) [] [] (canonValue q p p' sp n.value))
  trail := []

omit hq h1 h2 hs in
theorem canonCommand_text (i : GInput Bytes) : (canonCommand q p p' sp i).text = render q p p' sp i := by
  simp only [SCommand.text, canonCommand, render, SValue.text, List.map_append, List.map_map,
    List.flatten_append, List.append_nil, List.nil_append]
  congr 3
  · simp [Function.comp_def, SItem.text, canonValue_text]
  · simp only [Function.comp_def, SItem.text, canonValue_text]
    simp [SValue.text]

omit hq h1 h2 hs in
theorem canonCommand_denotes (i : GInput Bytes) : (canonCommand q p p' sp i).denotes = i := by
  have k1 : ∀ (l : List (GValue Bytes)) (m : List (GNamed Bytes)),
      positionals (l.map (fun v => .positional [sp] (canonValue q p p' sp v)) ++
        m.map (fun n => .named [sp] (.quoted q q n.key) [] [] (canonValue q p p' sp n.value))) = l := by
    intro l m
    induction l with
    | nil =>
      induction m with
      | nil => rfl
      | cons n m ih => simpa [positionals] using ih
    | cons v l ih => simp [positionals, canonValue_denotes] at ih ⊢; exact ih
  have k2 : ∀ (l : List (GValue Bytes)) (m : List (GNamed Bytes)),
      nameds (l.map (fun v => .positional [sp] (canonValue q p p' sp v)) ++
        m.map (fun n => .named [sp] (.quoted q q n.key) [] [] (canonValue q p p' sp n.value))) = m := by
    intro l m
    induction l with
    | nil =>
      induction m with
      | nil => rfl
      | cons n m ih => simp [nameds, canonValue_denotes, SValue.simpleText] at ih ⊢; exact ih
    | cons v l ih => simpa [nameds] using ih
  obtain ⟨n, a, na⟩ := i
  simp only [SCommand.denotes, canonCommand, k1, k2, SValue.simpleText]

theorem canonCommand_wf {i : GInput Bytes} (h : SpellableInput d i) : (canonCommand q p p' sp i).WF d := by
  have hsp : Blank d [sp] := by
    intro c hc
    simp at hc
    exact hc ▸ hs
  have hn : Blank d [] := by intro c hc; simp at hc
  refine ⟨hn, ⟨hq, hq, h.name⟩, ⟨_, .quoted⟩, ?_, hn⟩
  have k2 : ∀ (m : List (GNamed Bytes)), (∀ n ∈ m, ∀ c ∈ n.key, c ∉ d.quotes) → (∀ n ∈ m, Spellable d n.value) →
      ItemsWF d false
        (m.map (fun n => .named [sp] (.quoted q q n.key) [] [] (canonValue q p p' sp n.value))) := by
    intro m
    induction m with
    | nil => intro _ _; exact .nil
    | cons n m ih =>
      intro g1 g2
      refine .named hsp hn hn ⟨hq, hq, g1 n (by simp)⟩ .quoted
        (canonValue_wf hq h1 h2 hs (g2 n (by simp))) (by intro h; simp at h) ?_
      rw [canonValue_isBare]
      exact ih (fun x hx => g1 x (by simp [hx])) (fun x hx => g2 x (by simp [hx]))
  have k1 : ∀ l : List (GValue Bytes), (∀ v ∈ l, Spellable d v) →
      ItemsWF d false (l.map (fun v => .positional [sp] (canonValue q p p' sp v)) ++
        i.namedArguments.map (fun n => .named [sp] (.quoted q q n.key) [] [] (canonValue q p p' sp n.value))) := by
    intro l
    induction l with
    | nil => intro _; exact k2 _ h.keys h.vals
    | cons v l ih =>
      intro g
      refine .positional hsp (canonValue_wf hq h1 h2 hs (g v (by simp))) (by intro h; simp at h) ?_
      rw [canonValue_isBare]
      exact ih (fun x hx => g x (by simp [hx]))
  exact k1 _ h.args

end

end Coil
