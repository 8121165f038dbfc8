import Verif.Spec.Plain
import Verif.Proofs.LexMain
import Verif.Proofs.LexCtx

/-!
# The default delimiters (C59)
-/

namespace Coil
open Spec Spec.Plain

/-- **C59.** Which bytes are special for the default lexer. -/
theorem C59_classes (charSigned : Bool) (c : Byte) :
    (c ∈ (delims (LexCfg.default charSigned)).spaces ↔ c = 32 ∨ c = 9 ∨ c = 10 ∨ c = 13) ∧
    (c ∈ (delims (LexCfg.default charSigned)).quotes ↔ c = 39 ∨ c = 34) ∧
    (c ∈ (delims (LexCfg.default charSigned)).parens ↔ c = 40 ∨ c = 41) ∧
    (c ∈ (delims (LexCfg.default charSigned)).seps ↔ c = 44 ∨ c = 59 ∨ c = 124) := by
  have h1 : (delims (LexCfg.default charSigned)).spaces = [32, 9, 10, 13] := by cases charSigned <;> decide
  have h2 : (delims (LexCfg.default charSigned)).quotes = [39, 34] := by cases charSigned <;> decide
  have h3 : (delims (LexCfg.default charSigned)).parens = [40, 41] := by cases charSigned <;> decide
  have h4 : (delims (LexCfg.default charSigned)).seps = [44, 59, 124] := by cases charSigned <;> decide
  simp [h1, h2, h3, h4]

theorem fieldsFrom_append {p : Byte → Bool} {w : Bytes} (hw : ∀ c ∈ w, p c = false) (run s : Bytes) :
    fieldsFrom p run (w ++ s) = fieldsFrom p (run ++ w) s := by
  induction w generalizing run with
  | nil => simp
  | cons c w ih =>
    have h1 : p c = false := hw c (by simp)
    simp [fieldsFrom, h1, ih (fun x hx => hw x (by simp [hx]))]

theorem fieldsFrom_stop {p : Byte → Bool} {run : Bytes} (hr : run ≠ []) {s : Bytes} (hs : ∀ c, s.head? = some c → p c = true) :
    fieldsFrom p run s = run :: fieldsFrom p [] s := by
  match s with
  | [] => simp [fieldsFrom, hr]
  | c :: t => simp [fieldsFrom, hs c rfl, hr]

section
variable {b : Bool}

theorem blank_iff {c : Byte} : c ∈ (delims (LexCfg.default b)).spaces ↔ blank c = true := by
  rw [(C59_classes b c).1]
  simp [blank, or_assoc]

theorem comma_iff {c : Byte} : c ∈ (delims (LexCfg.default b)).seps ↔ comma c = true := by
  rw [(C59_classes b c).2.2.2]
  simp [comma, or_assoc]

theorem ordinary_iff {c : Byte} (h : plain c = true) : Ordinary (delims (LexCfg.default b)) c ↔ blank c = false := by
  have h' := C59_classes b c
  simp [plain] at h
  simp only [Ordinary, blank_iff, h'.2.1, h'.2.2.1]
  obtain ⟨⟨⟨⟨h1, h2⟩, h3⟩, h4⟩, h5⟩ := h
  simp [h1, h2, h3, h4, h5]

/-- The token that a word is. -/
def wordTok (w : Bytes) : Tok := if listy w then .compound w else .word w

theorem plain_tokens (n : Nat) : ∀ s : Bytes, s.length ≤ n → (∀ c ∈ s, plain c = true) →
    Tokens (delims (LexCfg.default b)) s ((fields blank s).map wordTok) ∧
    ∀ w ∈ fields blank s, w ≠ [] ∧ ∀ c ∈ w, blank c = false ∧ c ∈ s := by
  induction n with
  | zero =>
    intro s hs _
    match s, hs with
    | [], _ => exact ⟨.nil, by simp [fields, fieldsFrom]⟩
  | succ n ih =>
    intro s hs hp
    match s with
    | [] => exact ⟨.nil, by simp [fields, fieldsFrom]⟩
    | c :: t =>
      by_cases hc : blank c = true
      · have h := ih t (by simpa using hs) (fun x hx => hp x (by simp [hx]))
        have hf : fields blank (c :: t) = fields blank t := by simp [fields, fieldsFrom, hc]
        rw [hf]
        refine ⟨.space (blank_iff.2 hc) h.1, fun w hw => ⟨(h.2 w hw).1, fun x hx => ?_⟩⟩
        have := (h.2 w hw).2 x hx
        exact ⟨this.1, by simp [this.2]⟩
      · obtain ⟨w, r, hwr, hw, hr⟩ := split_while (fun x => blank x = false) t
        subst hwr
        have hc' : blank c = false := by simpa using hc
        have hhead : ∀ x, r.head? = some x → blank x = true := by
          intro x hx
          have := hr x hx
          simpa using this
        have hf : fields blank (c :: (w ++ r)) = (c :: w) :: fields blank r := by
          rw [fields, fieldsFrom, if_neg hc, List.nil_append, fieldsFrom_append hw, fieldsFrom_stop (by simp) hhead]
          rfl
        have h := ih r (by simp at hs; omega) (fun x hx => hp x (by simp [hx]))
        have ho : ∀ x ∈ w, Ordinary (delims (LexCfg.default b)) x := fun x hx =>
          (ordinary_iff (hp x (by simp [hx]))).2 (hw x hx)
        have hno : NoOrdinaryHead (delims (LexCfg.default b)) r := by
          intro x hx
          rw [ordinary_iff (hp x (by
            have := List.mem_of_mem_head? hx
            simp [this]))]
          simp [hhead x hx]
        have hsep : ∀ x ∈ w, Separator (delims (LexCfg.default b)) x ↔ comma x = true := by
          intro x hx
          have := hw x hx
          simp only [Separator, blank_iff, comma_iff, this]
          simp
        rw [hf]
        refine ⟨?_, ?_⟩
        · by_cases hl : listy (c :: w) = true
          · have : wordTok (c :: w) = .compound (c :: w) := by simp [wordTok, hl]
            simp only [List.map_cons, this]
            simp only [listy, List.tail_cons, List.any_eq_true] at hl
            obtain ⟨x, hx, hcx⟩ := hl
            exact .bareList ((ordinary_iff (hp c (by simp))).2 hc') ho hno hx ((hsep x hx).2 hcx) h.1
          · have : wordTok (c :: w) = .word (c :: w) := by simp [wordTok, hl]
            simp only [List.map_cons, this]
            refine .bare ((ordinary_iff (hp c (by simp))).2 hc') ho hno (fun x hx => ?_) h.1
            rw [hsep x hx]
            intro hcx
            exact hl (by simp only [listy, List.tail_cons, List.any_eq_true]; exact ⟨x, hx, hcx⟩)
        · intro v hv
          rcases List.mem_cons.1 hv with rfl | hv
          · refine ⟨by simp, fun x hx => ?_⟩
            rcases List.mem_cons.1 hx with rfl | hx
            · exact ⟨hc', by simp⟩
            · exact ⟨hw x hx, by simp [hx]⟩
          · refine ⟨(h.2 v hv).1, fun x hx => ?_⟩
            have := (h.2 v hv).2 x hx
            exact ⟨this.1, by simp [this.2]⟩

theorem pieces_fields {d : Delims} {p : Byte → Bool} (n : Nat) : ∀ s : Bytes, s.length ≤ n →
    (∀ c ∈ s, Separator d c ↔ p c = true) → pieces d s = fields p s := by
  induction n with
  | zero =>
    intro s hs _
    match s, hs with
    | [], _ => rfl
  | succ n ih =>
    intro s hs hp
    obtain ⟨w, r, rfl, hw, hr⟩ := split_while (fun x => p x = false) s
    have hws : ∀ c ∈ w, ¬ Separator d c := fun c hc => by
      rw [hp c (by simp [hc])]
      simp [hw c hc]
    match r with
    | [] =>
      rw [List.append_nil, pieces, chunks_last hws, fields]
      rw [show fieldsFrom p [] w = fieldsFrom p [] (w ++ []) by simp, fieldsFrom_append hw]
      by_cases h : w = [] <;> simp [h, fieldsFrom]
    | c :: r =>
      have hc : p c = true := by simpa using hr c rfl
      have hcs : Separator d c := (hp c (by simp)).2 hc
      rw [pieces, chunks_split hws hcs, fields, fieldsFrom_append hw]
      have h := ih r (by simp at hs; omega) (fun x hx => hp x (by simp [hx]))
      rw [pieces, fields] at h
      by_cases hwe : w = []
      · simp [hwe, fieldsFrom, hc, ← h]
      · simp [hwe, fieldsFrom, hc, ← h]

theorem plain_value {s w : Bytes} (hs : ∀ c ∈ s, plain c = true) (hw : ∀ c ∈ w, blank c = false ∧ c ∈ s) :
    TokValue (delims (LexCfg.default b)) (wordTok w) (valueOf w) := by
  by_cases hl : listy w = true
  · simp only [wordTok, valueOf, hl, if_true]
    have hq : ∀ c ∈ w, c ∉ (delims (LexCfg.default b)).quotes := by
      intro c hc
      have := ((ordinary_iff (b := b) (hs c (hw c hc).2)).2 (hw c hc).1)
      exact this.2.2.2
    have := subValues_pieces hq
    rw [pieces_fields (p := comma) w.length w (Nat.le_refl _)] at this
    · exact .compound this
    · intro c hc
      simp [Separator, blank_iff, comma_iff, (hw c hc).1]
  · simp only [wordTok, valueOf, hl]
    exact .word

theorem plain_items {s : Bytes} (hs : ∀ c ∈ s, plain c = true) : ∀ ws : List Bytes, (∀ w ∈ ws, ∀ c ∈ w, blank c = false ∧ c ∈ s) →
    Items (delims (LexCfg.default b)) (ws.map wordTok) (ws.map valueOf) [] := by
  intro ws
  induction ws with
  | nil => intro _; exact .nil
  | cons w ws ih =>
    intro h
    exact .positional (plain_value hs (h w (by simp))) (ih (fun v hv => h v (by simp [hv])))

end

/-- **C59.** A line without quotes, parentheses and `=` is cut at blanks; the first word is the name of the command and each further
word an argument, a word with `,` `;` or `|` behind its first character being the list of the parts between these. -/
theorem C59_plain (charSigned : Bool) {s : Bytes} (hs : ∀ c ∈ s, plain c = true) :
    lexRead (LexCfg.default charSigned) s = .ok (meaning s) := by
  obtain ⟨ht, hf⟩ := plain_tokens (b := charSigned) s.length s (Nat.le_refl _) hs
  unfold meaning
  rcases hw : fields blank s with _ | ⟨n, args⟩
  · rw [hw] at ht
    exact lexRead_accepts (proper_default _) ⟨_, ht, .empty⟩
  · rw [hw] at ht hf
    by_cases hl : listy n = true
    · simp only [hl, if_true]
      refine lexRead_rejects (proper_default _) (.inl ⟨_, ht, ?_⟩)
      rw [List.map_cons, show wordTok n = .compound n by simp [wordTok, hl]]
      exact .compoundFirst
    · simp only [hl]
      refine lexRead_accepts (proper_default _) ⟨_, ht, ?_⟩
      rw [List.map_cons, show wordTok n = .word n by simp [wordTok, hl]]
      exact .cmd (plain_items hs args (fun w hw' => (hf w (by simp [hw'])).2))

/-- **C59.** Without `,` `;` `|` every word is an argument as it is. -/
theorem C59_simple (charSigned : Bool) {s : Bytes} (hs : ∀ c ∈ s, plain c = true ∧ comma c = false) (n : Bytes) (args : List Bytes)
    (h : fields blank s = n :: args) :
    lexRead (LexCfg.default charSigned) s = .ok (.ok ⟨n, args.map (fun w => ⟨[w]⟩), []⟩) := by
  rw [C59_plain charSigned (fun c hc => (hs c hc).1)]
  have hf := (plain_tokens (b := charSigned) s.length s (Nat.le_refl _) (fun c hc => (hs c hc).1)).2
  have key : ∀ w ∈ fields blank s, listy w = false := by
    intro w hw
    rw [listy, List.any_eq_false]
    intro x hx
    have := (hs x ((hf w hw).2 x (List.mem_of_mem_tail hx)).2).2
    simp [this]
  rw [h] at key
  unfold meaning
  rw [h]
  simp only [key n (by simp), Bool.false_eq_true, if_false]
  rw [show args.map valueOf = args.map (fun w => ⟨[w]⟩) from
    List.map_congr_left (fun w hw => by simp [valueOf, key w (by simp [hw])])]

example : meaning (lit "  give\tsword,2;x 5 \r\n") = .ok ⟨lit "give", [⟨[lit "sword", lit "2", lit "x"]⟩, ⟨[lit "5"]⟩], []⟩ := by
  decide +kernel

example : ∀ c ∈ lit "  give\tsword,2;x 5 \r\n", plain c = true := by decide

end Coil
