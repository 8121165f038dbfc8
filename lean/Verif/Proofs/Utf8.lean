import Verif.Spec.Utf8
import Verif.Spec.Lexer
import Verif.Proofs.LexMain
import Verif.Model.Float

/-!
# Lemmas about UTF-8
-/

namespace Coil
namespace Utf
open Spec

theorem not_cont_of_ascii {c : Byte} (h : c ≤ 0x7F) : ¬ Cont c := by
  rintro ⟨h1, _⟩
  have : (0x80 : UInt8) ≤ 0x7F := UInt8.le_trans h1 h
  exact absurd this (by decide)

theorem lead3_cont {a b : Byte} (h : Lead3 a b) : Cont b := by
  unfold Lead3 Cont at *
  rcases h with ⟨_, h1, h2⟩ | ⟨_, _, h⟩ | ⟨_, h1, h2⟩ | ⟨_, _, h⟩
  · exact ⟨UInt8.le_trans (by decide) h1, h2⟩
  · exact h
  · exact ⟨h1, UInt8.le_trans h2 (by decide)⟩
  · exact h

theorem lead4_cont {a b : Byte} (h : Lead4 a b) : Cont b := by
  unfold Lead4 Cont at *
  rcases h with ⟨_, h1, h2⟩ | ⟨_, _, h⟩ | ⟨_, h1, h2⟩
  · exact ⟨UInt8.le_trans (by decide) h1, h2⟩
  · exact h
  · exact ⟨h1, UInt8.le_trans h2 (by decide)⟩

theorem append {a b : Bytes} (ha : Utf8 a) (hb : Utf8 b) : Utf8 (a ++ b) := by
  induction ha with
  | nil => exact hb
  | one h _ ih => exact .one h ih
  | two h1 h2 _ ih => exact .two h1 h2 ih
  | three h1 h2 _ ih => exact .three h1 h2 ih
  | four h1 h2 h3 _ ih => exact .four h1 h2 h3 ih

/-- A text can be cut before any byte that does not continue a character. -/
theorem cut {t : Bytes} (h : Utf8 t) : ∀ {a b : Bytes}, t = a ++ b → (∀ c, b.head? = some c → ¬ Cont c) → Utf8 a ∧ Utf8 b := by
  induction h with
  | nil =>
    intro a b e _
    obtain ⟨rfl, rfl⟩ := List.append_eq_nil_iff.1 e.symm
    exact ⟨.nil, .nil⟩
  | @one x s h h' ih =>
    intro a b e hb
    cases a with
    | nil => subst e; exact ⟨.nil, .one h h'⟩
    | cons y a =>
      simp at e
      obtain ⟨rfl, e⟩ := e
      obtain ⟨h1, h2⟩ := ih e hb
      exact ⟨.one h h1, h2⟩
  | @two x y s h1 h2 h' ih =>
    intro a b e hb
    match a with
    | [] => subst e; exact ⟨.nil, .two h1 h2 h'⟩
    | [z] =>
      simp at e
      obtain ⟨rfl, rfl⟩ := e
      exact absurd h2 (hb y rfl)
    | z :: w :: a =>
      simp at e
      obtain ⟨rfl, rfl, e⟩ := e
      obtain ⟨g1, g2⟩ := ih e hb
      exact ⟨.two h1 h2 g1, g2⟩
  | @three x y z s h1 h2 h' ih =>
    intro a b e hb
    match a with
    | [] => subst e; exact ⟨.nil, .three h1 h2 h'⟩
    | [u] =>
      simp at e
      obtain ⟨rfl, rfl⟩ := e
      exact absurd (lead3_cont h1) (hb y rfl)
    | [u, v] =>
      simp at e
      obtain ⟨rfl, rfl, rfl⟩ := e
      exact absurd h2 (hb z rfl)
    | u :: v :: w :: a =>
      simp at e
      obtain ⟨rfl, rfl, rfl, e⟩ := e
      obtain ⟨g1, g2⟩ := ih e hb
      exact ⟨.three h1 h2 g1, g2⟩
  | @four x y z o s h1 h2 h3 h' ih =>
    intro a b e hb
    match a with
    | [] => subst e; exact ⟨.nil, .four h1 h2 h3 h'⟩
    | [u] =>
      simp at e
      obtain ⟨rfl, rfl⟩ := e
      exact absurd (lead4_cont h1) (hb y rfl)
    | [u, v] =>
      simp at e
      obtain ⟨rfl, rfl, rfl⟩ := e
      exact absurd h2 (hb z rfl)
    | [u, v, w] =>
      simp at e
      obtain ⟨rfl, rfl, rfl, rfl⟩ := e
      exact absurd h3 (hb o rfl)
    | u :: v :: w :: q :: a =>
      simp at e
      obtain ⟨rfl, rfl, rfl, rfl, e⟩ := e
      obtain ⟨g1, g2⟩ := ih e hb
      exact ⟨.four h1 h2 h3 g1, g2⟩

theorem tail {c : Byte} {t : Bytes} (hc : c ≤ 0x7F) (h : Utf8 (c :: t)) : Utf8 t := by
  generalize hx : c :: t = x at h
  cases h with
  | nil => simp at hx
  | one _ h => simp at hx; rw [hx.2]; exact h
  | two h1 _ _ =>
    simp at hx
    obtain ⟨rfl, _⟩ := hx
    exact absurd (UInt8.le_trans h1.1 hc) (by decide)
  | three h1 _ _ =>
    simp at hx
    obtain ⟨rfl, _⟩ := hx
    unfold Lead3 at h1
    exfalso
    rcases h1 with h | h | h | h
    · rw [h.1] at hc; exact absurd hc (by decide)
    · exact absurd (UInt8.le_trans h.1 hc) (by decide)
    · rw [h.1] at hc; exact absurd hc (by decide)
    · exact absurd (UInt8.le_trans h.1 hc) (by decide)
  | four h1 _ _ _ =>
    simp at hx
    obtain ⟨rfl, _⟩ := hx
    unfold Lead4 at h1
    exfalso
    rcases h1 with h | h | h
    · rw [h.1] at hc; exact absurd hc (by decide)
    · exact absurd (UInt8.le_trans h.1 hc) (by decide)
    · rw [h.1] at hc; exact absurd hc (by decide)

/-- Cutting out an ASCII character. -/
theorem around {a b : Bytes} {c : Byte} (hc : c ≤ 0x7F) (h : Utf8 (a ++ c :: b)) : Utf8 a ∧ Utf8 b := by
  obtain ⟨h1, h2⟩ := cut h rfl (by intro x hx; simp at hx; subst hx; exact not_cont_of_ascii hc)
  exact ⟨h1, tail hc h2⟩

theorem ascii {t : Bytes} (h : ∀ c ∈ t, c ≤ 0x7F) : Utf8 t := by
  induction t with
  | nil => exact .nil
  | cons c t ih => exact .one (h c (by simp)) (ih (fun x hx => h x (by simp [hx])))

theorem cstr_utf8 {t : Bytes} (h : Utf8 t) : Utf8 (cstr t) := by
  have e : t = cstr t ++ t.dropWhile (· ≠ 0) := by unfold cstr; exact (List.takeWhile_append_dropWhile).symm
  refine (cut h e ?_).1
  intro c hc
  have : c = 0 := by
    have := List.head?_dropWhile_not (fun x : Byte => decide (x ≠ 0)) t
    rw [hc] at this
    simpa using this
  subst this
  decide

theorem digit_le (n : Nat) (h : n < 10) : (48 + n).toUInt8 ≤ 0x7F := by
  match n, h with
  | 0, _ | 1, _ | 2, _ | 3, _ | 4, _ | 5, _ | 6, _ | 7, _ | 8, _ | 9, _ => decide

theorem natDecAux_ascii (f n : Nat) : ∀ c ∈ natDecAux f n, c ≤ 0x7F := by
  induction f generalizing n with
  | zero => simp [natDecAux]
  | succ f ih =>
    intro c hc
    unfold natDecAux at hc
    split at hc
    · simp only [List.mem_singleton] at hc
      subst hc
      exact digit_le _ (by omega)
    · simp only [List.mem_append, List.mem_singleton] at hc
      rcases hc with hc | hc
      · exact ih _ c hc
      · subst hc
        exact digit_le _ (Nat.mod_lt _ (by omega))

theorem natDec_utf8 (n : Nat) : Utf8 (natDec n) := ascii (natDecAux_ascii _ _)

theorem intDec_utf8 (i : Int) : Utf8 (intDec i) := by
  unfold intDec
  split
  · exact natDec_utf8 _
  · exact .one (by decide) (natDec_utf8 _)

/-! ## The lexer -/

section Lexer

variable {cfg : LexCfg} (ha : AsciiDelims cfg)

include ha

/-- A token of a UTF-8 text is UTF-8. -/
theorem tokens {s : Bytes} {ts : List Tok} (h : Tokens (delims cfg) s ts) (hu : Utf8 s) :
    ∀ t ∈ ts, ∀ w, TokText t w → Utf8 w := by
  have hord : ∀ {s : Bytes}, NoOrdinaryHead (delims cfg) s → ∀ c, s.head? = some c → ¬ Cont c := by
    intro s hs c hc
    apply not_cont_of_ascii
    have := hs c hc
    unfold Ordinary at this
    by_cases h1 : c = 61
    · subst h1; decide
    · by_cases h2 : c ∈ (delims cfg).spaces
      · exact ha c (.inr (.inr (.inr h2)))
      · by_cases h3 : c ∈ (delims cfg).parens
        · exact ha c (.inl h3)
        · by_cases h4 : c ∈ (delims cfg).quotes
          · exact ha c (.inr (.inl h4))
          · exact absurd ⟨h1, h2, h3, h4⟩ this
  induction h with
  | nil => simp
  | space hc _ ih => exact ih (tail (ha _ (.inr (.inr (.inr hc)))) hu)
  | assign _ ih =>
    intro t ht w hw
    simp at ht
    rcases ht with rfl | ht
    · cases hw
    · exact ih (tail (by decide) hu) t ht w hw
  | quoted hq hq' _ _ ih =>
    obtain ⟨h1, h2⟩ := around (ha _ (.inr (.inl hq'))) (tail (ha _ (.inr (.inl hq))) hu)
    intro t ht w hw
    simp at ht
    rcases ht with rfl | ht
    · cases hw; exact h1
    · exact ih h2 t ht w hw
  | group hq hq' _ _ ih =>
    obtain ⟨h1, h2⟩ := around (ha _ (.inl hq')) (tail (ha _ (.inl hq)) hu)
    intro t ht w hw
    simp at ht
    rcases ht with rfl | ht
    · cases hw; exact h1
    · exact ih h2 t ht w hw
  | @bare c w s ts _ _ hno _ _ ih =>
    obtain ⟨h1, h2⟩ := cut (a := c :: w) (b := s) hu (by simp) (hord hno)
    intro t ht w hw
    simp at ht
    rcases ht with rfl | ht
    · cases hw; exact h1
    · exact ih h2 t ht w hw
  | @bareList c x w s ts _ _ hno _ _ _ ih =>
    obtain ⟨h1, h2⟩ := cut (a := c :: w) (b := s) hu (by simp) (hord hno)
    intro t ht w hw
    simp at ht
    rcases ht with rfl | ht
    · cases hw; exact h1
    · exact ih h2 t ht w hw

theorem parts {s : Bytes} {ps : List Bytes} (h : Parts (delims cfg) s ps) (hu : Utf8 s) : ∀ p ∈ ps, Utf8 p := by
  have hsep : ∀ {c}, Separator (delims cfg) c → c ≤ 0x7F := by
    intro c hc
    rcases hc with hc | hc
    · exact ha c (.inr (.inr (.inr hc)))
    · exact ha c (.inr (.inr (.inl hc)))
  induction h with
  | nil => simp
  | sep hc _ ih => exact ih (tail (hsep hc) hu)
  | last _ => simpa using hu
  | cons _ _ hc _ ih =>
    obtain ⟨h1, h2⟩ := around (hsep hc) hu
    intro p hp
    simp at hp
    rcases hp with rfl | hp
    · exact h1
    · exact ih h2 p hp

theorem unquote {p v : Bytes} (h : Unquote (delims cfg) p v) (hu : Utf8 p) : Utf8 v := by
  cases h with
  | quoted hq hq' =>
    exact (around (b := []) (ha _ (.inr (.inl hq'))) (tail (ha _ (.inr (.inl hq))) hu)).1
  | plainHead _ => exact hu
  | plainLast _ => exact hu

theorem subValues {s : Bytes} {vs : List Bytes} (h : SubValues (delims cfg) s vs) (hu : Utf8 s) : ∀ v ∈ vs, Utf8 v := by
  obtain ⟨ps, h1, h2⟩ := h
  have h3 := parts ha h1 hu
  clear h1
  induction h2 with
  | nil => simp
  | cons h _ ih =>
    intro v hv
    simp at hv
    rcases hv with rfl | hv
    · exact unquote ha h (h3 _ (by simp))
    · exact ih (fun p hp => h3 p (by simp [hp])) v hv

theorem tokValue {t : Tok} {v : GValue Bytes} (h : TokValue (delims cfg) t v) (hu : ∀ w, TokText t w → Utf8 w) :
    Utf8Value v := by
  cases h with
  | word => intro x hx; simp at hx; subst hx; exact hu _ .word
  | compound h => exact subValues ha h (hu _ .compound)

theorem items {ts : List Tok} {ps : List (GValue Bytes)} {ns : List (GNamed Bytes)} (h : Items (delims cfg) ts ps ns)
    (hu : ∀ t ∈ ts, ∀ w, TokText t w → Utf8 w) : (∀ v ∈ ps, Utf8Value v) ∧ ∀ a ∈ ns, Utf8Named a := by
  induction h with
  | nil => simp
  | positional hv _ ih =>
    obtain ⟨h1, h2⟩ := ih (fun t ht => hu t (by simp [ht]))
    refine ⟨?_, h2⟩
    intro v hv'
    simp at hv'
    rcases hv' with rfl | hv'
    · exact tokValue ha hv (hu _ (by simp))
    · exact h1 v hv'
  | named hk hv _ ih =>
    obtain ⟨h1, h2⟩ := ih (fun t ht => hu t (by simp [ht]))
    refine ⟨h1, ?_⟩
    intro a ha'
    simp at ha'
    rcases ha' with rfl | ha'
    · exact ⟨hu _ (by simp) _ hk, tokValue ha hv (hu _ (by simp))⟩
    · exact h2 a ha'

theorem accepts {s : Bytes} {i : GInput Bytes} (h : Accepts (delims cfg) s i) (hu : Utf8 s) : Utf8Input i := by
  obtain ⟨ts, h1, h2⟩ := h
  have h3 := tokens ha h1 hu
  cases h2 with
  | empty => exact ⟨.nil, by simp, by simp⟩
  | cmd hi =>
    obtain ⟨g1, g2⟩ := items ha hi (fun t ht => h3 t (by simp [ht]))
    exact ⟨h3 _ (by simp) _ .word, g1, g2⟩

omit ha in
theorem badItems {ts : List Tok} {e : Bytes} (h : BadItems ts e) : Utf8 e := by
  induction h with
  | noName => exact ascii (by decide +kernel)
  | twoAssign _ => exact ascii (by decide +kernel)
  | noValue _ => exact ascii (by decide +kernel)
  | positional _ _ _ ih => exact ih
  | named _ _ _ ih => exact ih

theorem rejects {s : Bytes} {e : Bytes} (h : Rejects (delims cfg) s e) (hu : Utf8 s) : Utf8 e := by
  rcases h with ⟨ts, h1, h2⟩ | ⟨q, ⟨_, _, _, _, _, hq, _⟩, rfl⟩ | ⟨q, ⟨_, _, _, _, _, hq, _⟩, rfl⟩
  · have h3 := tokens ha h1 hu
    cases h2 with
    | assignFirst => exact ascii (by decide +kernel)
    | compoundFirst =>
      exact append (append (ascii (by decide +kernel)) (cstr_utf8 (h3 _ (by simp) _ .compound))) (ascii (by decide +kernel))
    | items h => exact badItems h
  · exact append (append (ascii (by decide +kernel)) (.one (ha _ (.inr (.inl hq))) .nil)) (ascii (by decide +kernel))
  · exact append (append (ascii (by decide +kernel)) (.one (ha _ (.inl hq)) .nil)) (ascii (by decide +kernel))

end Lexer

/-! ## Serializers -/

theorem valueStrLoop_utf8 (l : List Bytes) : ∀ pfx r, (∀ t ∈ l, Utf8 t) → Utf8 pfx → Utf8 r → Utf8 (valueStrLoop l pfx r) := by
  induction l with
  | nil => intro _ _ _ _ h; exact h
  | cons s l ih =>
    intro pfx r h hp hr
    exact ih _ _ (fun t ht => h t (by simp [ht])) (ascii (by decide +kernel)) (append (append hr hp) (h s (by simp)))

theorem str_utf8 {v : Value} (h : Utf8Value v) : Utf8 v.str := valueStrLoop_utf8 _ _ _ h .nil .nil

theorem generic_utf8 {n d : Bytes} {v : Value} (hn : Utf8 n) (hv : Utf8Value v) (hd : Utf8 d) : Utf8 (genericError n v d) := by
  have hh : Utf8 (lit "Unable to convert '" ++ cstr v.str ++ lit "' to type '" ++ cstr n) :=
    append (append (append (ascii (by decide +kernel)) (cstr_utf8 (str_utf8 hv))) (ascii (by decide +kernel))) (cstr_utf8 hn)
  unfold genericError
  split
  · exact append hh (ascii (by decide +kernel))
  · exact append (append hh (ascii (by decide +kernel))) (cstr_utf8 hd)

theorem mismatch_utf8 {n : Bytes} {v : Value} (hn : Utf8 n) (hv : Utf8Value v) (k : Nat) : Utf8 (mismatchError n v k) :=
  generic_utf8 hn hv
    (append (append (append (ascii (by decide +kernel)) (natDec_utf8 _)) (ascii (by decide +kernel))) (natDec_utf8 _))

theorem arith_utf8 {α : Type} {n : Bytes} {parse : Bytes → Option α} {print : α → Bytes} (hn : Utf8 n)
    (hp : ∀ x, Utf8 (print x)) : Utf8Conv (arithConv n parse print) (fun _ => True) := by
  refine ⟨hn, fun _ _ _ _ => trivial, ?_, fun x _ => hp x⟩
  intro v hv e he
  simp only [arithConv] at he
  split at he
  · split at he
    · simp at he
    · simp at he; subst he; exact generic_utf8 hn hv .nil
  · simp at he; subst he; exact mismatch_utf8 hn hv 1

theorem int_utf8 (pl : Platform) (t : IntType) : Utf8Conv (intConv pl t) (fun _ => True) := by
  refine arith_utf8 (ascii ?_) ?_
  · unfold IntType.name
    cases pl.intAlias <;> cases pl.int64IsLong <;> cases t <;> decide +kernel
  · intro x
    unfold IntType.toString
    split <;> first | exact natDec_utf8 _ | exact intDec_utf8 _

theorem bool_utf8 (pl : Platform) : Utf8Conv (boolConv pl) (fun _ => True) := by
  have hn : Utf8 (lit "bool") := ascii (by decide +kernel)
  refine ⟨hn, fun _ _ _ _ => trivial, ?_, ?_⟩
  · intro v hv e he
    simp only [boolConv] at he
    split at he
    · split at he
      · simp at he
      · split at he
        · simp at he
        · obtain ⟨b, hb, he⟩ := Res.bind_eq_ok.1 he
          split at he
          · simp at he
          · obtain ⟨b', hb', he⟩ := Res.bind_eq_ok.1 he
            split at he
            · simp at he
            · simp at he; subst he; exact generic_utf8 hn hv .nil
    · simp at he; subst he; exact mismatch_utf8 hn hv 1
  · intro x _
    cases x
    · exact ascii (t := lit "false") (by decide +kernel)
    · exact ascii (t := lit "true") (by decide +kernel)

theorem string_utf8 : Utf8Conv stringConv Utf8 := by
  have hn : Utf8 (lit "string") := ascii (by decide +kernel)
  refine ⟨hn, ?_, ?_, fun _ h => h⟩
  · intro v hv x hx
    simp only [stringConv] at hx
    split at hx
    · rename_i s hs
      simp at hx; subst hx; exact hv _ (by simp [hs])
    · simp at hx
  · intro v hv e he
    simp only [stringConv] at he
    split at he
    · simp at he
    · simp at he; subst he; exact mismatch_utf8 hn hv 1

theorem value_utf8 : Utf8Conv valueConv Utf8Value := by
  refine ⟨ascii (by decide +kernel), ?_, ?_, fun _ h => str_utf8 h⟩
  · intro v hv x hx; simp [valueConv] at hx; subst hx; exact hv
  · intro v _ e he; simp [valueConv] at he

theorem onTemporary_utf8 {α : Type} {c : Conv α} {G : α → Prop} (h : Utf8Conv c G) {s : Bytes} (hs : Utf8 s) :
    (∀ x, c.onTemporary s = .ok (.ok x) → G x) ∧ ∀ e, c.onTemporary s = .ok (.error e) → Utf8 e := by
  have hv : Utf8Value ⟨[s]⟩ := by intro t ht; simp at ht; subst ht; exact hs
  constructor
  · intro x hx
    obtain ⟨r, hr, hx⟩ := Res.bind_eq_ok.1 hx
    cases r with
    | error e => simp at hx
    | ok y =>
      simp only at hx
      split at hx
      · simp at hx
      · simp at hx; subst hx; exact h.reads _ hv _ hr
  · intro x hx
    obtain ⟨r, hr, hx⟩ := Res.bind_eq_ok.1 hx
    cases r with
    | error e => simp at hx; subst hx; exact h.fails _ hv _ hr
    | ok y =>
      simp only at hx
      split at hx <;> simp at hx

theorem vecLoop_utf8 {α : Type} {c : Conv α} {G : α → Prop} (h : Utf8Conv c G) {n : Bytes} {v : Value} (hn : Utf8 n)
    (hv : Utf8Value v) (l : List Bytes) : ∀ (acc : List α), (∀ t ∈ l, Utf8 t) → (∀ x ∈ acc, G x) → ∀ r,
    vecLoop c n v l acc = .ok r →
      (match r with
        | .ok xs => ∀ x ∈ xs, G x
        | .error e => Utf8 e) := by
  induction l with
  | nil => intro acc _ ha r hr; simp [vecLoop] at hr; subst hr; exact ha
  | cons s l ih =>
    intro acc hl ha r hr
    unfold vecLoop at hr
    obtain ⟨o, ho, hr⟩ := Res.bind_eq_ok.1 hr
    obtain ⟨h1, h2⟩ := onTemporary_utf8 h (hl s (by simp))
    cases o with
    | error e => simp at hr; subst hr; exact generic_utf8 hn hv (h2 _ ho)
    | ok x =>
      refine ih _ (fun t ht => hl t (by simp [ht])) ?_ r hr
      intro y hy
      simp at hy
      rcases hy with hy | rfl
      · exact ha y hy
      · exact h1 _ ho

theorem vecPrintLoop_utf8 {α : Type} {c : Conv α} {G : α → Prop} (h : Utf8Conv c G) (l : List α) : ∀ sep r, (∀ x ∈ l, G x) →
    Utf8 sep → Utf8 r → Utf8 (vecPrintLoop c l sep r) := by
  induction l with
  | nil => intro _ _ _ _ h; exact h
  | cons x l ih =>
    intro sep r hl hs hr
    exact ih _ _ (fun y hy => hl y (by simp [hy])) (ascii (by decide +kernel)) (append (append hr hs) (h.prints x (hl x (by simp))))

theorem vec_utf8 {α : Type} {c : Conv α} {G : α → Prop} (h : Utf8Conv c G) :
    Utf8Conv (vecConv c) (fun l => ∀ x ∈ l, G x) := by
  have hn : Utf8 (lit "vector<" ++ c.name ++ lit ">") :=
    append (append (ascii (by decide +kernel)) h.name) (ascii (by decide +kernel))
  refine ⟨hn, ?_, ?_, ?_⟩
  · intro v hv x hx
    exact vecLoop_utf8 h hn hv _ [] hv (by simp) _ hx
  · intro v hv x hx
    exact vecLoop_utf8 h hn hv _ [] hv (by simp) _ hx
  · intro l hl
    exact append (vecPrintLoop_utf8 h l _ _ hl .nil (ascii (by decide +kernel))) (ascii (by decide +kernel))

theorem opt_utf8 {α : Type} {c : Conv α} {G : α → Prop} (h : Utf8Conv c G) :
    Utf8Conv (optConv c) (fun o => ∀ x, o = some x → G x) := by
  have hn : Utf8 (lit "optional<" ++ c.name ++ lit ">") :=
    append (append (ascii (by decide +kernel)) h.name) (ascii (by decide +kernel))
  refine ⟨hn, ?_, ?_, ?_⟩
  · intro v hv o ho x hx
    subst hx
    simp only [optConv] at ho
    split at ho
    · simp at ho
    · rename_i s l hs
      split at ho
      · simp at ho
      · obtain ⟨r, hr, ho⟩ := Res.bind_eq_ok.1 ho
        cases r with
        | error e => simp at ho
        | ok y =>
          simp at ho; subst ho
          exact (onTemporary_utf8 h (hv s (by simp [hs]))).1 _ hr
  · intro v hv e ho
    simp only [optConv] at ho
    split at ho
    · simp at ho
    · rename_i s l hs
      split at ho
      · simp at ho
      · obtain ⟨r, hr, ho⟩ := Res.bind_eq_ok.1 ho
        cases r with
        | ok y => simp at ho
        | error e' =>
          simp at ho; subst ho
          exact generic_utf8 hn hv ((onTemporary_utf8 h (hv s (by simp [hs]))).2 _ hr)
  · intro o ho
    cases o with
    | none => exact .nil
    | some x => exact h.prints x (ho x rfl)

theorem strip_ascii {ds : Bytes} (h : ∀ c ∈ ds, c ≤ 0x7F) : ∀ c ∈ Fl.strip ds, c ≤ 0x7F := by
  intro c hc
  simp only [Fl.strip, List.mem_reverse] at hc
  have := (List.dropWhile_sublist _).subset hc
  exact h c (by simpa using this)

theorem fraction_ascii {ds : Bytes} (h : ∀ c ∈ ds, c ≤ 0x7F) : ∀ c ∈ Fl.fraction ds, c ≤ 0x7F := by
  intro c hc
  unfold Fl.fraction at hc
  split at hc
  · simp at hc
  · simp only [List.mem_cons] at hc
    rcases hc with rfl | hc
    · decide
    · exact strip_ascii h c hc

theorem layoutG_ascii {ds : Bytes} (h : ∀ c ∈ ds, c ≤ 0x7F) (x : Int) : Utf8 (Fl.layoutG ds x) := by
  have ht : ∀ n, Utf8 (ds.take n) := fun n => ascii (fun c hc => h c (List.take_subset n ds hc))
  have hf : ∀ n, Utf8 (Fl.fraction (ds.drop n)) :=
    fun n => ascii (fraction_ascii (fun c hc => h c (List.drop_subset n ds hc)))
  unfold Fl.layoutG
  split
  · split
    · exact append (ht _) (hf _)
    · refine .one (by decide) (ascii (fraction_ascii ?_))
      intro c hc
      simp only [List.mem_append, List.mem_replicate] at hc
      rcases hc with ⟨_, rfl⟩ | hc
      · decide
      · exact h c hc
  · refine append (append (append (ht _) (hf _)) ?_) ?_
    · split <;> exact ascii (by decide)
    · split
      · exact .one (by decide) (natDec_utf8 _)
      · exact natDec_utf8 _

theorem printG_utf8 (x : Fl) : Utf8 (Fl.printG x) := by
  have hs : ∀ b, Utf8 (Fl.signText b) := by intro b; cases b <;> exact ascii (by decide)
  unfold Fl.printG
  split
  · split
    · exact append (hs _) (ascii (by decide))
    · exact append (hs _) (layoutG_ascii (natDecAux_ascii _ _) _)
  · exact append (hs _) (ascii (by decide +kernel))
  · exact append (hs _) (ascii (by decide +kernel))

theorem float_utf8 {n : Bytes} (hn : Utf8 n) (F : Fmt) (tiny : Nat → Nat → Bool) :
    Utf8Conv (floatConv n (Fl.lib F tiny)) (fun _ => True) := by
  refine arith_utf8 hn ?_
  intro x
  unfold floatToString
  split
  · exact ascii (by decide +kernel)
  · exact printG_utf8 x

end Utf
end Coil
