import Verif.Model.Format
import Verif.Proofs.Str

/-! # Helper lemmas about `sprintf` -/

namespace Coil
namespace Fmt
open Spec Str Vec Mem

theorem slength_of_lt {n : Nat} (h : n < 2 ^ 31) : slength n = n := by
  unfold slength
  rw [Nat.mod_eq_of_lt (by omega), if_pos h]

theorem slength_neg {n : Nat} (h : 2 ^ 31 ≤ n) (h' : n < 2 ^ 32) : slength n < 0 := by
  unfold slength
  rw [Nat.mod_eq_of_lt h', if_neg (by omega)]
  omega

theorem promote_byte (sg : Bool) (c : Byte) : UInt8.ofNat (promote sg c % 256).toNat = c := by
  have hc : c.toNat < 256 := c.toNat_lt
  have key : (promote sg c % 256).toNat = c.toNat := by
    unfold promote
    split <;> omega
  rw [key]
  simp

theorem cstr_append_nul (a b : Bytes) : cstr (a ++ 0 :: b) = cstr a := by
  unfold cstr
  induction a with
  | nil => simp
  | cons x xs ih =>
    by_cases hx : x = 0
    · simp [hx]
    · simp [hx] at ih ⊢
      exact ih

theorem strText_nul (a b : Bytes) : strText (a ++ 0 :: b) = .ok (cstr a) := by
  unfold strText
  rw [if_pos (by simp), cstr_append_nul]

theorem precText_view {t rest : Bytes} (h : t.length < 2 ^ 31) : precText (slength t.length) (t ++ rest) = .ok (cstr t) := by
  unfold precText
  rw [slength_of_lt h, if_neg (by omega), if_pos (.inr (by simp))]
  simp

/-- Writing a text and its NUL over a string of the same length. -/
theorem fill_spec {m : Mem UInt8} {buf : Buf} {l : Text} (h : SOwns m buf l) (hs : 0 < buf.size) {t : Bytes}
    (hl : l.length = t.length) :
    ∃ m', fill m buf (Str.length buf + 1) t = .ok m' ∧ SOwns m' buf (t.map some) ∧ Frame m buf m' buf := by
  have hlen := h.length
  rcases h with ⟨rfl, _⟩ | ⟨b, c, h1, h2, h3, h4, h5, h6, h7, h8, h9⟩
  · simp [Buf.null] at hs
  · have ht : t.take (Str.length buf + 1 - 1) = t := by
      rw [h5, hl]
      simp
    obtain ⟨m', p1, p2, p3⟩ := blit_spec (buf := buf) (off := 0) (xs := (t ++ [0]).map some) h1 h2 (by simp; omega)
    refine ⟨m', by rw [fill, ht]; exact p1, .inr ⟨b, _, h1, by rw [p2, if_pos rfl], ?_, h4, by simp [h5, hl], h6, by simp; omega, ?_, ?_⟩,
      Frame.of_same ⟨?_, p3⟩ rfl⟩
    · simp
      omega
    · intro i x hx
      have hi := (List.getElem?_eq_some_iff.1 hx).1
      rw [List.take_zero, List.nil_append, List.getElem?_append_left (by simp at hi ⊢; omega), List.map_append,
        List.getElem?_append_left hi]
      exact hx
    · intro _
      rw [List.take_zero, List.nil_append, List.getElem?_append_left (by simp), List.map_append,
        List.getElem?_append_right (by simp)]
      simp
    · intro b' hb'
      rw [p2, if_neg]
      rintro rfl
      exact hb' h1

theorem empty_spec (m : Mem UInt8) : ∃ m' buf', Does (ofSrc m (.ext [])) m Buf.null [] m' buf' ∧ buf'.size = 1 ∧ buf'.cap = 1 := by
  obtain ⟨m', buf', h1, h2, _, _⟩ := resize_spec (m := m) (buf := Buf.null) (l := []) (.inl ⟨rfl, rfl⟩) (n := 0) (by decide)
  have hcap : buf'.cap = 1 := by
    have e := h1.eq
    unfold Str.resize Str.reserve at e
    rw [if_pos (by decide)] at e
    rw [show (0 + 1) % 2 ^ 64 = 1 from rfl, new_spec m (by decide) (by decide)] at e
    simp only [Res.bind_eq_ok, Prod.exists] at e
    obtain ⟨a, b, ⟨_, _, _, _, _, _, _, _, e1⟩, m2, _, e2⟩ := e
    cases e1
    cases e2
    rfl
  refine ⟨m', buf', ⟨?_, by simpa using h1.owns, h1.frame, fun h => by simp [Buf.null] at h⟩, h2, hcap⟩
  simp only [ofSrc, Src.len, List.length_nil, h1.eq, Res.bind_ok, readSrc, List.map_nil, blit, if_pos]

/-- `vsprintf` for a text that `vsnprintf` can count. -/
theorem vsprintf_spec (m : Mem UInt8) {f : Bytes} {as : List FArg} {t : Bytes} (hf : format f as = .ok t) (hl : t.length < 2 ^ 31) :
    ∃ m' buf', vsprintf m f as = .ok (m', buf') ∧ SOwns m' buf' (t.map some) ∧ Frame m Buf.null m' buf' ∧
      buf'.size = t.length + 1 := by
  obtain ⟨m1, b1, h1, _, _⟩ := empty_spec m
  obtain ⟨m2, b2, h2, h3, _, _⟩ := resize_spec h1.owns (n := t.length) (by omega)
  obtain ⟨m3, h4, h5, h6⟩ := fill_spec h2.owns (by omega) (t := t) (by simp)
  refine ⟨m3, b2, ?_, h5, (h1.frame.trans h2.frame).trans h6, h3⟩
  simp only [vsprintf, hf, h1.eq, Res.bind_ok, countOf, if_pos hl, h2.eq, h4]

/-- `vsprintf` for a text that `vsnprintf` cannot count: the terminator is written outside the buffer. -/
theorem vsprintf_long (m : Mem UInt8) {f : Bytes} {as : List FArg} {t : Bytes} (hf : format f as = .ok t) (hl : 2 ^ 31 ≤ t.length) :
    vsprintf m f as = .ub .oobWrite := by
  obtain ⟨m1, b1, h1, h2, hcap⟩ := empty_spec m
  have e : Str.resize m1 b1 (2 ^ 64 - 1) = .ub .oobWrite := by
    rcases h1.owns with ⟨rfl, _⟩ | ⟨b, c, k1, k2, k3, k4, k5, k6, k7, k8, k9⟩
    · simp [Buf.null] at h2
    · have er : Str.reserve m1 b1 (2 ^ 64 - 1) = .ok (m1, b1) := by
        unfold Str.reserve
        rw [if_neg (by rw [show (2 ^ 64 - 1 + 1) % 2 ^ 64 = 0 by decide]; omega)]
      simp only [Str.resize, er, Res.bind_ok, poke, deref, k1, cells_ok k2]
      rw [if_neg (by omega)]
      rfl
  simp only [vsprintf, hf, h1.eq, Res.bind_ok, countOf, if_neg (show ¬ t.length < 2 ^ 31 by omega), e, Res.bind_ub]

theorem compile_plain {f : Bytes} (h : (37 : UInt8) ∉ f) : ∀ (fuel : Nat) (acc : Bytes), f.length < fuel →
    compile fuel f acc = some [.text (acc ++ f)] := by
  induction f with
  | nil =>
    intro fuel acc hf
    obtain ⟨k, rfl⟩ : ∃ k, fuel = k + 1 := ⟨fuel - 1, by simp at hf; omega⟩
    simp [compile]
  | cons b rest ih =>
    intro fuel acc hf
    obtain ⟨k, rfl⟩ : ∃ k, fuel = k + 1 := ⟨fuel - 1, by simp at hf; omega⟩
    have hb : b ≠ 37 := fun hb => h (by simp [hb])
    simp only [compile, if_neg hb]
    rw [ih (fun hm => h (by simp [hm])) k _ (by simpa using hf)]
    simp

end Fmt
end Coil
