import Verif.Spec.Str
import Verif.Proofs.VecProg

/-! # Single strings: ownership of a block and the effect of each operation -/

namespace Coil
namespace Str
open Spec Mem Vec

/-- The buffer owns a block that starts with `l` (and then a NUL, unless the buffer was never given a size). -/
def SOwns (m : Mem UInt8) (buf : Buf) (l : Text) : Prop :=
  (buf = Buf.null ∧ l = []) ∨
  ∃ b c, buf.ptr = some b ∧ m.heap[b]? = some (some c) ∧ c.length = buf.cap ∧ buf.cap < 2 ^ 64 ∧ Str.length buf = l.length ∧
    buf.size ≤ buf.cap ∧ l.length < buf.cap ∧ Agrees c l ∧ (0 < buf.size → c[l.length]? = some (some 0))

theorem SOwns.frame {m m' : Mem UInt8} {buf : Buf} {l : Text} (h : SOwns m buf l)
    (hf : ∀ b, buf.ptr = some b → m'.heap[b]? = m.heap[b]?) : SOwns m' buf l := by
  rcases h with ⟨h1, h2⟩ | ⟨b, c, h1, h2, h3⟩
  · exact .inl ⟨h1, h2⟩
  · exact .inr ⟨b, c, h1, by rw [hf b h1]; exact h2, h3⟩

theorem SOwns.lt {m : Mem UInt8} {buf : Buf} {l : Text} (h : SOwns m buf l) {b : Nat} (hb : buf.ptr = some b) :
    b < m.heap.length := by
  rcases h with ⟨rfl, _⟩ | ⟨b', c, h1, h2, _⟩
  · simp [Buf.null] at hb
  · rw [h1] at hb
    cases hb
    exact (List.getElem?_eq_some_iff.1 h2).1

theorem SOwns.length {m : Mem UInt8} {buf : Buf} {l : Text} (h : SOwns m buf l) : Str.length buf = l.length := by
  rcases h with ⟨rfl, rfl⟩ | ⟨b, c, h1, h2, h3, h4, h5, _⟩
  · rfl
  · exact h5

theorem SOwns.cap {m : Mem UInt8} {buf : Buf} {l : Text} (h : SOwns m buf l) :
    buf.cap < 2 ^ 64 ∧ l.length ≤ buf.cap ∧ buf.size ≤ buf.cap := by
  rcases h with ⟨rfl, rfl⟩ | ⟨b, c, h1, h2, h3, h4, h5, h6, h7, _⟩
  · simp [Buf.null]
  · exact ⟨h4, by omega, h6⟩

theorem SOwns.cap' {m : Mem UInt8} {buf : Buf} {l : Text} (h : SOwns m buf l) : l.length + 1 < 2 ^ 64 ∨ l.length + 1 = 2 ^ 64 := by
  have := h.cap
  omega

theorem Agrees.refl (l : Text) : Agrees l l := fun _ _ h => h

/-- Reading part of the text of a string. -/
theorem read_view {m : Mem UInt8} {buf : Buf} {l : Text} (h : SOwns m buf l) {off len : Nat} (hl : off + len ≤ l.length) :
    ∃ xs, readSrc m (view buf off len) = .ok xs ∧ xs.length = len ∧ Agrees xs ((l.drop off).take len) := by
  rcases h with ⟨rfl, rfl⟩ | ⟨b, c, h1, h2, h3, h4, h5, h6, h7, h8, _⟩
  · simp at hl
    refine ⟨[], rfl, by simp [hl.2], ?_⟩
    intro i x hx
    simp at hx
  · unfold view
    rw [h1]
    by_cases h0 : len = 0
    · subst h0
      exact ⟨[], by simp [readSrc], rfl, fun i x hx => by simp at hx⟩
    · refine ⟨(c.drop off).take len, ?_, by simp; omega, ?_⟩
      · simp only [readSrc, if_neg h0, cells_ok h2, Res.bind_ok]
        rw [if_pos (by omega)]
      · intro i x hx
        simp only [List.getElem?_take, List.getElem?_drop] at hx ⊢
        split at hx
        · rename_i hi
          rw [if_pos hi]
          exact h8 _ _ hx
        · simp at hx

theorem view_len {buf : Buf} {off len : Nat} (h : buf.ptr ≠ none ∨ len = 0) : (view buf off len).len = len := by
  unfold view
  cases hp : buf.ptr with
  | some b => rfl
  | none =>
    rcases h with h | h
    · exact absurd hp h
    · simp [Src.len, h]

theorem SOwns.view_len {m : Mem UInt8} {buf : Buf} {l : Text} (h : SOwns m buf l) {off len : Nat} (hl : off + len ≤ l.length) :
    (view buf off len).len = len := by
  apply Str.view_len
  rcases h with ⟨rfl, rfl⟩ | ⟨b, c, h1, _⟩
  · simp at hl
    exact .inr hl.2
  · exact .inl (by simp [h1])

theorem blit_spec {m : Mem UInt8} {buf : Buf} {b off : Nat} {c xs : List (Option UInt8)} (hp : buf.ptr = some b)
    (hc : m.heap[b]? = some (some c)) (hl : off + xs.length ≤ c.length) :
    ∃ m', blit m buf off xs = .ok m' ∧
      (∀ j, m'.heap[j]? = if j = b then some (some (c.take off ++ xs ++ c.drop (off + xs.length))) else m.heap[j]?) ∧
      m'.heap.length = m.heap.length := by
  unfold blit
  by_cases h0 : xs.length = 0
  · rw [if_pos h0]
    refine ⟨m, rfl, ?_, rfl⟩
    have : xs = [] := by simpa using h0
    subst this
    intro j
    split
    · rename_i hj
      subst hj
      simp [hc]
    · rfl
  · rw [if_neg h0]
    refine ⟨m.setCells b (c.take off ++ xs ++ c.drop (off + xs.length)), ?_, ?_, by simp [setCells]⟩
    · simp only [deref, hp, Res.bind_ok, cells_ok hc, if_pos hl]
    · intro j
      simp only [setCells]
      rw [heap_set hc]

theorem poke_spec {m : Mem UInt8} {buf : Buf} {b i : Nat} {c : List (Option UInt8)} (hp : buf.ptr = some b)
    (hc : m.heap[b]? = some (some c)) (hl : i < c.length) (x : UInt8) :
    ∃ m', poke m buf i x = .ok m' ∧ (∀ j, m'.heap[j]? = if j = b then some (some (c.set i (some x))) else m.heap[j]?) ∧
      m'.heap.length = m.heap.length := by
  refine ⟨m.setCells b (c.set i (some x)), ?_, ?_, by simp [setCells]⟩
  · simp only [poke, deref, hp, Res.bind_ok, cells_ok hc, if_pos hl]
  · intro j
    simp only [setCells]
    rw [heap_set hc]

/-- Releasing the block of a string. -/
theorem free_spec {m : Mem UInt8} {buf : Buf} (h : ∀ b, buf.ptr = some b → ∃ c, m.heap[b]? = some (some c)) :
    ∃ m', freeBuf m buf = .ok m' ∧ (∀ j, buf.ptr ≠ some j → m'.heap[j]? = m.heap[j]?) ∧
      (∀ j, buf.ptr = some j → m'.heap[j]? = some none) ∧ m'.heap.length = m.heap.length := by
  unfold freeBuf
  cases hp : buf.ptr with
  | none => exact ⟨m, rfl, fun _ _ => rfl, by simp, rfl⟩
  | some b =>
    obtain ⟨c, hc⟩ := h b hp
    refine ⟨{ m with heap := m.heap.set b none }, by simp only [cells_ok hc, Res.bind_ok], ?_, ?_, by simp⟩
    · intro j hj
      simp only
      rw [heap_set hc, if_neg]
      rintro rfl
      exact hj rfl
    · intro j hj
      cases hj
      simp only
      rw [heap_set hc, if_pos rfl]

theorem SOwns.block {m : Mem UInt8} {buf : Buf} {l : Text} (h : SOwns m buf l) :
    ∀ b, buf.ptr = some b → ∃ c, m.heap[b]? = some (some c) := by
  intro b hb
  rcases h with ⟨rfl, _⟩ | ⟨b', c, h1, h2, _⟩
  · simp [Buf.null] at hb
  · rw [h1] at hb
    cases hb
    exact ⟨c, h2⟩

/-- The outcome of an operation on one string. -/
structure Does (r : Res (Mem UInt8 × Buf)) (m : Mem UInt8) (buf : Buf) (l' : Text) (m' : Mem UInt8) (buf' : Buf) : Prop where
  eq : r = .ok (m', buf')
  owns : SOwns m' buf' l'
  frame : Frame m buf m' buf'
  pos : 0 < buf.size → 0 < buf'.size

/-- A fresh block of `n` bytes. -/
theorem new_spec (m : Mem UInt8) {n : Nat} (h0 : 0 < n) (hn : n < 2 ^ 64) :
    newBuf 1 m n = ({ m with heap := m.heap ++ [some (List.replicate n none)] }, ⟨some m.heap.length, n, 0⟩) := by
  unfold newBuf
  have h1 : n * 1 % 2 ^ 64 = n := by rw [Nat.mul_one, Nat.mod_eq_of_lt hn]
  rw [h1, if_pos h0, Nat.div_one]

/-- A new block is filled, the old one released: what `reserve`, the copy constructor and copy assignment share. -/
theorem heap_new {m m2 : Mem UInt8} {n : Nat} {c : List (Option UInt8)}
    (hg : ∀ j, m2.heap[j]? = if j = m.heap.length then some (some c) else (m.heap ++ [some (List.replicate n none)])[j]?) :
    (∀ j, j < m.heap.length → m2.heap[j]? = m.heap[j]?) ∧ m2.heap[m.heap.length]? = some (some c) ∧
    (∀ j, m.heap.length < j → m2.heap[j]? = none) := by
  refine ⟨?_, by rw [hg, if_pos rfl], ?_⟩
  · intro j hj
    rw [hg, if_neg (by omega), List.getElem?_append_left hj]
  · intro j hj
    rw [hg, if_neg (by omega)]
    simp
    omega

theorem reserve_spec {m : Mem UInt8} {buf : Buf} {l : Text} (h : SOwns m buf l) {n : Nat} (hn : n + 1 < 2 ^ 64) :
    ∃ m' buf', Does (reserve m buf n) m buf l m' buf' ∧ n < buf'.cap ∧ (n < buf.cap → m' = m ∧ buf' = buf) ∧
      (buf.cap ≤ n → ∀ b, buf.ptr = some b → buf'.ptr ≠ some b) := by
  unfold reserve
  rw [Nat.mod_eq_of_lt hn]
  by_cases hc : n + 1 > buf.cap
  · rw [if_pos hc, new_spec m (by omega) hn]
    simp only
    have hcap := h.cap
    have hlen := h.length
    have hln : l.length < n + 1 := by
      rcases h with ⟨rfl, rfl⟩ | ⟨b, c, h1, h2, h3, h4, h5, h6, h7, _⟩
      · simp
      · omega
    have ho1 : SOwns { m with heap := m.heap ++ [some (List.replicate (n + 1) none)] } buf l := by
      apply h.frame
      intro b hb
      simp only
      rw [List.getElem?_append_left (h.lt hb)]
    obtain ⟨xs, x1, x2, x3⟩ := read_view ho1 (off := 0) (len := Str.length buf) (by omega)
    rw [List.drop_zero, hlen, List.take_length] at x3
    obtain ⟨m2, b1, b2, b3⟩ := blit_spec (m := { m with heap := m.heap ++ [some (List.replicate (n + 1) none)] })
      (buf := ⟨some m.heap.length, n + 1, 0⟩) (b := m.heap.length) (off := 0) (xs := xs)
      (c := List.replicate (n + 1) none) rfl (by simp) (by simp; omega)
    simp only [List.take_zero, List.nil_append] at b2
    obtain ⟨m3, p1, p2, p3⟩ := poke_spec (m := m2) (buf := ⟨some m.heap.length, n + 1, 0⟩) (b := m.heap.length)
      (i := Str.length buf) rfl (by rw [b2, if_pos rfl]) (by simp; omega) 0
    have hg : ∀ j, m3.heap[j]? = if j = m.heap.length then
        some (some ((xs ++ (List.replicate (n + 1) none).drop (0 + xs.length)).set (Str.length buf) (some 0)))
        else (m.heap ++ [some (List.replicate (n + 1) none)])[j]? := by
      intro j
      rw [p2]
      split
      · rfl
      · rename_i hj
        rw [b2, if_neg hj]
    obtain ⟨g1, g2, g3⟩ := heap_new hg
    have hblock : ∀ b, buf.ptr = some b → ∃ c, m3.heap[b]? = some (some c) := by
      intro b hb
      obtain ⟨c, hc⟩ := h.block b hb
      exact ⟨c, by rw [g1 b (h.lt hb)]; exact hc⟩
    obtain ⟨m4, f1, f2, f3, f4⟩ := free_spec hblock
    have hlt : ∀ b, buf.ptr = some b → b ≠ m.heap.length := by
      intro b hb
      have := h.lt hb
      omega
    have hl4 : m4.heap.length = m.heap.length + 1 := by
      rw [f4, p3, b3]
      simp
    refine ⟨m4, ⟨some m.heap.length, n + 1, buf.size⟩, ⟨?_, ?_, ?_, fun hs => hs⟩, by simp, fun hx => by omega,
      fun _ b hb hx => hlt b hb (by simpa using hx.symm)⟩
    · simp only [x1, b1, p1, f1, Res.bind_ok]
    · refine .inr ⟨m.heap.length, (xs ++ (List.replicate (n + 1) none).drop (0 + xs.length)).set (Str.length buf) (some 0), rfl, ?_, ?_, hn, hlen, by simp only; omega, by simp only; omega, ?_, ?_⟩
      · rw [f2 _ (fun hx => hlt _ hx rfl), g2]
      · simp
        omega
      · intro i x hx
        have hi := (List.getElem?_eq_some_iff.1 hx).1
        rw [List.getElem?_set_ne (by omega), List.getElem?_append_left (by omega)]
        exact x3 i x hx
      · intro _
        rw [hlen, List.getElem?_set_self (by simp; omega)]
    · refine ⟨?_, by omega, ?_, ?_⟩
      · intro b hb hne
        rw [f2 b hne, g1 b hb]
      · intro b c hc
        by_cases hb : b = m.heap.length
        · exact .inl (by rw [hb])
        · right
          have hblt : b < m.heap.length := by
            have := (List.getElem?_eq_some_iff.1 hc).1
            omega
          refine ⟨hblt, fun hx => ?_⟩
          rw [f3 b hx] at hc
          simp at hc
      · intro b hb
        right
        simp at hb
        omega
  · rw [if_neg hc]
    exact ⟨m, buf, ⟨rfl, h, Frame.refl m buf, fun hs => hs⟩, by omega, fun _ => ⟨rfl, rfl⟩, fun hx => by omega⟩

/-- The sizes given to a text. -/
theorem resize_spec {m : Mem UInt8} {buf : Buf} {l : Text} (h : SOwns m buf l) {n : Nat} (hn : n + 1 < 2 ^ 64) :
    ∃ m' buf', Does (resize m buf n) m buf (l.take n ++ List.replicate (n - l.length) none) m' buf' ∧ buf'.size = n + 1 ∧
      (n < buf.cap → buf'.ptr = buf.ptr) ∧ (buf.cap ≤ n → ∀ b, buf.ptr = some b → buf'.ptr ≠ some b) := by
  obtain ⟨m1, buf1, h1, h2, h3, h3'⟩ := reserve_spec h hn
  have hr := h1.owns
  rcases hr with ⟨rfl, rfl⟩ | ⟨b, c, k1, k2, k3, k4, k5, k6, k7, k8, k9⟩
  · simp [Buf.null] at h2
  · obtain ⟨m2, p1, p2, p3⟩ := poke_spec (buf := { buf1 with size := n + 1 }) (i := n) k1 k2 (by omega) 0
    refine ⟨m2, { buf1 with size := n + 1 }, ⟨?_, ?_, ?_, fun _ => by simp⟩, rfl, ?_, h3'⟩
    · simp only [resize, h1.eq, Res.bind_ok, Nat.mod_eq_of_lt hn, p1]
    · have hlen : (l.take n ++ List.replicate (n - l.length) (none : Option UInt8)).length = n := by simp; omega
      refine .inr ⟨b, c.set n (some 0), k1, by rw [p2, if_pos rfl], by simp [k3], k4, ?_, by simp only; omega, by simp only; omega, ?_, ?_⟩
      · rw [hlen]
        simp [Str.length]
      · intro i x hx
        have hi := (List.getElem?_eq_some_iff.1 hx).1
        rw [hlen] at hi
        rw [List.getElem?_set_ne (by omega)]
        apply k8
        by_cases hil : i < l.length
        · rw [List.getElem?_append_left (by simp; omega), List.getElem?_take, if_pos hi] at hx
          exact hx
        · rw [List.getElem?_append_right (by simp; omega)] at hx
          rw [List.getElem?_replicate] at hx
          split at hx <;> simp at hx
      · intro _
        rw [hlen, List.getElem?_set_self (by omega)]
    · refine h1.frame.trans (Frame.of_same ⟨?_, p3⟩ rfl)
      intro b' hb'
      rw [p2, if_neg]
      rintro rfl
      exact hb' k1
    · intro hc
      obtain ⟨-, e2⟩ := h3 hc
      rw [e2]

/-- Appending, given that the source can be read after the string was made longer. -/
theorem append_spec {m : Mem UInt8} {buf : Buf} {l p : Text} (h : SOwns m buf l) {src : Src} (hp : p.length = src.len)
    (hn : l.length + src.len + 1 < 2 ^ 64)
    (hr : ∀ m1 buf1, Does (resize m buf (l.length + src.len)) m buf
        (l.take (l.length + src.len) ++ List.replicate (l.length + src.len - l.length) none) m1 buf1 →
      (l.length + src.len < buf.cap → buf1.ptr = buf.ptr) →
      ∃ xs, readSrc m1 src = .ok xs ∧ xs.length = src.len ∧ Agrees xs p) :
    ∃ m' buf', Does (append m buf src) m buf (l ++ p) m' buf' ∧ 0 < buf'.size := by
  obtain ⟨m1, buf1, h1, h2, h3, -⟩ := resize_spec h (n := l.length + src.len) hn
  obtain ⟨xs, x1, x2, x3⟩ := hr m1 buf1 h1 h3
  have ho := h1.owns
  rcases ho with ⟨rfl, _⟩ | ⟨b, c, k1, k2, k3, k4, k5, k6, k7, k8, k9⟩
  · simp [Buf.null] at h2
  · have hlen : (l.take (l.length + src.len) ++ List.replicate (l.length + src.len - l.length) (none : Option UInt8)).length = l.length + src.len := by
      simp
    rw [hlen] at k5 k7 k9
    obtain ⟨m2, b1, b2, b3⟩ := blit_spec (buf := buf1) (off := l.length) (xs := xs) k1 k2 (by omega)
    refine ⟨m2, buf1, ⟨?_, ?_, ?_, h1.pos⟩, by omega⟩
    · have e : (l.length + src.len) % 2 ^ 64 = l.length + src.len := Nat.mod_eq_of_lt (by omega)
      simp only [append, h.length, e, h1.eq, x1, b1, Res.bind_ok]
    · refine .inr ⟨b, c.take l.length ++ xs ++ c.drop (l.length + xs.length), k1, by rw [b2, if_pos rfl], by simp; omega, k4, by rw [k5]; simp; omega,
        k6, by simp; omega, ?_, ?_⟩
      · intro i x hx
        have hi := (List.getElem?_eq_some_iff.1 hx).1
        rw [List.append_assoc]
        by_cases hil : i < l.length
        · rw [List.getElem?_append_left hil] at hx
          rw [List.getElem?_append_left (by simp; omega), List.getElem?_take, if_pos hil]
          apply k8
          rw [List.getElem?_append_left (by simp; omega), List.getElem?_take, if_pos (by omega)]
          exact hx
        · rw [List.getElem?_append_right (by omega)] at hx
          rw [List.getElem?_append_right (by simp; omega)]
          have hx' := (List.getElem?_eq_some_iff.1 hx).1
          have e : i - (c.take l.length).length = i - l.length := by simp; omega
          rw [e, List.getElem?_append_left (by omega)]
          exact x3 _ _ hx
      · intro hs
        have := k9 hs
        have e1 : (l ++ p).length = l.length + src.len := by simp [hp]
        rw [e1, List.getElem?_append_right (by simp; omega)]
        have e2 : l.length + src.len - (c.take l.length ++ xs).length = 0 := by simp; omega
        rw [e2, List.getElem?_drop, x2]
        exact this
    · refine h1.frame.trans (Frame.of_same ⟨?_, b3⟩ rfl)
      intro b' hb'
      rw [b2, if_neg]
      rintro rfl
      exact hb' k1

theorem append_ext {m : Mem UInt8} {buf : Buf} {l : Text} (h : SOwns m buf l) {xs : Bytes} (hn : l.length + xs.length + 1 < 2 ^ 64) :
    ∃ m' buf', Does (append m buf (.ext xs)) m buf (l ++ xs.map some) m' buf' ∧ 0 < buf'.size := by
  refine append_spec h (by simp [Src.len]) hn ?_
  intro m1 buf1 _ _
  exact ⟨xs.map some, rfl, by simp [Src.len], Agrees.refl _⟩

/-- Appending part of another string. -/
theorem append_other {m : Mem UInt8} {buf sb : Buf} {l k p : Text} (h : SOwns m buf l) (hs : SOwns m sb k)
    (hne : ∀ b, sb.ptr = some b → buf.ptr ≠ some b) {off len : Nat} (hp : part k off len = some p)
    (hn : l.length + len + 1 < 2 ^ 64) :
    ∃ m' buf', Does (append m buf (view sb off len)) m buf (l ++ p) m' buf' ∧ 0 < buf'.size := by
  unfold part at hp
  split at hp
  · rename_i hk
    simp at hp
    subst hp
    have hv := hs.view_len (off := off) hk
    refine append_spec h (by rw [hv]; simp; omega) (by rw [hv]; exact hn) ?_
    intro m1 buf1 hd _
    have hs1 : SOwns m1 sb k := hs.frame (fun b hb => hd.frame.other b (hs.lt hb) (hne b hb))
    obtain ⟨xs, x1, x2, x3⟩ := read_view hs1 (off := off) (len := len) hk
    exact ⟨xs, x1, by rw [hv]; exact x2, x3⟩
  · simp at hp

/-- Appending part of the string itself when no reallocation is needed. -/
theorem append_self {m : Mem UInt8} {buf : Buf} {l p : Text} (h : SOwns m buf l) {off len : Nat} (hp : part l off len = some p)
    (hn : l.length + len + 1 < 2 ^ 64) (hc : l.length + len < buf.cap) :
    ∃ m' buf', Does (append m buf (view buf off len)) m buf (l ++ p) m' buf' ∧ 0 < buf'.size := by
  unfold part at hp
  split at hp
  · rename_i hk
    simp at hp
    subst hp
    have hv := h.view_len (off := off) hk
    refine append_spec h (by rw [hv]; simp; omega) (by rw [hv]; exact hn) ?_
    rw [hv]
    intro m1 buf1 hd hpp
    have he : view buf off len = view buf1 off len := by
      unfold view
      rw [hpp hc]
    rw [he]
    obtain ⟨xs, x1, x2, x3⟩ := read_view hd.owns (off := off) (len := len) (by simp; omega)
    refine ⟨xs, x1, x2, ?_⟩
    have : ((l.take (l.length + len) ++ List.replicate (l.length + len - l.length) none).drop off).take len = (l.drop off).take len := by
      rw [List.take_of_length_le (i := l.length + len) (by omega), List.drop_append_of_le_length (by omega), List.take_append_of_le_length (by simp; omega)]
    rw [this] at x3
    exact x3
  · simp at hp

/-- Appending part of the string itself when a reallocation is needed: the source is read from the released block. -/
theorem append_self_ub {m : Mem UInt8} {buf : Buf} {l : Text} (h : SOwns m buf l) {off len : Nat} (hl : off + len ≤ l.length)
    (h0 : 0 < len) (hn : l.length + len + 1 < 2 ^ 64) (hc : buf.cap ≤ l.length + len) :
    append m buf (view buf off len) = .ub .useAfterFree := by
  obtain ⟨m1, buf1, h1, h2, -, h3⟩ := resize_spec h (n := l.length + len) hn
  have hv := h.view_len (off := off) hl
  have e : (l.length + len) % 2 ^ 64 = l.length + len := Nat.mod_eq_of_lt (by omega)
  have hb : ∃ b, buf.ptr = some b := by
    rcases h with ⟨rfl, rfl⟩ | ⟨b, c, g1, _⟩
    · simp at hl
      omega
    · exact ⟨b, g1⟩
  obtain ⟨b, hb⟩ := hb
  have hdead : m1.cells b = .ub .useAfterFree := by
    unfold Mem.cells
    split
    · rename_i c hcell
      rcases h1.frame.live b c hcell with hx | ⟨_, hx⟩
      · exact absurd hx (h3 hc b hb)
      · exact absurd hb hx
    · rfl
  have hread : readSrc m1 (view buf off len) = .ub .useAfterFree := by
    unfold view
    rw [hb]
    simp only [readSrc, if_neg (by omega : ¬ len = 0), hdead]
    rfl
  simp only [append, h.length, hv, e, h1.eq, Res.bind_ok, hread]
  rfl

/-- The constructors are an append to an empty string. -/
theorem ofSrc_append (m : Mem UInt8) (src : Src) (hl : src.len < 2 ^ 64) : ofSrc m src = append m Buf.null src := by
  have : Str.length Buf.null = 0 := rfl
  simp only [ofSrc, append, this, Nat.zero_add, Nat.mod_eq_of_lt hl]

theorem copyNew_spec {m : Mem UInt8} {sb : Buf} {l : Text} (h : SOwns m sb l) :
    ∃ m' buf', Does (copyNew m sb) m Buf.null l m' buf' ∧ buf'.size = sb.size := by
  unfold copyNew
  rcases h with ⟨rfl, rfl⟩ | ⟨b, c, h1, h2, h3, h4, h5, h6, h7, h8, h9⟩
  · exact ⟨m, Buf.null, ⟨rfl, .inl ⟨rfl, rfl⟩, Frame.refl _ _, fun h => h⟩, rfl⟩
  · have hb := (List.getElem?_eq_some_iff.1 h2).1
    have hcap : 0 < sb.cap := by omega
    rw [new_spec m hcap h4]
    simp only
    have h2' : (m.heap ++ [some (List.replicate sb.cap (none : Option UInt8))])[b]? = some (some c) := by
      rw [List.getElem?_append_left hb]; exact h2
    have hread : readSrc { m with heap := m.heap ++ [some (List.replicate sb.cap none)] } (view sb 0 sb.size) = .ok (c.take sb.size) := by
      unfold view
      rw [h1]
      simp only [readSrc]
      split
      · rename_i h0
        simp [h0]
      · rw [cells_ok (m := { m with heap := m.heap ++ [some (List.replicate sb.cap none)] }) h2', Res.bind_ok, if_pos (by omega)]
        simp
    obtain ⟨m2, b1, b2, b3⟩ := blit_spec (m := { m with heap := m.heap ++ [some (List.replicate sb.cap none)] })
      (buf := ⟨some m.heap.length, sb.cap, 0⟩) (b := m.heap.length) (off := 0) (xs := c.take sb.size)
      (c := List.replicate sb.cap none) rfl (by simp) (by simp; omega)
    simp only [List.take_zero, List.nil_append] at b2
    obtain ⟨g1, g2, g3⟩ := heap_new b2
    have hl2 : m2.heap.length = m.heap.length + 1 := by rw [b3]; simp
    refine ⟨m2, ⟨some m.heap.length, sb.cap, sb.size⟩, ⟨?_, ?_, ?_, by simp [Buf.null]⟩, rfl⟩
    · simp only [hread, b1, Res.bind_ok]
    · refine .inr ⟨m.heap.length, _, rfl, g2, by simp; omega, h4, h5, h6, h7, ?_, ?_⟩
      · intro i x hx
        have hi := (List.getElem?_eq_some_iff.1 hx).1
        have hs : i < sb.size := by
          unfold Str.length at h5
          split at h5 <;> omega
        rw [List.getElem?_append_left (by simp; omega), List.getElem?_take, if_pos hs]
        exact h8 i x hx
      · intro hs
        simp only at hs
        have hs' : l.length < sb.size := by
          unfold Str.length at h5
          rw [if_pos hs] at h5
          omega
        rw [List.getElem?_append_left (by simp; omega), List.getElem?_take, if_pos hs']
        exact h9 hs
    · refine ⟨fun j hj _ => g1 j hj, by omega, ?_, ?_⟩
      · intro j c' hc'
        by_cases hj : j = m.heap.length
        · exact .inl (by rw [hj])
        · have := (List.getElem?_eq_some_iff.1 hc').1
          exact .inr ⟨by omega, by simp [Buf.null]⟩
      · intro j hj
        simp at hj
        exact .inr (by omega)

theorem write_spec {m : Mem UInt8} {buf : Buf} {l : Text} (h : SOwns m buf l) {i : Nat} (hi : i < l.length) (x : UInt8) :
    ∃ m', poke m buf i x = .ok m' ∧ SOwns m' buf (l.set i (some x)) ∧ Frame m buf m' buf := by
  rcases h with ⟨rfl, rfl⟩ | ⟨b, c, h1, h2, h3, h4, h5, h6, h7, h8, h9⟩
  · simp at hi
  · obtain ⟨m', p1, p2, p3⟩ := poke_spec (buf := buf) (i := i) h1 h2 (by omega) x
    refine ⟨m', p1, .inr ⟨b, c.set i (some x), h1, by rw [p2, if_pos rfl], by simp [h3], h4, by simp [h5], h6, by simpa using h7, ?_, ?_⟩,
      Frame.of_same ⟨?_, p3⟩ rfl⟩
    · intro j y hy
      by_cases hj : i = j
      · subst hj
        rw [List.getElem?_set_self (by omega)] at hy ⊢
        exact hy
      · rw [List.getElem?_set_ne hj] at hy ⊢
        exact h8 j y hy
    · intro hs
      rw [List.length_set, List.getElem?_set_ne (by omega)]
      exact h9 hs
    · intro b' hb'
      rw [p2, if_neg]
      rintro rfl
      exact hb' h1

theorem destroy_spec {m : Mem UInt8} {buf : Buf} {l : Text} (h : SOwns m buf l) :
    ∃ m', freeBuf m buf = .ok m' ∧ Frame m buf m' Buf.null := by
  obtain ⟨m', f1, f2, f3, f4⟩ := free_spec h.block
  refine ⟨m', f1, fun b _ hb => f2 b hb, by omega, ?_, by simp [Buf.null]⟩
  intro b c hc
  refine .inr ⟨?_, fun hx => ?_⟩
  · have := (List.getElem?_eq_some_iff.1 hc).1
    omega
  · rw [f3 b hx] at hc
    simp at hc

end Str
end Coil
