import Verif.Spec.Seq

/-! # Single vectors: ownership of a block and the effect of each operation -/

namespace Coil
open Spec Mem

variable {α : Type}

/-- The buffer owns a block whose first slots hold `l` and whose other slots are empty (or is null and `l` is empty). -/
def Owns (sz : Nat) (m : Mem α) (buf : Buf) (l : List α) : Prop :=
  (buf = Buf.null ∧ l = []) ∨
  ∃ b, buf.ptr = some b ∧ m.heap[b]? = some (some (l.map some ++ List.replicate (buf.cap - l.length) none)) ∧
    buf.size = l.length ∧ l.length ≤ buf.cap ∧ 0 < buf.cap ∧ buf.cap * sz < 2 ^ 64

/-- Only the block of `buf` changed. -/
structure Same (m m' : Mem α) (buf : Buf) : Prop where
  other : ∀ b, buf.ptr ≠ some b → m'.heap[b]? = m.heap[b]?
  len : m'.heap.length = m.heap.length

theorem Owns.frame {sz : Nat} {m m' : Mem α} {buf : Buf} {l : List α} (h : Owns sz m buf l)
    (hf : ∀ b, buf.ptr = some b → m'.heap[b]? = m.heap[b]?) : Owns sz m' buf l := by
  rcases h with ⟨h1, h2⟩ | ⟨b, h1, h2, h3⟩
  · exact .inl ⟨h1, h2⟩
  · exact .inr ⟨b, h1, by rw [hf b h1]; exact h2, h3⟩

theorem Owns.size {sz : Nat} {m : Mem α} {buf : Buf} {l : List α} (h : Owns sz m buf l) :
    buf.size = l.length ∧ l.length ≤ buf.cap := by
  rcases h with ⟨rfl, rfl⟩ | ⟨b, h1, h2, h3, h4, _⟩
  · exact ⟨rfl, by simp [Buf.null]⟩
  · exact ⟨h3, h4⟩

theorem Owns.fits {sz : Nat} {m : Mem α} {buf : Buf} {l : List α} (h : Owns sz m buf l) : buf.cap * sz < 2 ^ 64 := by
  rcases h with ⟨rfl, rfl⟩ | ⟨b, h1, h2, h3, h4, h5, h6⟩
  · simp [Buf.null]
  · exact h6

theorem cells_ok {m : Mem α} {b : Nat} {c : List (Option α)} (h : m.heap[b]? = some (some c)) : m.cells b = .ok c := by
  simp [Mem.cells, h]

theorem heap_set {m : Mem α} {b : Nat} {c : List (Option α)} (h : m.heap[b]? = some (some c)) (x : Option (List (Option α)))
    (j : Nat) : (m.heap.set b x)[j]? = if j = b then some x else m.heap[j]? := by
  have hl := (List.getElem?_eq_some_iff.1 h).1
  by_cases hj : j = b
  · subst hj
    simp [hl]
  · rw [if_neg hj, List.getElem?_set_ne (Ne.symm hj)]

theorem constructNext_spec {sz : Nat} {m : Mem α} {buf : Buf} {l : List α} (h : Owns sz m buf l)
    (hc : l.length < buf.cap) (x : α) :
    ∃ m', constructNext m buf x = .ok (m', { buf with size := buf.size + 1 }) ∧
      Owns sz m' { buf with size := buf.size + 1 } (l ++ [x]) ∧ Same m m' buf ∧
      m'.ctors = m.ctors + 1 ∧ m'.dtors = m.dtors := by
  rcases h with ⟨rfl, rfl⟩ | ⟨b, h1, h2, h3, h4, h5, h6⟩
  · simp [Buf.null] at hc
  · have hlen : buf.size < (l.map some ++ List.replicate (buf.cap - l.length) (none : Option α)).length := by
      simp; omega
    refine ⟨{ m.setCells b ((l.map some ++ List.replicate (buf.cap - l.length) none).set buf.size (some x)) with
        ctors := m.ctors + 1 }, by
      simp only [constructNext, deref, h1, Res.bind_ok, cells_ok h2, if_pos hlen], .inr ⟨b, h1, ?_, by simp [h3], by simp; omega, h5, h6⟩, ⟨?_, by simp [setCells]⟩, rfl, rfl⟩
    · simp only [setCells]
      rw [heap_set h2, if_pos rfl, h3]
      congr 2
      rw [List.set_append_right _ _ (by simp)]
      simp only [List.length_map, Nat.sub_self, List.map_append, List.append_assoc, List.map_cons, List.map_nil]
      congr 1
      obtain ⟨k, hk⟩ : ∃ k, buf.cap - l.length = k + 1 := ⟨buf.cap - l.length - 1, by omega⟩
      rw [hk]
      simp only [List.length_append, List.length_cons, List.length_nil]
      rw [show buf.cap - (l.length + (0 + 1)) = k by omega]
      rfl
    · intro b' hb'
      simp only [setCells]
      rw [heap_set h2, if_neg]
      rintro rfl
      exact hb' h1

theorem destructLast_spec {sz : Nat} {m : Mem α} {buf : Buf} {l : List α} {x : α} (h : Owns sz m buf (l ++ [x])) :
    ∃ m', destructLast m buf = .ok (m', { buf with size := buf.size - 1 }) ∧
      Owns sz m' { buf with size := buf.size - 1 } l ∧ Same m m' buf ∧
      m'.ctors = m.ctors ∧ m'.dtors = m.dtors + 1 := by
  rcases h with ⟨_, h⟩ | ⟨b, h1, h2, h3, h4, h5, h6⟩
  · simp at h
  · simp only [List.length_append, List.length_cons, List.length_nil] at h3 h4
    have hget : ((l ++ [x]).map some ++ List.replicate (buf.cap - (l ++ [x]).length) (none : Option α))[buf.size - 1]?
        = some (some x) := by
      rw [List.getElem?_append_left (by simp; omega)]
      rw [show buf.size - 1 = l.length by omega]
      simp
    refine ⟨{ m.setCells b (((l ++ [x]).map some ++ List.replicate (buf.cap - (l ++ [x]).length) none).set
        (buf.size - 1) none) with dtors := m.dtors + 1 }, by
      simp only [destructLast, deref, h1, Res.bind_ok, cells_ok h2, if_neg (show ¬ buf.size = 0 by omega), hget],
      .inr ⟨b, h1, ?_, by simp; omega, by simp; omega, h5, h6⟩, ⟨?_, by simp [setCells]⟩, rfl, rfl⟩
    · simp only [setCells]
      rw [heap_set h2, if_pos rfl]
      congr 2
      rw [show buf.size - 1 = l.length by omega]
      rw [List.map_append, List.append_assoc, List.set_append_right _ _ (by simp)]
      simp only [List.length_map, Nat.sub_self]
      congr 1
      obtain ⟨k, hk⟩ : ∃ k, buf.cap - l.length = k + 1 := ⟨buf.cap - l.length - 1, by omega⟩
      rw [hk]
      simp only [List.length_append, List.length_cons, List.length_nil]
      rw [show buf.cap - (l.length + (0 + 1)) = k by omega]
      rfl
    · intro b' hb'
      simp only [setCells]
      rw [heap_set h2, if_neg]
      rintro rfl
      exact hb' h1

theorem readElem_spec {sz : Nat} {m : Mem α} {buf : Buf} {l : List α} (h : Owns sz m buf l) {i : Nat} {x : α}
    (hi : l[i]? = some x) : readElem m buf i = .ok x := by
  have hl := (List.getElem?_eq_some_iff.1 hi).1
  rcases h with ⟨_, rfl⟩ | ⟨b, h1, h2, h3, h4, h5, h6⟩
  · simp at hi
  · have : (l.map some ++ List.replicate (buf.cap - l.length) (none : Option α))[i]? = some (some x) := by
      rw [List.getElem?_append_left (by simpa using hl)]
      simp [hi]
    simp only [readElem, deref, h1, Res.bind_ok, cells_ok h2, this]

theorem writeElem_spec {sz : Nat} {m : Mem α} {buf : Buf} {l : List α} (h : Owns sz m buf l) {i : Nat} {y : α}
    (hi : i < l.length) :
    ∃ m', writeElem m buf i y = .ok m' ∧ Owns sz m' buf (l.set i y) ∧ Same m m' buf ∧
      m'.ctors = m.ctors ∧ m'.dtors = m.dtors := by
  rcases h with ⟨_, rfl⟩ | ⟨b, h1, h2, h3, h4, h5, h6⟩
  · simp at hi
  · have : (l.map some ++ List.replicate (buf.cap - l.length) (none : Option α))[i]? = some (some l[i]) := by
      rw [List.getElem?_append_left (by simpa using hi)]
      simp
    refine ⟨m.setCells b ((l.map some ++ List.replicate (buf.cap - l.length) none).set i (some y)),
      by simp only [writeElem, deref, h1, Res.bind_ok, cells_ok h2, this],
      .inr ⟨b, h1, ?_, by simp [h3], by simpa using h4, h5, h6⟩, ⟨?_, by simp [setCells]⟩, rfl, rfl⟩
    · simp only [setCells]
      rw [heap_set h2, if_pos rfl]
      congr 2
      rw [List.set_append_left _ _ (by simpa using hi)]
      simp [List.map_set]
    · intro b' hb'
      simp only [setCells]
      rw [heap_set h2, if_neg]
      rintro rfl
      exact hb' h1

/-- What allocating a buffer does. -/
theorem newBuf_spec {sz : Nat} (hsz : 0 < sz) (m : Mem α) {n : Nat} (hn : n * sz < 2 ^ 64) :
    ∃ m' buf, newBuf sz m n = (m', buf) ∧ Owns sz m' buf [] ∧ buf.cap = n ∧
      (∀ b, b < m.heap.length → m'.heap[b]? = m.heap[b]?) ∧ m.heap.length ≤ m'.heap.length ∧
      (∀ b c, m'.heap[b]? = some (some c) → b < m.heap.length ∨ buf.ptr = some b) ∧
      (∀ b, buf.ptr = some b → m.heap.length ≤ b) ∧
      m'.ctors = m.ctors ∧ m'.dtors = m.dtors := by
  unfold newBuf
  rw [Nat.mod_eq_of_lt hn]
  by_cases h0 : n = 0
  · subst h0
    rw [if_neg (by simp)]
    refine ⟨_, _, rfl, .inl ⟨rfl, rfl⟩, rfl, fun _ _ => rfl, Nat.le_refl _, ?_, by simp, rfl, rfl⟩
    intro b c hb
    exact .inl (List.getElem?_eq_some_iff.1 hb).1
  · have hpos : n * sz > 0 := Nat.mul_pos (by omega) hsz
    rw [if_pos hpos, Nat.mul_div_cancel _ hsz]
    refine ⟨_, _, rfl, .inr ⟨m.heap.length, rfl, by simp, rfl, by simp, by simp; omega, hn⟩, rfl, ?_, by simp, ?_, ?_,
      rfl, rfl⟩
    · intro b hb
      simp only [List.getElem?_append_left hb]
    · intro b c hb
      have := (List.getElem?_eq_some_iff.1 hb).1
      simp at this
      by_cases h : b < m.heap.length
      · exact .inl h
      · exact .inr (by simp; omega)
    · intro b hb
      simp at hb
      omega

theorem freeBuf_spec {sz : Nat} {m : Mem α} {buf : Buf} {l : List α} (h : Owns sz m buf l) :
    ∃ m', freeBuf m buf = .ok m' ∧ Same m m' buf ∧ (∀ b, buf.ptr = some b → m'.heap[b]? = some none) ∧
      m'.ctors = m.ctors ∧ m'.dtors = m.dtors := by
  rcases h with ⟨rfl, _⟩ | ⟨b, h1, h2, _⟩
  · exact ⟨m, rfl, ⟨fun _ _ => rfl, rfl⟩, by simp [Buf.null], rfl, rfl⟩
  · refine ⟨{ m with heap := m.heap.set b none }, by simp only [freeBuf, h1, cells_ok h2, Res.bind_ok], ⟨?_, by simp⟩, ?_,
      rfl, rfl⟩
    · intro b' hb'
      simp only
      rw [heap_set h2, if_neg]
      rintro rfl
      exact hb' h1
    · intro b' hb'
      rw [h1] at hb'
      cases hb'
      simp only
      rw [heap_set h2, if_pos rfl]

namespace Vec

theorem Same.trans {m1 m2 m3 : Mem α} {buf buf' : Buf} (h : Same m1 m2 buf) (h' : Same m2 m3 buf')
    (hp : buf'.ptr = buf.ptr) : Same m1 m3 buf :=
  ⟨fun b hb => by rw [h'.other b (by rw [hp]; exact hb), h.other b hb], by rw [h'.len, h.len]⟩

theorem Same.refl (m : Mem α) (buf : Buf) : Same m m buf := ⟨fun _ _ => rfl, rfl⟩

theorem destructMany_spec {sz : Nat} {m : Mem α} {buf : Buf} {l : List α} (h : Owns sz m buf l) {k : Nat}
    (hk : k ≤ l.length) :
    ∃ m', destructMany k m buf = .ok (m', { buf with size := buf.size - k }) ∧
      Owns sz m' { buf with size := buf.size - k } (l.take (l.length - k)) ∧ Same m m' buf ∧
      m'.ctors = m.ctors ∧ m'.dtors = m.dtors + k := by
  induction k generalizing m buf l with
  | zero =>
    refine ⟨m, by simp [destructMany], by simpa using h, Same.refl m buf, rfl, rfl⟩
  | succ k ih =>
    have hne : l ≠ [] := by rintro rfl; simp at hk
    obtain ⟨z, l0, rfl⟩ : ∃ z l0, l = l0 ++ [z] :=
      ⟨l.getLast hne, l.dropLast, (List.dropLast_concat_getLast hne).symm⟩
    simp only [List.length_append, List.length_cons, List.length_nil] at hk
    obtain ⟨m1, a1, a2, a3, a4, a5⟩ := destructLast_spec h
    obtain ⟨m2, b1, b2, b3, b4, b5⟩ := ih a2 (by omega)
    refine ⟨m2, ?_, ?_, Same.trans a3 b3 rfl, by rw [b4, a4], by rw [b5, a5]; omega⟩
    · simp only [destructMany, a1, Res.bind_ok, b1]
      congr 3
      omega
    · have e : ((l0 ++ [z]).take ((l0 ++ [z]).length - (k + 1))) = l0.take (l0.length - k) := by
        rw [List.take_append_of_le_length (by simp)]
        congr 1
        simp
      rw [e]
      have : buf.size - (k + 1) = buf.size - 1 - k := by omega
      rw [this]
      exact b2

theorem moveLoop_spec {sz : Nat} {moved : α → α} {k i : Nat} {m : Mem α} {buf new : Buf} {d rest acc : List α}
    (ho : Owns sz m buf (d ++ rest)) (hn : Owns sz m new acc) (hd : d.length = i) (hk : rest.length = k)
    (hcap : acc.length + k ≤ new.cap) (hdis : ∀ b, buf.ptr = some b → new.ptr ≠ some b) :
    ∃ m', moveLoop moved k i m buf new = .ok (m', { new with size := new.size + k }) ∧
      Owns sz m' buf (d ++ rest.map moved) ∧ Owns sz m' { new with size := new.size + k } (acc ++ rest) ∧
      (∀ b, buf.ptr ≠ some b → new.ptr ≠ some b → m'.heap[b]? = m.heap[b]?) ∧ m'.heap.length = m.heap.length ∧
      m'.ctors = m.ctors + k ∧ m'.dtors = m.dtors := by
  induction k generalizing i m new d rest acc with
  | zero =>
    have : rest = [] := List.length_eq_zero_iff.1 hk
    subst this
    exact ⟨m, by simp [moveLoop], by simpa using ho, by simpa using hn, fun _ _ _ => rfl, rfl, rfl, rfl⟩
  | succ k ih =>
    obtain ⟨x, rest, rfl⟩ : ∃ x r, rest = x :: r := by
      cases rest with
      | nil => simp at hk
      | cons x r => exact ⟨x, r, rfl⟩
    simp only [List.length_cons, Nat.add_right_cancel_iff] at hk
    have hx : (d ++ x :: rest)[i]? = some x := by
      rw [List.getElem?_append_right (by omega), hd]
      simp
    obtain ⟨m1, a1, a2, a3, a4, a5⟩ := constructNext_spec hn (by omega) x
    have ho1 : Owns sz m1 buf (d ++ x :: rest) := ho.frame (fun b hb => a3.other b (hdis b hb))
    obtain ⟨m2, b1, b2, b3, b4, b5⟩ := writeElem_spec ho1 (i := i) (y := moved x) (by simp; omega)
    have e : (d ++ x :: rest).set i (moved x) = (d ++ [moved x]) ++ rest := by
      rw [List.set_append_right _ _ (by omega), hd]
      simp
    rw [e] at b2
    have hn2 : Owns sz m2 { new with size := new.size + 1 } (acc ++ [x]) :=
      a2.frame (fun b hb => b3.other b (fun h => hdis b h hb))
    obtain ⟨m', c1, c2, c3, c4, c5, c6, c7⟩ := ih (i := i + 1) b2 hn2 (by simp [hd]) hk (by simp; omega) hdis
    refine ⟨m', ?_, ?_, ?_, ?_, by rw [c5, b3.len, a3.len], by rw [c6, b4, a4]; omega, by rw [c7, b5, a5]⟩
    · simp only [moveLoop, readElem_spec ho hx, a1, b1, Res.bind_ok, c1]
      congr 3
      omega
    · simpa using c2
    · have : new.size + 1 + k = new.size + (k + 1) := by omega
      simp only [this] at c3
      simpa using c3
    · intro b h1 h2
      rw [c4 b h1 h2, b3.other b h1, a3.other b h2]

/-- How an operation on one buffer changes memory: other existing blocks stay, live blocks belong to the new buffer or
are other old ones, and a changed pointer is a new block. -/
structure Frame (m : Mem α) (buf : Buf) (m' : Mem α) (buf' : Buf) : Prop where
  other : ∀ b, b < m.heap.length → buf.ptr ≠ some b → m'.heap[b]? = m.heap[b]?
  mono : m.heap.length ≤ m'.heap.length
  live : ∀ b c, m'.heap[b]? = some (some c) → buf'.ptr = some b ∨ (b < m.heap.length ∧ buf.ptr ≠ some b)
  fresh : ∀ b, buf'.ptr = some b → buf.ptr = some b ∨ m.heap.length ≤ b

theorem Frame.of_same {m m' : Mem α} {buf buf' : Buf} (h : Same m m' buf) (hp : buf'.ptr = buf.ptr) :
    Frame m buf m' buf' := by
  refine ⟨fun b _ hb => h.other b hb, by rw [h.len]; exact Nat.le_refl _, ?_, fun b hb => .inl (by rw [← hp]; exact hb)⟩
  intro b c hb
  by_cases h' : buf.ptr = some b
  · exact .inl (by rw [hp]; exact h')
  · refine .inr ⟨?_, h'⟩
    rw [← h.len]
    exact (List.getElem?_eq_some_iff.1 hb).1

theorem Frame.refl (m : Mem α) (buf : Buf) : Frame m buf m buf := Frame.of_same (Same.refl m buf) rfl

theorem Frame.trans {m1 m2 m3 : Mem α} {b1 b2 b3 : Buf} (h : Frame m1 b1 m2 b2) (h' : Frame m2 b2 m3 b3) :
    Frame m1 b1 m3 b3 := by
  have hsep : ∀ b, b < m1.heap.length → b1.ptr ≠ some b → b2.ptr ≠ some b := by
    intro b hb hb1 hb2
    rcases h.fresh b hb2 with hf | hf
    · exact hb1 hf
    · omega
  refine ⟨?_, Nat.le_trans h.mono h'.mono, ?_, ?_⟩
  · intro b hb hb1
    rw [h'.other b (Nat.lt_of_lt_of_le hb h.mono) (hsep b hb hb1), h.other b hb hb1]
  · intro b c hb
    rcases h'.live b c hb with hl | ⟨hl, hl'⟩
    · exact .inl hl
    · rw [h'.other b hl hl'] at hb
      rcases h.live b c hb with hk | hk
      · exact absurd hk hl'
      · exact .inr hk
  · intro b hb
    rcases h'.fresh b hb with hf | hf
    · exact h.fresh b hf
    · exact .inr (Nat.le_trans h.mono hf)

/-- Constructions and destructions match the change of length. -/
def Bal (m : Mem α) (n : Nat) (m' : Mem α) (n' : Nat) : Prop := m'.ctors + m.dtors + n = m.ctors + m'.dtors + n'

theorem Bal.trans {m1 m2 m3 : Mem α} {a b c : Nat} (h : Bal m1 a m2 b) (h' : Bal m2 b m3 c) : Bal m1 a m3 c := by
  unfold Bal at *
  omega

/-- The outcome of an operation on one vector. -/
structure Does (sz : Nat) (r : Res (Mem α × Buf)) (m : Mem α) (buf : Buf) (l l' : List α) (m' : Mem α) (buf' : Buf) : Prop where
  eq : r = .ok (m', buf')
  owns : Owns sz m' buf' l'
  frame : Frame m buf m' buf'
  bal : Bal m l.length m' l'.length

theorem grow_spec {sz : Nat} (hsz : 0 < sz) {moved : α → α} {m : Mem α} {buf : Buf} {l : List α} (h : Owns sz m buf l) {n : Nat}
    (hn : l.length ≤ n) (hf : n * sz < 2 ^ 64) :
    ∃ m' buf', Does sz (grow sz moved m buf n) m buf l l m' buf' ∧ buf'.cap = n := by
  obtain ⟨m1, new, a1, a2, a3, a4, a5, a6, a7, a8, a9⟩ := newBuf_spec hsz m hf
  have hlt : ∀ b, buf.ptr = some b → b < m.heap.length := by
    intro b hb
    rcases h with ⟨rfl, _⟩ | ⟨b', h1, h2, _⟩
    · simp [Buf.null] at hb
    · rw [h1] at hb
      cases hb
      exact (List.getElem?_eq_some_iff.1 h2).1
  have h1 : Owns sz m1 buf l := h.frame (fun b hb => a4 b (hlt b hb))
  have hdis : ∀ b, buf.ptr = some b → new.ptr ≠ some b := by
    intro b hb hnb
    have := a7 b hnb
    have := hlt b hb
    omega
  obtain ⟨m2, b1, b2, b3, b4, b5, b6, b7⟩ := moveLoop_spec (moved := moved) (d := []) (rest := l) (i := 0)
    (by simpa using h1) a2 rfl rfl (by simp [a3]; exact hn) hdis
  simp only [List.nil_append] at b2 b3
  have hsize := h.size.1
  obtain ⟨m3, c1, c2, c3, c4, c5⟩ := destructMany_spec b2 (k := l.length) (by simp)
  obtain ⟨m4, d1, d2, d3, d4, d5⟩ := freeBuf_spec c2
  refine ⟨m4, { new with size := new.size + l.length }, ⟨?_, ?_, ?_, ?_⟩, a3⟩
  · rw [hsize] at d1 c1
    simp only [grow, a1, hsize, b1, c1, d1, Res.bind_ok]
  · refine b3.frame ?_
    intro b hb
    have hbb : buf.ptr ≠ some b := fun hx => hdis b hx hb
    rw [d2.other b hbb, c3.other b hbb]
  · refine ⟨?_, by rw [d2.len, c3.len, b5]; exact a5, ?_, ?_⟩
    · intro b hb hbb
      have hnb : new.ptr ≠ some b := by
        intro hx
        have := a7 b hx
        omega
      rw [d2.other b hbb, c3.other b hbb, b4 b hbb hnb, a4 b hb]
    · intro b c hb
      have hbb : buf.ptr ≠ some b := by
        intro hx
        rw [d3 b hx] at hb
        simp at hb
      by_cases hnb : new.ptr = some b
      · exact .inl hnb
      · rw [d2.other b hbb, c3.other b hbb, b4 b hbb hnb] at hb
        rcases a6 b c hb with hh | hh
        · exact .inr ⟨hh, hbb⟩
        · exact absurd hh hnb
    · intro b hb
      exact .inr (a7 b hb)
  · unfold Bal
    rw [d4, c4, b6, a8, d5, c5, b7, a9]
    omega

theorem reserve_spec {sz : Nat} (hsz : 0 < sz) {moved : α → α} {m : Mem α} {buf : Buf} {l : List α}
    (h : Owns sz m buf l) {n : Nat} (hf : n * sz < 2 ^ 64) :
    ∃ m' buf', Does sz (reserve sz moved m buf n) m buf l l m' buf' ∧ n ≤ buf'.cap := by
  unfold reserve
  by_cases hc : n > buf.cap
  · rw [if_pos hc]
    have := h.size.2
    obtain ⟨m', buf', h1, h2⟩ := grow_spec hsz (moved := moved) h (n := n) (by omega) hf
    exact ⟨m', buf', h1, by omega⟩
  · rw [if_neg hc]
    exact ⟨m, buf, ⟨rfl, h, Frame.refl m buf, by unfold Bal; omega⟩, by omega⟩

theorem constructMany_spec {sz : Nat} {dflt : α} {k : Nat} {m : Mem α} {buf : Buf} {l : List α} (h : Owns sz m buf l)
    (hc : l.length + k ≤ buf.cap) :
    ∃ m', constructMany dflt k m buf = .ok (m', { buf with size := buf.size + k }) ∧
      Owns sz m' { buf with size := buf.size + k } (l ++ List.replicate k dflt) ∧ Same m m' buf ∧
      m'.ctors = m.ctors + k ∧ m'.dtors = m.dtors := by
  induction k generalizing m buf l with
  | zero => exact ⟨m, by simp [constructMany], by simpa using h, Same.refl m buf, rfl, rfl⟩
  | succ k ih =>
    obtain ⟨m1, a1, a2, a3, a4, a5⟩ := constructNext_spec h (by omega) dflt
    obtain ⟨m2, b1, b2, b3, b4, b5⟩ := ih a2 (by simp; omega)
    have e : buf.size + 1 + k = buf.size + (k + 1) := by omega
    refine ⟨m2, by simp only [constructMany, a1, Res.bind_ok, b1, e], ?_, Same.trans a3 b3 rfl, by rw [b4, a4]; omega,
      by rw [b5, a5]⟩
    simp only [e] at b2
    simpa [List.replicate_succ] using b2

theorem resize_spec {sz : Nat} (hsz : 0 < sz) {moved : α → α} {dflt : α} {m : Mem α} {buf : Buf} {l : List α}
    (h : Owns sz m buf l) {n : Nat} (hf : n * sz < 2 ^ 64) :
    ∃ m' buf', Does sz (resize sz moved dflt m buf n) m buf l (resized dflt n l) m' buf' := by
  obtain ⟨m1, buf1, ⟨a1, a2, a3, a4⟩, a5⟩ := reserve_spec hsz (moved := moved) h hf
  have hs1 := a2.size.1
  obtain ⟨m2, b1, b2, b3, b4, b5⟩ := destructMany_spec a2 (k := l.length - n) (by omega)
  have hlen : (l.take (l.length - (l.length - n))).length = min n l.length := by
    simp; omega
  obtain ⟨m3, c1, c2, c3, c4, c5⟩ := constructMany_spec (dflt := dflt) b2 (k := n - l.length) (by
    rw [hlen]; simp; have := a2.size.2; omega)
  refine ⟨m3, { buf1 with size := buf1.size - (l.length - n) + (n - l.length) }, ⟨?_, ?_,
    a3.trans (Frame.of_same (Same.trans b3 c3 rfl) rfl), ?_⟩⟩
  · simp only [resize, a1, Res.bind_ok, hs1, b1]
    rw [hs1] at c1
    simp only at c1
    rw [show n - (l.length - (l.length - n)) = n - l.length by omega]
    exact c1
  · have : resized dflt n l = l.take (l.length - (l.length - n)) ++ List.replicate (n - l.length) dflt := by
      unfold resized
      congr 1
      by_cases hnl : n ≤ l.length
      · congr 1; omega
      · rw [List.take_of_length_le (by omega), List.take_of_length_le (by omega)]
    rw [this]
    simpa using c2
  · unfold Bal at *
    rw [c4, b4, c5, b5]
    simp only [resized, List.length_append, List.length_take, List.length_replicate]
    omega

theorem pushBack_spec {sz : Nat} (hsz : 0 < sz) {moved : α → α} {m : Mem α} {buf : Buf} {l : List α}
    (h : Owns sz m buf l) {x : α} (hf : 3 * (l.length + 1) * sz < 2 ^ 64) :
    ∃ m' buf', Does sz (pushBack sz moved m buf x) m buf l (l ++ [x]) m' buf' := by
  have hs := h.size
  have hg : ∃ m1 buf1, Does sz (growForOne sz moved m buf) m buf l l m1 buf1 ∧ l.length < buf1.cap := by
    unfold growForOne
    by_cases hc : buf.size + 1 > buf.cap
    · rw [if_pos hc]
      have hnc : l.length < nextCapacity buf.size ∧ nextCapacity buf.size ≤ 3 * (l.length + 1) := by
        unfold nextCapacity
        have := Nat.mod_le (buf.size * 3) (2 ^ 64)
        split <;> omega
      obtain ⟨m1, b1, h1, h2⟩ := grow_spec hsz (moved := moved) h (n := nextCapacity buf.size) (by omega)
        (Nat.lt_of_le_of_lt (Nat.mul_le_mul_right sz hnc.2) hf)
      exact ⟨m1, b1, h1, by omega⟩
    · rw [if_neg hc]
      exact ⟨m, buf, ⟨rfl, h, Frame.refl m buf, by unfold Bal; omega⟩, by omega⟩
  obtain ⟨m1, buf1, ⟨a1, a2, a3, a4⟩, a5⟩ := hg
  obtain ⟨m2, b1, b2, b3, b4, b5⟩ := constructNext_spec a2 a5 x
  refine ⟨m2, { buf1 with size := buf1.size + 1 }, ⟨by simp only [pushBack, a1, Res.bind_ok, b1], b2, a3.trans (Frame.of_same b3 rfl), ?_⟩⟩
  unfold Bal at *
  simp
  omega

theorem popBack_spec {sz : Nat} {m : Mem α} {buf : Buf} {l : List α} (h : Owns sz m buf l) (hne : l ≠ []) :
    ∃ m' buf', Does sz (popBack m buf) m buf l l.dropLast m' buf' := by
  obtain ⟨z, l0, rfl⟩ : ∃ z l0, l = l0 ++ [z] :=
    ⟨l.getLast hne, l.dropLast, (List.dropLast_concat_getLast hne).symm⟩
  obtain ⟨m1, a1, a2, a3, a4, a5⟩ := destructLast_spec h
  refine ⟨m1, { buf with size := buf.size - 1 }, ⟨a1, by simpa using a2, Frame.of_same a3 rfl, ?_⟩⟩
  unfold Bal
  simp
  omega

theorem clear_spec {sz : Nat} {m : Mem α} {buf : Buf} {l : List α} (h : Owns sz m buf l) :
    ∃ m' buf', Does sz (clear m buf) m buf l [] m' buf' ∧ buf'.ptr = buf.ptr := by
  obtain ⟨m1, a1, a2, a3, a4, a5⟩ := destructMany_spec h (k := l.length) (Nat.le_refl _)
  refine ⟨m1, { buf with size := buf.size - l.length }, ⟨?_, by simpa using a2, Frame.of_same a3 rfl, ?_⟩, rfl⟩
  · rw [clear, h.size.1, a1, h.size.1]
  · unfold Bal
    simp
    omega

theorem write_spec {sz : Nat} {m : Mem α} {buf : Buf} {l : List α} (h : Owns sz m buf l) {i : Nat} {x : α}
    (hi : i < l.length) :
    ∃ m' buf', Does sz (do
      let m' ← writeElem m buf i x
      .ok (m', buf)) m buf l (l.set i x) m' buf' := by
  obtain ⟨m1, a1, a2, a3, a4, a5⟩ := writeElem_spec h (y := x) hi
  refine ⟨m1, buf, ⟨by simp only [a1, Res.bind_ok], a2, Frame.of_same a3 rfl, ?_⟩⟩
  unfold Bal
  simp
  omega

theorem newBuf_does {sz : Nat} (hsz : 0 < sz) (m : Mem α) {n : Nat} (hf : n * sz < 2 ^ 64) :
    ∃ m' buf', Does sz (.ok (newBuf sz m n)) m Buf.null [] [] m' buf' ∧ buf'.cap = n ∧
      newBuf sz m n = (m', buf') ∧ (∀ b, buf'.ptr = some b → m.heap.length ≤ b) := by
  obtain ⟨m1, new, a1, a2, a3, a4, a5, a6, a7, a8, a9⟩ := newBuf_spec hsz m hf
  refine ⟨m1, new, ⟨by rw [a1], a2, ⟨fun b hb _ => a4 b hb, a5, ?_, fun b hb => .inr (a7 b hb)⟩, ?_⟩, a3, a1, a7⟩
  · intro b c hb
    rcases a6 b c hb with h | h
    · exact .inr ⟨h, by simp [Buf.null]⟩
    · exact .inl h
  · unfold Bal
    rw [a8, a9]

theorem fillFrom_spec {sz : Nat} {xs : List α} {m : Mem α} {buf : Buf} {l : List α} (h : Owns sz m buf l)
    (hc : l.length + xs.length ≤ buf.cap) :
    ∃ m', fillFrom xs m buf = .ok (m', { buf with size := buf.size + xs.length }) ∧
      Owns sz m' { buf with size := buf.size + xs.length } (l ++ xs) ∧ Same m m' buf ∧
      m'.ctors = m.ctors + xs.length ∧ m'.dtors = m.dtors := by
  induction xs generalizing m buf l with
  | nil => exact ⟨m, by simp [fillFrom], by simpa using h, Same.refl m buf, rfl, rfl⟩
  | cons x xs ih =>
    simp only [List.length_cons] at hc
    obtain ⟨m1, a1, a2, a3, a4, a5⟩ := constructNext_spec h (by omega) x
    obtain ⟨m2, b1, b2, b3, b4, b5⟩ := ih a2 (by simp; omega)
    have e : buf.size + 1 + xs.length = buf.size + (xs.length + 1) := by omega
    refine ⟨m2, by simp only [fillFrom, a1, Res.bind_ok, b1, e, List.length_cons], ?_, Same.trans a3 b3 rfl,
      by rw [b4, a4, List.length_cons]; omega, by rw [b5, a5]⟩
    simp only [e] at b2
    simpa using b2

theorem ofRange_spec {sz : Nat} (hsz : 0 < sz) (m : Mem α) {xs : List α} (hf : xs.length * sz < 2 ^ 64) :
    ∃ m' buf', Does sz (ofRange sz m xs) m Buf.null [] xs m' buf' := by
  obtain ⟨m1, new, ⟨_, a2, a3, a4⟩, a5, a6, _⟩ := newBuf_does hsz m hf
  obtain ⟨m2, b1, b2, b3, b4, b5⟩ := fillFrom_spec a2 (xs := xs) (by simp [a5])
  refine ⟨m2, { new with size := new.size + xs.length }, ⟨by simp only [ofRange, a6, b1], by simpa using b2, a3.trans (Frame.of_same b3 rfl), ?_⟩⟩
  unfold Bal at *
  simp at *
  omega

theorem copyLoop_spec {sz : Nat} {k i : Nat} {m : Mem α} {src new : Buf} {d rest acc : List α}
    (ho : Owns sz m src (d ++ rest)) (hn : Owns sz m new acc) (hd : d.length = i) (hk : rest.length = k)
    (hcap : acc.length + k ≤ new.cap) (hdis : ∀ b, src.ptr = some b → new.ptr ≠ some b) :
    ∃ m', copyLoop k i m src new = .ok (m', { new with size := new.size + k }) ∧
      Owns sz m' { new with size := new.size + k } (acc ++ rest) ∧ Same m m' new ∧
      m'.ctors = m.ctors + k ∧ m'.dtors = m.dtors := by
  induction k generalizing i m new d rest acc with
  | zero =>
    have : rest = [] := List.length_eq_zero_iff.1 hk
    subst this
    exact ⟨m, by simp [copyLoop], by simpa using hn, Same.refl m new, rfl, rfl⟩
  | succ k ih =>
    obtain ⟨x, rest, rfl⟩ : ∃ x r, rest = x :: r := by
      cases rest with
      | nil => simp at hk
      | cons x r => exact ⟨x, r, rfl⟩
    simp only [List.length_cons, Nat.add_right_cancel_iff] at hk
    have hx : (d ++ x :: rest)[i]? = some x := by
      rw [List.getElem?_append_right (by omega), hd]
      simp
    obtain ⟨m1, a1, a2, a3, a4, a5⟩ := constructNext_spec hn (by omega) x
    have ho1 : Owns sz m1 src ((d ++ [x]) ++ rest) := by
      simpa using ho.frame (fun b hb => a3.other b (hdis b hb))
    obtain ⟨m', c1, c3, c4, c6, c7⟩ := ih (i := i + 1) ho1 a2 (by simp [hd]) hk (by simp; omega) hdis
    refine ⟨m', ?_, ?_, Same.trans a3 c4 rfl, by rw [c6, a4]; omega, by rw [c7, a5]⟩
    · simp only [copyLoop, readElem_spec ho hx, a1, Res.bind_ok, c1]
      congr 3
      omega
    · have : new.size + 1 + k = new.size + (k + 1) := by omega
      simp only [this] at c3
      simpa using c3

theorem copyNew_spec {sz : Nat} (hsz : 0 < sz) {m : Mem α} {src : Buf} {l : List α} (h : Owns sz m src l) :
    ∃ m' buf', Does sz (copyNew sz m src) m Buf.null [] l m' buf' := by
  have hf : l.length * sz < 2 ^ 64 := Nat.lt_of_le_of_lt (Nat.mul_le_mul_right sz h.size.2) h.fits
  obtain ⟨m1, new, ⟨_, a2, a3, a4⟩, a5, a6, a7⟩ := newBuf_does hsz m hf
  have hlt : ∀ b, src.ptr = some b → b < m.heap.length := by
    intro b hb
    rcases h with ⟨rfl, _⟩ | ⟨b', h1, h2, _⟩
    · simp [Buf.null] at hb
    · rw [h1] at hb
      cases hb
      exact (List.getElem?_eq_some_iff.1 h2).1
  have h1 : Owns sz m1 src l := h.frame (fun b hb => a3.other b (hlt b hb) (by simp [Buf.null]))
  obtain ⟨m2, b1, b2, b3, b4, b5⟩ := copyLoop_spec (d := []) (rest := l) (i := 0) (k := l.length) (by simpa using h1) a2 rfl rfl
    (by simp [a5]) (fun b hb hnb => by have := a7 b hnb; have := hlt b hb; omega)
  refine ⟨m2, { new with size := new.size + l.length }, ⟨by simp only [copyNew, h.size.1, a6, b1], by simpa using b2, a3.trans (Frame.of_same b3 rfl), ?_⟩⟩
  unfold Bal at *
  simp at *
  omega

theorem destroy_spec {sz : Nat} {m : Mem α} {buf : Buf} {l : List α} (h : Owns sz m buf l) :
    ∃ m', destroy m buf = .ok m' ∧ Frame m buf m' Buf.null ∧ Bal m l.length m' 0 := by
  obtain ⟨m1, buf1, ⟨a1, a2, a3, a4⟩, a5⟩ := clear_spec h
  obtain ⟨m2, b1, b2, b3, b4, b5⟩ := freeBuf_spec a2
  refine ⟨m2, by simp only [destroy, a1, Res.bind_ok, b1], a3.trans ⟨fun b _ hb => b2.other b hb,
    by rw [b2.len]; exact Nat.le_refl _, ?_, by simp [Buf.null]⟩, ?_⟩
  · intro b c hb
    refine .inr ⟨by rw [← b2.len]; exact (List.getElem?_eq_some_iff.1 hb).1, ?_⟩
    intro hx
    rw [b3 b hx] at hb
    simp at hb
  · unfold Bal at *
    simp at a4
    omega

end Vec
end Coil
