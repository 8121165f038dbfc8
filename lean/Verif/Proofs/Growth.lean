import Verif.Model.String
import Verif.Spec.Growth

/-! # Lemmas about the cost of growing -/

namespace Coil.Growth
open Mem Spec

variable {α : Type} {sz : Nat} {moved : α → α} {dflt : α}

/-! ## What the steps count -/

theorem constructNext_cost {m m' : Mem α} {buf buf' : Buf} {x : α} (h : constructNext m buf x = .ok (m', buf')) :
    m'.ctors = m.ctors + 1 ∧ m'.heap.length = m.heap.length ∧ buf'.size = buf.size + 1 ∧ buf'.cap = buf.cap := by
  unfold constructNext at h
  obtain ⟨b, _, h⟩ := Res.bind_eq_ok.1 h
  obtain ⟨c, _, h⟩ := Res.bind_eq_ok.1 h
  split at h
  · cases h
    exact ⟨rfl, by simp [setCells], rfl, rfl⟩
  · cases h

theorem destructLast_cost {m m' : Mem α} {buf buf' : Buf} (h : destructLast m buf = .ok (m', buf')) :
    m'.ctors = m.ctors ∧ m'.heap.length = m.heap.length ∧ buf'.size + 1 = buf.size ∧ buf'.cap = buf.cap := by
  unfold destructLast at h
  obtain ⟨b, _, h⟩ := Res.bind_eq_ok.1 h
  obtain ⟨c, _, h⟩ := Res.bind_eq_ok.1 h
  split at h
  · cases h
  · split at h
    · cases h
      exact ⟨rfl, by simp [setCells], by simp only; omega, rfl⟩
    · cases h
    · cases h

theorem writeElem_cost {m m' : Mem α} {buf : Buf} {i : Nat} {x : α} (h : writeElem m buf i x = .ok m') :
    m'.ctors = m.ctors ∧ m'.heap.length = m.heap.length := by
  unfold writeElem at h
  obtain ⟨b, _, h⟩ := Res.bind_eq_ok.1 h
  obtain ⟨c, _, h⟩ := Res.bind_eq_ok.1 h
  split at h
  · cases h
    exact ⟨rfl, by simp [setCells]⟩
  · cases h
  · cases h

theorem destructMany_cost {k : Nat} {m m' : Mem α} {buf buf' : Buf} (h : Vec.destructMany k m buf = .ok (m', buf')) :
    m'.ctors = m.ctors ∧ m'.heap.length = m.heap.length := by
  induction k generalizing m buf with
  | zero => cases h; exact ⟨rfl, rfl⟩
  | succ k ih =>
    unfold Vec.destructMany at h
    obtain ⟨⟨m1, b1⟩, h1, h⟩ := Res.bind_eq_ok.1 h
    have := destructLast_cost h1
    have := ih h
    omega

theorem freeBuf_cost {m m' : Mem α} {buf : Buf} (h : freeBuf m buf = .ok m') :
    m'.ctors = m.ctors ∧ m'.heap.length = m.heap.length := by
  unfold freeBuf at h
  split at h
  · cases h; exact ⟨rfl, rfl⟩
  · obtain ⟨_, _, h⟩ := Res.bind_eq_ok.1 h
    cases h
    exact ⟨rfl, by simp⟩

theorem newBuf_cost (m : Mem α) (n : Nat) :
    (newBuf sz m n).1.ctors = m.ctors ∧ (newBuf sz m n).1.heap.length ≤ m.heap.length + 1 ∧ (newBuf sz m n).2.size = 0 ∧
      (newBuf sz m n).2.cap = n := by
  unfold newBuf
  split <;> simp

theorem moveLoop_cost {k i : Nat} {m m' : Mem α} {buf new new' : Buf} (h : Vec.moveLoop moved k i m buf new = .ok (m', new')) :
    m'.ctors = m.ctors + k ∧ m'.heap.length = m.heap.length ∧ new'.size = new.size + k ∧ new'.cap = new.cap := by
  induction k generalizing i m new with
  | zero => cases h; simp
  | succ k ih =>
    unfold Vec.moveLoop at h
    obtain ⟨x, _, h⟩ := Res.bind_eq_ok.1 h
    obtain ⟨⟨m1, n1⟩, h1, h⟩ := Res.bind_eq_ok.1 h
    obtain ⟨m2, h2, h⟩ := Res.bind_eq_ok.1 h
    have := constructNext_cost h1
    have := writeElem_cost h2
    have := ih h
    omega

theorem grow_cost {m m' : Mem α} {buf buf' : Buf} {n : Nat} (h : Vec.grow sz moved m buf n = .ok (m', buf')) :
    m'.ctors = m.ctors + buf.size ∧ m'.heap.length ≤ m.heap.length + 1 ∧ buf'.size = buf.size ∧ buf'.cap = n := by
  unfold Vec.grow at h
  have h0 := newBuf_cost (sz := sz) m n
  revert h
  generalize newBuf sz m n = q at h0 ⊢
  intro h
  obtain ⟨m1, new⟩ := q
  simp only at h0 h
  obtain ⟨⟨m2, new2⟩, h2, h⟩ := Res.bind_eq_ok.1 h
  obtain ⟨⟨m3, old⟩, h3, h⟩ := Res.bind_eq_ok.1 h
  obtain ⟨m4, h4, h⟩ := Res.bind_eq_ok.1 h
  cases h
  simp only at h3 h4 ⊢
  have := moveLoop_cost h2
  have := destructMany_cost h3
  have := freeBuf_cost h4
  omega

theorem pushBack_cost {m m' : Mem α} {buf buf' : Buf} {x : α} (h : Vec.pushBack sz moved m buf x = .ok (m', buf')) :
    buf'.size = buf.size + 1 ∧
    ((buf.size + 1 ≤ buf.cap ∧ m'.ctors = m.ctors + 1 ∧ m'.heap.length = m.heap.length ∧ buf'.cap = buf.cap) ∨
      (buf.cap < buf.size + 1 ∧ m'.ctors = m.ctors + buf.size + 1 ∧ m'.heap.length ≤ m.heap.length + 1 ∧
        buf'.cap = Vec.nextCapacity buf.size)) := by
  unfold Vec.pushBack at h
  obtain ⟨⟨m1, b1⟩, h1, h⟩ := Res.bind_eq_ok.1 h
  have hc := constructNext_cost h
  unfold Vec.growForOne at h1
  split at h1
  · have := grow_cost h1
    refine ⟨by omega, .inr ⟨by omega, by omega, by omega, by omega⟩⟩
  · cases h1
    refine ⟨by omega, .inl ⟨by omega, by omega, by omega, by omega⟩⟩

/-! ## The capacities a growing vector goes through -/

/-- The capacity after `a` growths. -/
def caps : Nat → Nat
  | 0 => 0
  | a + 1 => max (caps a + 1) (caps a * 3 / 2)

/-- The number of elements moved in `a` growths. -/
def moves : Nat → Nat
  | 0 => 0
  | a + 1 => moves a + caps a

theorem nextCapacity_eq {n : Nat} (h : n * 3 < 2 ^ 64) : Vec.nextCapacity n = max (n + 1) (n * 3 / 2) := by
  unfold Vec.nextCapacity
  rw [Nat.mod_eq_of_lt h]
  split <;> omega

theorem moves_le (a : Nat) : moves (a + 1) ≤ 4 * caps a := by
  induction a with
  | zero => simp [moves, caps]
  | succ a ih =>
    rw [moves]
    have : 4 * caps a ≤ 3 * caps (a + 1) := by
      rw [caps]
      omega
    omega

theorem caps_double (a : Nat) : 2 * caps (a + 1) ≤ caps (a + 3) := by
  have h1 : 1 ≤ caps (a + 1) := by rw [caps]; omega
  have h2 : caps (a + 2) = max (caps (a + 1) + 1) (caps (a + 1) * 3 / 2) := rfl
  have h3 : caps (a + 3) = max (caps (a + 2) + 1) (caps (a + 2) * 3 / 2) := rfl
  omega

theorem caps_pow (a : Nat) : 2 ^ (a / 2) ≤ caps (a + 1) := by
  have h : ∀ k, 2 ^ k ≤ caps (2 * k + 1) ∧ 2 ^ k ≤ caps (2 * k + 2) := by
    intro k
    induction k with
    | zero => decide
    | succ k ih =>
      have h1 := caps_double (2 * k)
      have h2 := caps_double (2 * k + 1)
      rw [Nat.pow_succ, show 2 * (k + 1) + 1 = 2 * k + 3 by omega, show 2 * (k + 1) + 2 = 2 * k + 1 + 3 by omega]
      simp only [show 2 * k + 1 + 1 = 2 * k + 2 by omega] at h2
      omega
  rcases Nat.mod_two_eq_zero_or_one a with h0 | h0
  · have := (h (a / 2)).1
    rwa [show 2 * (a / 2) + 1 = a + 1 by omega] at this
  · have := (h (a / 2)).2
    rwa [show 2 * (a / 2) + 2 = a + 1 by omega] at this

/-! ## Programs of pushes and pops -/

/-- A vector that grew `a` times, after `p` pushes. -/
structure Grown (m0 m : Mem α) (buf : Buf) (a p : Nat) : Prop where
  cap : buf.cap = caps a
  size : buf.size ≤ caps a
  some : buf.size ≤ p
  reached : ∀ b, a = b + 1 → caps b < p
  ctors : m.ctors = m0.ctors + moves a + p
  blocks : m.heap.length ≤ m0.heap.length + a

theorem run_grown {m0 : Mem α} {ops : List (Vec.Op α)} (ho : ∀ op ∈ ops, Stack op) {m : Mem α} {buf : Buf} {a p : Nat}
    (hg : Grown m0 m buf a p) (hp : (p + pushes ops) * 3 < 2 ^ 64) {s : Vec.State α}
    (h : Vec.run sz moved dflt ⟨m, [Option.some buf]⟩ ops = .ok s) :
    ∃ m' buf' a', s = ⟨m', [Option.some buf']⟩ ∧ Grown m0 m' buf' a' (p + pushes ops) := by
  induction ops generalizing m buf a p with
  | nil => cases h; exact ⟨m, buf, a, rfl, hg⟩
  | cons op ops ih =>
    unfold Vec.run at h
    obtain ⟨s1, h1, h⟩ := Res.bind_eq_ok.1 h
    have hop := ho op (by simp)
    have ho' : ∀ op ∈ ops, Stack op := fun o h => ho o (by simp [h])
    cases op with
    | pushBack v x =>
      cases v with
      | succ v => exact hop.elim
      | zero =>
        simp only [Vec.step, Vec.onVar, Vec.getVar, List.getElem?_cons_zero, Res.bind_ok] at h1
        obtain ⟨⟨m1, b1⟩, h2, h1⟩ := Res.bind_eq_ok.1 h1
        cases h1
        simp only [pushes] at hp ⊢
        have hc := pushBack_cost h2
        have e : p + (pushes ops + 1) = p + 1 + pushes ops := by omega
        rw [e] at hp ⊢
        rcases hc with ⟨hs, ⟨h3, h4, h5, h6⟩ | ⟨h3, h4, h5, h6⟩⟩
        · refine ih (m := m1) (buf := b1) ho' (a := a) ⟨?_, ?_, ?_, ?_, ?_, ?_⟩ hp h
          · rw [h6, hg.cap]
          · have := hg.cap; omega
          · have := hg.some; omega
          · intro b hb
            have := hg.reached b hb
            omega
          · have := hg.ctors; omega
          · have := hg.blocks; omega
        · have hcap := hg.cap
          have hsz := hg.size
          have hsome := hg.some
          have heq : buf.size = caps a := by omega
          refine ih (m := m1) (buf := b1) ho' (a := a + 1) ⟨?_, ?_, ?_, ?_, ?_, ?_⟩ hp h
          · rw [h6, nextCapacity_eq (by omega), heq, caps]
          · rw [caps]; omega
          · omega
          · intro b hb
            have : b = a := by omega
            subst this
            omega
          · have := hg.ctors
            rw [moves]; omega
          · have := hg.blocks; omega
    | popBack v =>
      cases v with
      | succ v => exact hop.elim
      | zero =>
        simp only [Vec.step, Vec.onVar, Vec.getVar, List.getElem?_cons_zero, Res.bind_ok] at h1
        obtain ⟨⟨m1, b1⟩, h2, h1⟩ := Res.bind_eq_ok.1 h1
        cases h1
        simp only [pushes] at hp ⊢
        have hc := destructLast_cost h2
        refine ih (m := m1) (buf := b1) ho' (a := a) ⟨?_, ?_, ?_, hg.reached, ?_, ?_⟩ hp h
        · rw [hc.2.2.2, hg.cap]
        · have := hg.size; omega
        · have := hg.some; omega
        · rw [hc.1, hg.ctors]
        · rw [hc.2.1]; exact hg.blocks
    | _ => exact hop.elim

theorem run_reserved {ops : List (Vec.Op α)} (ho : ∀ op ∈ ops, Stack op) {m : Mem α} {buf : Buf}
    (hp : buf.size + pushes ops ≤ buf.cap) {s : Vec.State α}
    (h : Vec.run sz moved dflt ⟨m, [Option.some buf]⟩ ops = .ok s) :
    s.mem.ctors = m.ctors + pushes ops ∧ s.mem.heap.length = m.heap.length := by
  induction ops generalizing m buf with
  | nil => cases h; exact ⟨rfl, rfl⟩
  | cons op ops ih =>
    unfold Vec.run at h
    obtain ⟨s1, h1, h⟩ := Res.bind_eq_ok.1 h
    have hop := ho op (by simp)
    have ho' : ∀ op ∈ ops, Stack op := fun o h => ho o (by simp [h])
    cases op with
    | pushBack v x =>
      cases v with
      | succ v => exact hop.elim
      | zero =>
        simp only [Vec.step, Vec.onVar, Vec.getVar, List.getElem?_cons_zero, Res.bind_ok] at h1
        obtain ⟨⟨m1, b1⟩, h2, h1⟩ := Res.bind_eq_ok.1 h1
        cases h1
        simp only [pushes] at hp ⊢
        have hc := pushBack_cost h2
        have := ih (m := m1) (buf := b1) ho' (by omega) h
        omega
    | popBack v =>
      cases v with
      | succ v => exact hop.elim
      | zero =>
        simp only [Vec.step, Vec.onVar, Vec.getVar, List.getElem?_cons_zero, Res.bind_ok] at h1
        obtain ⟨⟨m1, b1⟩, h2, h1⟩ := Res.bind_eq_ok.1 h1
        cases h1
        simp only [pushes] at hp ⊢
        have hc := destructLast_cost h2
        have := ih (m := m1) (buf := b1) ho' (by omega) h
        omega
    | _ => exact hop.elim

/-! ## Strings -/

theorem setCells_length (m : Mem α) (b : Nat) (c : List (Option α)) : (m.setCells b c).heap.length = m.heap.length := by
  simp [setCells]

theorem blit_cost {m m' : Mem UInt8} {buf : Buf} {off : Nat} {xs : List (Option UInt8)} (h : Str.blit m buf off xs = .ok m') :
    m'.heap.length = m.heap.length := by
  unfold Str.blit at h
  split at h
  · cases h; rfl
  · obtain ⟨b, _, h⟩ := Res.bind_eq_ok.1 h
    obtain ⟨c, _, h⟩ := Res.bind_eq_ok.1 h
    split at h
    · cases h; exact setCells_length _ _ _
    · cases h

theorem poke_cost {m m' : Mem UInt8} {buf : Buf} {i : Nat} {x : UInt8} (h : Str.poke m buf i x = .ok m') :
    m'.heap.length = m.heap.length := by
  unfold Str.poke at h
  obtain ⟨b, _, h⟩ := Res.bind_eq_ok.1 h
  obtain ⟨c, _, h⟩ := Res.bind_eq_ok.1 h
  split at h
  · cases h; exact setCells_length _ _ _
  · cases h

theorem resize_cost {m m' : Mem UInt8} {buf buf' : Buf} {n : Nat} (hn : n + 1 < 2 ^ 64) (hc : buf.cap < n + 1)
    (h : Str.resize m buf n = .ok (m', buf')) :
    m'.heap.length = m.heap.length + 1 ∧ buf'.size = n + 1 ∧ buf'.cap = n + 1 := by
  unfold Str.resize at h
  obtain ⟨⟨m1, b1⟩, h1, h⟩ := Res.bind_eq_ok.1 h
  obtain ⟨m2, h2, h⟩ := Res.bind_eq_ok.1 h
  cases h
  have hp := poke_cost h2
  unfold Str.reserve at h1
  rw [Nat.mod_eq_of_lt hn, if_pos hc] at h1
  have hb : (newBuf 1 m (n + 1)).1.heap.length = m.heap.length + 1 ∧ (newBuf 1 m (n + 1)).2.cap = n + 1 := by
    unfold newBuf
    rw [if_pos (by rw [Nat.mul_one, Nat.mod_eq_of_lt hn]; omega)]
    simp
  revert h1
  generalize newBuf 1 m (n + 1) = q at hb ⊢
  intro h1
  obtain ⟨m0, new⟩ := q
  simp only at hb h1
  obtain ⟨xs, _, h1⟩ := Res.bind_eq_ok.1 h1
  obtain ⟨m3, h3, h1⟩ := Res.bind_eq_ok.1 h1
  obtain ⟨m4, h4, h1⟩ := Res.bind_eq_ok.1 h1
  obtain ⟨m5, h5, h1⟩ := Res.bind_eq_ok.1 h1
  cases h1
  have e3 := blit_cost h3
  have e4 := poke_cost h4
  have e5 := (freeBuf_cost h5).2
  refine ⟨by omega, ?_, hb.2⟩
  show (n + 1) % 2 ^ 64 = n + 1
  exact Nat.mod_eq_of_lt hn

theorem append_cost {m m' : Mem UInt8} {buf buf' : Buf} {x : UInt8} (h0 : 0 < buf.size) (hc : buf.cap = buf.size)
    (hn : buf.size + 1 < 2 ^ 64) (h : Str.append m buf (.ext [x]) = .ok (m', buf')) :
    m'.heap.length = m.heap.length + 1 ∧ buf'.size = buf.size + 1 ∧ buf'.cap = buf'.size := by
  unfold Str.append at h
  obtain ⟨⟨m1, b1⟩, h1, h⟩ := Res.bind_eq_ok.1 h
  obtain ⟨xs, _, h⟩ := Res.bind_eq_ok.1 h
  obtain ⟨m2, h2, h⟩ := Res.bind_eq_ok.1 h
  cases h
  have hl : Str.length buf = buf.size - 1 := by simp [Str.length, h0]
  rw [hl, show Str.Src.len (.ext [x]) = 1 from rfl, show buf.size - 1 + 1 = buf.size by omega,
    Nat.mod_eq_of_lt (by omega)] at h1
  have := resize_cost hn (by omega) h1
  have := blit_cost h2
  omega

theorem appends_cost {xs : Bytes} {m : Mem UInt8} {buf : Buf} (h0 : 0 < buf.size) (hc : buf.cap = buf.size)
    (hn : buf.size + xs.length < 2 ^ 64) {s : Str.State}
    (h : Str.run ⟨m, [some buf]⟩ (xs.map fun x => .append 0 [x]) = .ok s) :
    s.mem.heap.length = m.heap.length + xs.length := by
  induction xs generalizing m buf with
  | nil => cases h; rfl
  | cons x xs ih =>
    simp only [List.map_cons] at h
    unfold Str.run at h
    obtain ⟨s1, h1, h⟩ := Res.bind_eq_ok.1 h
    simp only [Str.step, Str.onVar, Vec.getVar, List.getElem?_cons_zero, Res.bind_ok] at h1
    obtain ⟨⟨m1, b1⟩, h2, h1⟩ := Res.bind_eq_ok.1 h1
    cases h1
    simp only [List.length_cons] at hn ⊢
    have hc' := append_cost h0 hc (by omega) h2
    have := ih (m := m1) (buf := b1) (by omega) (by omega) (by omega) h
    omega

/-! ## Strings with enough room -/

theorem append_room {m m' : Mem UInt8} {buf buf' : Buf} {xs : Bytes} (hc : Str.length buf + xs.length + 1 ≤ buf.cap)
    (hn : buf.cap < 2 ^ 64) (h : Str.append m buf (.ext xs) = .ok (m', buf')) :
    m'.heap.length = m.heap.length ∧ Str.length buf' = Str.length buf + xs.length ∧ buf'.cap = buf.cap := by
  unfold Str.append at h
  obtain ⟨⟨m1, b1⟩, h1, h⟩ := Res.bind_eq_ok.1 h
  obtain ⟨ys, _, h⟩ := Res.bind_eq_ok.1 h
  obtain ⟨m2, h2, h⟩ := Res.bind_eq_ok.1 h
  cases h
  rw [show Str.Src.len (.ext xs) = xs.length from rfl, Nat.mod_eq_of_lt (by omega)] at h1
  unfold Str.resize Str.reserve at h1
  rw [Nat.mod_eq_of_lt (by omega), if_neg (by omega), Res.bind_ok] at h1
  obtain ⟨m3, h3, h1⟩ := Res.bind_eq_ok.1 h1
  cases h1
  have := poke_cost h3
  have := blit_cost h2
  refine ⟨by omega, by simp [Str.length], rfl⟩

/-- The empty string that a program begins with. -/
theorem first (ops : List Str.Op) :
    Str.run ⟨Mem.empty, []⟩ (.ofBytes [] :: ops) =
      Str.run ⟨⟨[some [some 0]], 0, 0⟩, [some ⟨some 0, 1, 1⟩]⟩ ops := rfl

theorem reserve_room {m m' : Mem UInt8} {buf buf' : Buf} {n : Nat} (hn : n + 1 < 2 ^ 64) (hc : buf.cap < 2 ^ 64)
    (h : Str.reserve m buf n = .ok (m', buf')) : n + 1 ≤ buf'.cap ∧ buf'.cap < 2 ^ 64 ∧ Str.length buf' = Str.length buf := by
  unfold Str.reserve at h
  rw [Nat.mod_eq_of_lt hn] at h
  split at h
  · have hb := (newBuf_cost (sz := 1) m (n + 1)).2.2.2
    revert h
    generalize newBuf 1 m (n + 1) = q at hb ⊢
    intro h
    obtain ⟨m0, new⟩ := q
    simp only at hb h
    obtain ⟨xs, _, h⟩ := Res.bind_eq_ok.1 h
    obtain ⟨m3, h3, h⟩ := Res.bind_eq_ok.1 h
    obtain ⟨m4, h4, h⟩ := Res.bind_eq_ok.1 h
    obtain ⟨m5, h5, h⟩ := Res.bind_eq_ok.1 h
    cases h
    exact ⟨by simp only; omega, by simp only; omega, rfl⟩
  · cases h
    exact ⟨by omega, hc, rfl⟩

theorem appends_room {xss : List Bytes} {m : Mem UInt8} {buf : Buf}
    (hc : Str.length buf + (xss.map List.length).sum + 1 ≤ buf.cap) (hn : buf.cap < 2 ^ 64) {s : Str.State}
    (h : Str.run ⟨m, [some buf]⟩ (xss.map fun xs => .append 0 xs) = .ok s) :
    s.mem.heap.length = m.heap.length := by
  induction xss generalizing m buf with
  | nil => cases h; rfl
  | cons xs xss ih =>
    simp only [List.map_cons, List.sum_cons] at h hc
    unfold Str.run at h
    obtain ⟨s1, h1, h⟩ := Res.bind_eq_ok.1 h
    simp only [Str.step, Str.onVar, Vec.getVar, List.getElem?_cons_zero, Res.bind_ok] at h1
    obtain ⟨⟨m1, b1⟩, h2, h1⟩ := Res.bind_eq_ok.1 h1
    cases h1
    have hc' := append_room (by omega) hn h2
    have := ih (m := m1) (buf := b1) (by omega) (by omega) h
    omega

end Coil.Growth
