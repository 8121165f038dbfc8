import Verif.Proofs.VecProg
import Verif.Spec.Lexer

/-!
# Properties of vectors and buffers (C20, C21, C49)

A program is a list of statements on any number of vectors (`Vec.Op`); `Vec.run` executes it on the heap. The
specification is `Spec.seqRun`: each variable is a plain list. `FitsAll` says that no requested byte count
exceeds `size_t`. `moved` is the state in which a moved-from element is left and is arbitrary.
-/

namespace Coil
open Spec Mem

variable {α : Type}

/-- A program that starts with no vectors and an empty heap. -/
abbrev Vec.exec (sz : Nat) (moved : α → α) (dflt : α) (ops : List (Vec.Op α)) : Res (Vec.State α) :=
  Vec.run sz moved dflt ⟨Mem.empty, []⟩ ops

/-- What the public interface shows of a vector variable: the size, the capacity, and `v[i]` for each index. -/
def Vec.Shows (s : Vec.State α) (v : Nat) (l : List α) : Prop :=
  ∃ buf, Vec.getVar s.vars v = .ok buf ∧ buf.size = l.length ∧ l.length ≤ buf.cap ∧
    ∀ (i : Nat) x, l[i]? = some x → readElem s.mem buf i = .ok x

/-- All variables of a state show the given sequences; destroyed ones are destroyed. -/
def Vec.ShowsAll (s : Vec.State α) (e : Seqs α) : Prop :=
  s.vars.length = e.length ∧ (∀ v l, seqOf e v = some l → Vec.Shows s v l) ∧
    ∀ v : Nat, seqOf e v = none → Vec.getVar s.vars v = .ub .deadObject

theorem Vec.Inv.shows {sz : Nat} {s : Vec.State α} {e : Seqs α} {leak : Nat} (h : Vec.Inv sz s e leak) : Vec.ShowsAll s e := by
  refine ⟨h.len, ?_, ?_⟩
  · intro v l hv
    obtain ⟨buf, h1, _, _, h2⟩ := h.getVar hv
    exact ⟨buf, h1, h2.size.1, h2.size.2, fun i x hi => readElem_spec h2 hi⟩
  · intro v hv
    unfold Vec.getVar
    cases hx : s.vars[v]? with
    | none => rfl
    | some o =>
      cases o with
      | none => rfl
      | some buf =>
        obtain ⟨l, h1, _⟩ := h.own v buf hx
        simp [seqOf, h1] at hv

/-! ## C20 -/

/-- **C20.** Every program on vectors whose preconditions hold runs without undefined behaviour and leaves every vector
with the elements of the corresponding plain sequence. -/
theorem C20_sequence {sz : Nat} (hsz : 0 < sz) (moved : α → α) (dflt : α) (ops : List (Vec.Op α)) {e : Seqs α}
    (hf : FitsAll sz dflt [] ops) (hs : seqRun dflt [] ops = some e) :
    ∃ s, Vec.exec sz moved dflt ops = .ok s ∧ Vec.ShowsAll s e := by
  obtain ⟨s, h1, h2⟩ := Vec.run_spec hsz (moved := moved) (Vec.Inv.init sz) hf hs
  exact ⟨s, h1, h2.shows⟩

/-- **C20 (preconditions).** The preconditions are necessary: a program that violates one (a destroyed vector, `popBack` of an empty
one, an index out of range) has undefined behaviour. -/
theorem C20_undefined_iff {sz : Nat} (hsz : 0 < sz) (moved : α → α) (dflt : α) (ops : List (Vec.Op α))
    (hf : FitsAll sz dflt [] ops) : (∃ u, Vec.exec sz moved dflt ops = .ub u) ↔ seqRun dflt [] ops = none := by
  constructor
  · rintro ⟨u, h⟩
    cases hs : seqRun dflt [] ops with
    | none => rfl
    | some e =>
      obtain ⟨s, h1, _⟩ := C20_sequence hsz moved dflt ops hf hs
      rw [h] at h1
      cases h1
  · exact Vec.run_misuse hsz (Vec.Inv.init sz) hf

example : Vec.exec 8 (fun _ => 0) 0 [.ofRange [1, 2], .clear 0, .write 0 1 5] = .ub .deadObject ∧
    seqRun 0 [] [.ofRange [1, 2], .clear 0, .write 0 1 5] = none := by
  decide +kernel

/-- A program for the examples: growth, a copy, an assignment to itself, moves, writes to one of the copies. -/
def demoVec : List (Vec.Op Nat) :=
  [.create 0, .pushBack 0 1, .pushBack 0 2, .copyNew 0, .pushBack 0 3, .write 1 0 9, .copyAssign 1 1, .moveNew 0,
    .pushBack 0 7, .moveAssign 2 1, .resize 2 5, .popBack 2, .ofRange [4, 4], .clear 3]

example : seqRun 0 [] demoVec = some [some [7], some [1, 2, 3], some [9, 2, 0, 0], some []] ∧
    (Vec.exec 8 (fun _ => 0) 0 demoVec).bind (fun s => .ok (s.mem.heap.length, s.mem.ctors, s.mem.dtors)) =
      .ok (8, 18, 10) := by
  decide +kernel

/-- **C20 (memory).** In such a program every live heap block belongs to exactly one live vector: no block is shared between two
vectors and none is leaked. -/
theorem C20_blocks {sz : Nat} (hsz : 0 < sz) (moved : α → α) (dflt : α) (ops : List (Vec.Op α)) {e : Seqs α}
    (hf : FitsAll sz dflt [] ops) (hs : seqRun dflt [] ops = some e) :
    ∃ s, Vec.exec sz moved dflt ops = .ok s ∧
      ∀ (b : Nat) c, s.mem.heap[b]? = some (some c) →
        ∃ v buf, (Vec.getVar s.vars v = .ok buf ∧ buf.ptr = some b) ∧
          ∀ w buf', Vec.getVar s.vars w = .ok buf' → buf'.ptr = some b → w = v := by
  obtain ⟨s, h1, h2⟩ := Vec.run_spec hsz (moved := moved) (Vec.Inv.init sz) hf hs
  have hget : ∀ w buf', Vec.getVar s.vars w = .ok buf' → s.vars[w]? = some (some buf') := by
    intro w buf' hw
    unfold Vec.getVar at hw
    split at hw
    · rename_i b hb
      cases hw
      exact hb
    · cases hw
  refine ⟨s, h1, fun b c hc => ?_⟩
  obtain ⟨v, buf, hv, hp⟩ := h2.live b c hc
  exact ⟨v, buf, ⟨by simp [Vec.getVar, hv], hp⟩, fun w buf' hw hp' => h2.dist w v buf' buf b (hget w buf' hw) hv hp' hp⟩

theorem Vec.equalLoop_spec {sz : Nat} {eq : α → α → Bool} {m : Mem α} {a b : Buf} {xs ys : List α}
    (ha : Owns sz m a xs) (hb : Owns sz m b ys) (hl : xs.length = ys.length) (k i : Nat) (hk : i + k = xs.length) :
    Vec.equalLoop eq m a b k i = .ok ((List.zipWith eq (xs.drop i) (ys.drop i)).all id) := by
  induction k generalizing i with
  | zero =>
    rw [List.drop_of_length_le (by omega)]
    rfl
  | succ k ih =>
    have h1 : i < xs.length := by omega
    have h2 : i < ys.length := by omega
    rw [Vec.equalLoop, readElem_spec ha (List.getElem?_eq_getElem h1), readElem_spec hb (List.getElem?_eq_getElem h2),
      List.drop_eq_getElem_cons h1, List.drop_eq_getElem_cons h2]
    simp only [Res.bind_ok, List.zipWith_cons_cons, List.all_cons, id]
    cases eq xs[i] ys[i]
    · rfl
    · simp only [if_true, Bool.true_and]
      exact ih (i + 1) (by omega)

/-- **C51.** After any program, `a == b` holds for two vectors exactly if they have equally many elements and these are pairwise
equal under the comparison of the element type. -/
theorem C51_equality {sz : Nat} (hsz : 0 < sz) (moved : α → α) (dflt : α) (ops : List (Vec.Op α)) {e : Seqs α}
    (hf : FitsAll sz dflt [] ops) (hs : seqRun dflt [] ops = some e) (eq : α → α → Bool) {v w : Nat} {xs ys : List α}
    (hv : seqOf e v = some xs) (hw : seqOf e w = some ys) :
    ∃ s a b r, Vec.exec sz moved dflt ops = .ok s ∧ Vec.getVar s.vars v = .ok a ∧ Vec.getVar s.vars w = .ok b ∧
      Vec.equal eq s.mem a b = .ok r ∧ (r = true ↔ Forall2 (fun x y => eq x y = true) xs ys) := by
  obtain ⟨s, h1, h2⟩ := Vec.run_spec hsz (moved := moved) (Vec.Inv.init sz) hf hs
  obtain ⟨a, ha1, _, _, ha2⟩ := h2.getVar hv
  obtain ⟨b, hb1, _, _, hb2⟩ := h2.getVar hw
  have key : ∀ (xs ys : List α), xs.length = ys.length →
      ((List.zipWith eq xs ys).all id = true ↔ Forall2 (fun x y => eq x y = true) xs ys) := by
    intro xs
    induction xs with
    | nil =>
      intro ys h
      cases ys with
      | nil => exact ⟨fun _ => .nil, fun _ => rfl⟩
      | cons y ys => simp at h
    | cons x xs ih =>
      intro ys h
      cases ys with
      | nil => simp at h
      | cons y ys =>
        simp only [List.length_cons, Nat.add_right_cancel_iff] at h
        simp only [List.zipWith_cons_cons, List.all_cons, id, Bool.and_eq_true]
        constructor
        · rintro ⟨h3, h4⟩
          exact .cons h3 ((ih ys h).1 h4)
        · intro h3
          cases h3 with
          | cons h4 h5 => exact ⟨h4, (ih ys h).2 h5⟩
  have flen : ∀ (xs ys : List α), Forall2 (fun x y => eq x y = true) xs ys → xs.length = ys.length := by
    intro xs ys h
    induction h with
    | nil => rfl
    | cons _ _ ih => simp [ih]
  by_cases hl : xs.length = ys.length
  · refine ⟨s, a, b, _, h1, ha1, hb1, ?_, key xs ys hl⟩
    unfold Vec.equal
    rw [if_neg (by rw [ha2.size.1, hb2.size.1]; exact fun h => h hl),
      Vec.equalLoop_spec ha2 hb2 hl _ 0 (by rw [ha2.size.1]; omega)]
    rfl
  · refine ⟨s, a, b, false, h1, ha1, hb1, ?_, ?_⟩
    · unfold Vec.equal
      rw [if_pos (by rw [ha2.size.1, hb2.size.1]; exact hl)]
    · exact ⟨fun h => (by simp at h), fun h => absurd (flen xs ys h) hl⟩

example : (Vec.exec 8 (fun _ => 0) 0 [.ofRange [1, 2], .copyNew 0, .copyNew 0, .write 2 1 5]).bind (fun s => do
    let a ← Vec.getVar s.vars 0
    let b ← Vec.getVar s.vars 1
    let c ← Vec.getVar s.vars 2
    let x ← Vec.equal (fun p q => p == q) s.mem a b
    let y ← Vec.equal (fun p q => p == q) s.mem a c
    .ok (x, y)) = .ok (true, false) := by
  decide +kernel

/-! ## C21 -/

/-- **C21.** At each moment the constructed and not yet destroyed elements are exactly those of the live vectors. (That an
element is never destroyed twice or before its construction is part of C20: it would be undefined behaviour.) -/
theorem C21_balance {sz : Nat} (hsz : 0 < sz) (moved : α → α) (dflt : α) (ops : List (Vec.Op α)) {e : Seqs α}
    (hf : FitsAll sz dflt [] ops) (hs : seqRun dflt [] ops = some e) :
    ∃ s, Vec.exec sz moved dflt ops = .ok s ∧ s.mem.ctors = s.mem.dtors + total e := by
  obtain ⟨s, h1, h2⟩ := Vec.run_spec hsz (moved := moved) (Vec.Inv.init sz) hf hs
  exact ⟨s, h1, h2.count⟩

/-- **C21 (at the end).** If all vectors are destroyed at the end, each constructed element was destroyed and every
block of memory was freed. -/
theorem C21_all_destroyed {sz : Nat} (hsz : 0 < sz) (moved : α → α) (dflt : α) (ops : List (Vec.Op α)) {e : Seqs α}
    (hf : FitsAll sz dflt [] ops) (hs : seqRun dflt [] ops = some e) (hd : ∀ o ∈ e, o = none) :
    ∃ s, Vec.exec sz moved dflt ops = .ok s ∧ s.mem.ctors = s.mem.dtors ∧ ∀ o ∈ s.mem.heap, o = none := by
  obtain ⟨s, h1, h2⟩ := Vec.run_spec hsz (moved := moved) (Vec.Inv.init sz) hf hs
  have ht : total e = 0 := by
    have : ∀ (e : Seqs α), (∀ o ∈ e, o = none) → total e = 0 := by
      intro e
      induction e with
      | nil => exact fun _ => rfl
      | cons o e ih =>
        intro h
        have h1 := h o (by simp)
        subst h1
        have h2 := ih (fun o ho => h o (by simp [ho]))
        simp only [total] at h2
        simp [total, h2]
    exact this e hd
  refine ⟨s, h1, by rw [h2.count, ht]; rfl, ?_⟩
  intro o ho
  cases o with
  | none => rfl
  | some c =>
    obtain ⟨b, hb⟩ := List.getElem?_of_mem ho
    obtain ⟨v, buf, hv, _⟩ := h2.live b c hb
    obtain ⟨l, hl, _⟩ := h2.own v buf hv
    have := hd _ (List.mem_of_getElem? hl)
    simp at this

example : (Vec.exec 8 (fun _ => 0) 0 (demoVec ++ [.destroy 0, .destroy 2, .destroy 1, .destroy 3])).bind
      (fun s => .ok (s.mem.heap, s.mem.ctors, s.mem.dtors)) = .ok (List.replicate 8 none, 18, 18) := by
  decide +kernel

/-! ## C49 -/

/-- The buffer has room for `n` elements. -/
def HasRoom (m : Mem α) (buf : Buf) (n : Nat) : Prop :=
  n = 0 ∨ ∃ b c, buf.ptr = some b ∧ m.cells b = .ok c ∧ n ≤ c.length

/-- **C49 (exact condition).** A new buffer reports the requested capacity, but has room for it if and only if the number of
bytes is below 2^64. Missing for the full claim: larger requests, for which it is false. -/
theorem C49_room_partial {sz : Nat} (hsz : 0 < sz) (m : Mem α) (n : Nat) :
    (newBuf sz m n).2.cap = n ∧ (HasRoom (newBuf sz m n).1 (newBuf sz m n).2 n ↔ n * sz < 2 ^ 64) := by
  unfold newBuf
  split
  · rename_i h
    refine ⟨rfl, ?_⟩
    constructor
    · rintro (h0 | ⟨b, c, h1, h2, h3⟩)
      · subst h0; simp
      · simp only [Option.some.injEq] at h1
        subst h1
        simp [Mem.cells] at h2
        subst h2
        simp only [List.length_replicate] at h3
        have h4 := (Nat.le_div_iff_mul_le hsz).1 h3
        have h5 := Nat.mod_lt (n * sz) (show 0 < 2 ^ 64 by decide)
        omega
    · intro hlt
      refine .inr ⟨_, _, rfl, by simp [Mem.cells]; rfl, ?_⟩
      rw [List.length_replicate, Nat.mod_eq_of_lt hlt, Nat.mul_div_cancel _ hsz]
      exact Nat.le_refl _
  · rename_i h
    refine ⟨rfl, ?_⟩
    constructor
    · rintro (h0 | ⟨b, c, h1, h2, h3⟩)
      · subst h0; simp
      · simp at h1
    · intro hlt
      rw [Nat.mod_eq_of_lt hlt] at h
      left
      have : n * sz = 0 := by omega
      rcases Nat.mul_eq_zero.1 this with h | h
      · exact h
      · omega

/-- **C49 is false of the code.** A buffer for 2^61 elements of 8 bytes has no memory at all, and its first use is a null pointer
dereference. -/
theorem C49_room_false :
    (newBuf 8 (Mem.empty : Mem Nat) (2 ^ 61)).2 = ⟨none, 2 ^ 61, 0⟩ ∧
      ¬ HasRoom (newBuf 8 (Mem.empty : Mem Nat) (2 ^ 61)).1 (newBuf 8 (Mem.empty : Mem Nat) (2 ^ 61)).2 (2 ^ 61) ∧
      Vec.exec 8 (fun _ => 0) 0 [.create (2 ^ 61), .pushBack 0 5] = .ub .nullDeref := by
  refine ⟨by decide +kernel, ?_, by decide +kernel⟩
  rw [(C49_room_partial (by decide) _ _).2]
  decide

example : (newBuf 8 (Mem.empty : Mem Nat) 3) = (⟨[some [none, none, none]], 0, 0⟩, ⟨some 0, 3, 0⟩) := by
  decide +kernel

end Coil
