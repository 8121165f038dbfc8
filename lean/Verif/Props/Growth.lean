import Verif.Proofs.Growth
import Verif.Props.Vector
import Verif.Props.String

/-!
# C67: the cost of growing

The elements that a program constructs are counted by `ctors` of the memory, its allocations by the length of the heap
(a freed block keeps its number).
-/

namespace Coil

open Spec Growth

variable {α : Type}

/-! ## Vectors -/

/-- **C67 (amortised cost).** `p` pushes to a vector that was empty, with any pops among them, construct the `p` new
elements and move fewer than `4 p` old ones, over at most logarithmically many allocations. -/
theorem C67_vector_partial {sz : Nat} {moved : α → α} {dflt : α} {ops : List (Vec.Op α)} (ho : ∀ op ∈ ops, Stack op)
    (h1 : 0 < pushes ops) (hp : pushes ops * 3 < 2 ^ 64) {s : Vec.State α}
    (h : Vec.exec sz moved dflt (.create 0 :: ops) = .ok s) :
    pushes ops ≤ s.mem.ctors ∧ s.mem.ctors - pushes ops < 4 * pushes ops ∧
      2 ^ ((s.mem.heap.length - 2) / 2) ≤ pushes ops := by
  unfold Vec.exec Vec.run Vec.step at h
  have hb : Mem.newBuf sz (Mem.empty : Mem α) 0 = (Mem.empty, ⟨none, 0, 0⟩) := by simp [Mem.newBuf]
  simp only [hb, Res.bind_ok, List.nil_append] at h
  obtain ⟨m, buf, a, rfl, hg⟩ := run_grown (m0 := Mem.empty) (a := 0) (p := 0) ho
    ⟨rfl, Nat.le_refl _, Nat.le_refl _, by intro b hb; omega, rfl, Nat.le_refl _⟩ (by omega) h
  rw [Nat.zero_add] at hg
  have hc := hg.ctors
  have hl := hg.blocks
  simp only [show (Mem.empty : Mem α).ctors = 0 from rfl, show (Mem.empty : Mem α).heap.length = 0 from rfl] at hc hl
  simp only
  cases a with
  | zero =>
    simp only [moves] at hc
    refine ⟨by omega, by omega, ?_⟩
    rw [show (m.heap.length - 2) / 2 = 0 by omega]
    exact h1
  | succ b =>
    have hr := hg.reached b rfl
    have hm := moves_le b
    refine ⟨by omega, by omega, ?_⟩
    cases b with
    | zero =>
      rw [show (m.heap.length - 2) / 2 = 0 by omega]
      exact h1
    | succ c =>
      have hw := caps_pow c
      have : 2 ^ ((m.heap.length - 2) / 2) ≤ 2 ^ (c / 2) := Nat.pow_le_pow_right (by omega) (by omega)
      omega

-- Ten pushes with two pops among them: 16 elements moved over six allocations.
def demoStack : List (Vec.Op Nat) :=
  (List.range 5).map (.pushBack 0) ++ [.popBack 0, .popBack 0] ++ (List.range 5).map (.pushBack 0)

example : (∀ op ∈ demoStack, Stack op) ∧ pushes demoStack = 10 ∧
    (Vec.exec 8 (fun _ => 0) 0 (.create 0 :: demoStack)).bind (fun s => .ok (s.mem.ctors, s.mem.heap.length)) =
      .ok (26, 6) := by
  refine ⟨?_, rfl, by decide +kernel⟩
  intro op h
  simp [demoStack, List.range, List.range.loop] at h
  rcases h with rfl | rfl | rfl | rfl | rfl | rfl | rfl | rfl | rfl | rfl | rfl <;> trivial

/-- **C67 (reserved).** A vector made with room for `n` elements takes up to `n` pushes without a move and without an
allocation beyond the first one. -/
theorem C67_vector_reserved {sz n : Nat} {moved : α → α} {dflt : α} {ops : List (Vec.Op α)} (ho : ∀ op ∈ ops, Stack op)
    (hp : pushes ops ≤ n) {s : Vec.State α} (h : Vec.exec sz moved dflt (.create n :: ops) = .ok s) :
    s.mem.ctors = pushes ops ∧ s.mem.heap.length ≤ 1 := by
  unfold Vec.exec Vec.run Vec.step at h
  have hb := newBuf_cost (sz := sz) (Mem.empty : Mem α) n
  simp only [Res.bind_ok, List.nil_append] at h
  have := run_reserved ho (by omega) h
  simp only [show (Mem.empty : Mem α).ctors = 0 from rfl, show (Mem.empty : Mem α).heap.length = 0 from rfl] at hb
  omega

example : (Vec.exec 8 (fun _ => 0) 0 (.create 10 :: demoStack)).bind (fun s => .ok (s.mem.ctors, s.mem.heap.length)) =
    .ok (10, 1) := by decide +kernel

/-! ## Strings -/

/-- **C67 (strings, reserved).** After `reserve n`, appending texts of at most `n` bytes in all allocates nothing. -/
theorem C67_string_reserved {n : Nat} (hn : n + 1 < 2 ^ 64) {xss : List Bytes} (hx : (xss.map List.length).sum ≤ n)
    {s0 s : Str.State} (h0 : Str.exec [.ofBytes [], .reserve 0 n] = .ok s0)
    (h : Str.exec (.ofBytes [] :: .reserve 0 n :: xss.map fun xs => .append 0 xs) = .ok s) :
    s.mem.heap.length = s0.mem.heap.length := by
  rw [Str.exec, first, Str.run] at h0 h
  obtain ⟨s2, h2, h0⟩ := Res.bind_eq_ok.1 h0
  rw [h2, Res.bind_ok] at h
  cases h0
  simp only [Str.step, Str.onVar, Vec.getVar, List.getElem?_cons_zero, Res.bind_ok] at h2
  obtain ⟨⟨m1, b1⟩, h3, h2⟩ := Res.bind_eq_ok.1 h2
  cases h2
  have hr := reserve_room hn (by decide) h3
  rw [show Str.length ⟨some 0, 1, 1⟩ = 0 from rfl] at hr
  exact appends_room (m := m1) (buf := b1) (by omega) hr.2.1 h

example : (Str.exec (.ofBytes [] :: .reserve 0 9 :: [lit "abc", lit "", lit "defghi"].map fun xs => .append 0 xs)).bind
    (fun s => .ok s.mem.heap.length) = .ok 2 := by decide +kernel

/-- **C67 fails for strings.** Without `reserve`, every append of a byte is an allocation and a copy of the whole text:
the string grows to exactly the size it needs. -/
theorem C67_string_false (xs : Bytes) (hn : xs.length + 1 < 2 ^ 64) :
    ∃ s, Str.exec (.ofBytes [] :: xs.map fun x => .append 0 [x]) = .ok s ∧ s.mem.heap.length = xs.length + 1 := by
  have hs : ∀ (ys : Bytes), textRun [some (ys.map some)] (xs.map fun x => .append 0 [x]) = some [some ((ys ++ xs).map some)] := by
    induction xs with
    | nil => intro ys; simp [textRun]
    | cons x xs ih =>
      intro ys
      have := ih (by simp at hn; omega) (ys ++ [x])
      simp only [List.map_cons, textRun, textStep, textOf]
      simpa using this
  have hf : ∀ (ys : Bytes), ys.length + xs.length + 1 < 2 ^ 64 →
      TextFitsAll [some (ys.map some)] (xs.map fun x => .append 0 [x]) := by
    clear hn hs
    induction xs with
    | nil => intro ys _; trivial
    | cons x xs ih =>
      intro ys hl
      simp only [List.length_cons] at hl
      refine ⟨?_, ?_⟩
      · intro l hl'
        simp only [textOf, List.getElem?_cons_zero, Option.join_some, Option.some.injEq] at hl'
        subst hl'
        simp
        omega
      · intro e' he
        have := ih (ys ++ [x]) (by simp; omega)
        simp only [textStep, textOf, List.getElem?_cons_zero, Option.join_some, Option.map_some, Option.some.injEq] at he
        subst he
        simpa using this
  obtain ⟨s, h, _⟩ := C22_sequence (.ofBytes [] :: xs.map fun x => .append 0 [x])
    ⟨by simp [TextFits], fun e' he => by cases he; exact hf [] (by simpa using hn)⟩
    (fun op ho => by
      rcases List.mem_cons.1 ho with rfl | ho
      · exact id
      · obtain ⟨x, _, rfl⟩ := List.mem_map.1 ho
        exact id)
    (e := [some (xs.map some)]) (hs [])
  refine ⟨s, h, ?_⟩
  rw [Str.exec, first] at h
  have := appends_cost (by decide) rfl (by simp only; omega) h
  rw [this]
  simp
  omega

example : (Str.exec (.ofBytes [] :: (lit "abcdefgh").map fun x => .append 0 [x])).bind (fun s => .ok s.mem.heap.length) =
    .ok 9 := by decide +kernel

end Coil
