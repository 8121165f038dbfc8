import Verif.Proofs.VecProg
import Verif.Spec.VectorThrow

/-! # Vectors whose elements throw: each operation, and programs -/

namespace Coil
open Spec Mem
namespace Vec

variable {α : Type}

/-! ## Without exceptions -/

theorem newBufT_none (sz : Nat) (m : Mem α) (n : Nat) :
    newBufT sz m n none = some ((newBuf sz m n).1, (newBuf sz m n).2, none) := by
  unfold newBufT tick
  split <;> rfl

theorem tickMove_none (b : Bool) : tickMove b none = some none := by
  cases b <;> rfl

/-- A result without an exception. -/
def fine (r : Res (Mem α × Buf)) : Res (Thrown α) := r.bind (fun p => .ok (p.1, p.2, some none))

theorem rbind_ok {β γ : Type} (a : β) (g : β → Res γ) : Res.bind (.ok a) g = g a := rfl

theorem moveLoopT_none (b : Bool) (moved spoilt : α → α) (k i : Nat) (m : Mem α) (buf new : Buf) :
    moveLoopT b moved spoilt k i m buf new none = fine (moveLoop moved k i m buf new) := by
  induction k generalizing i m new with
  | zero => rfl
  | succ k ih =>
    simp only [moveLoopT, moveLoop, tickMove_none, fine]
    cases readElem m buf i with
    | ub u => rfl
    | diverge => rfl
    | ok x =>
      simp only [Res.bind_ok]
      cases constructNext m new x with
      | ub u => rfl
      | diverge => rfl
      | ok p =>
        simp only [Res.bind_ok]
        cases writeElem p.1 buf i (moved x) with
        | ub u => rfl
        | diverge => rfl
        | ok q =>
          simp only [Res.bind_ok]
          exact ih _ _ _

theorem constructManyT_none (dflt : α) (k : Nat) (m : Mem α) (buf : Buf) :
    constructManyT dflt k m buf none = fine (constructMany dflt k m buf) := by
  induction k generalizing m buf with
  | zero => rfl
  | succ k ih =>
    simp only [constructManyT, constructMany, tick, fine]
    cases constructNext m buf dflt with
    | ub u => rfl
    | diverge => rfl
    | ok p => exact ih _ _

theorem fillFromT_none (xs : List α) (m : Mem α) (buf : Buf) :
    fillFromT xs m buf none = fine (fillFrom xs m buf) := by
  induction xs generalizing m buf with
  | nil => rfl
  | cons x xs ih =>
    simp only [fillFromT, fillFrom, tick, fine]
    cases constructNext m buf x with
    | ub u => rfl
    | diverge => rfl
    | ok p => exact ih _ _

theorem copyLoopT_none (k i : Nat) (m : Mem α) (src new : Buf) :
    copyLoopT k i m src new none = fine (copyLoop k i m src new) := by
  induction k generalizing i m new with
  | zero => rfl
  | succ k ih =>
    simp only [copyLoopT, copyLoop, tick, fine]
    cases readElem m src i with
    | ub u => rfl
    | diverge => rfl
    | ok x =>
      simp only [Res.bind_ok]
      cases constructNext m new x with
      | ub u => rfl
      | diverge => rfl
      | ok p => exact ih _ _ _

theorem growT_none (sz : Nat) (b : Bool) (moved spoilt : α → α) (m : Mem α) (buf : Buf) (n : Nat) :
    growT sz b moved spoilt m buf n none = fine (grow sz moved m buf n) := by
  unfold growT grow
  rw [newBufT_none]
  simp only [moveLoopT_none, fine]
  cases moveLoop moved buf.size 0 (newBuf sz m n).1 buf (newBuf sz m n).2 with
  | ub u => rfl
  | diverge => rfl
  | ok p =>
    simp only [Res.bind_ok, rbind_ok]
    cases destructMany buf.size p.1 buf with
    | ub u => rfl
    | diverge => rfl
    | ok q =>
      simp only [Res.bind_ok, rbind_ok]
      cases freeBuf q.1 q.2 <;> rfl

theorem reserveT_none (sz : Nat) (b : Bool) (moved spoilt : α → α) (m : Mem α) (buf : Buf) (n : Nat) :
    reserveT sz b moved spoilt m buf n none = fine (reserve sz moved m buf n) := by
  unfold reserveT reserve
  split
  · exact growT_none sz b moved spoilt m buf n
  · rfl

theorem resizeT_none (sz : Nat) (b : Bool) (moved spoilt : α → α) (dflt : α) (m : Mem α) (buf : Buf) (n : Nat) :
    resizeT sz b moved spoilt dflt m buf n none = fine (resize sz moved dflt m buf n) := by
  simp only [resizeT, resize, reserveT_none, fine]
  cases reserve sz moved m buf n with
  | ub u => rfl
  | diverge => rfl
  | ok p =>
    simp only [Res.bind_ok, rbind_ok]
    cases destructMany (p.2.size - n) p.1 p.2 with
    | ub u => rfl
    | diverge => rfl
    | ok q => exact constructManyT_none dflt _ _ _

theorem pushBackT_none (sz : Nat) (b : Bool) (moved spoilt : α → α) (m : Mem α) (buf : Buf) (x : α) :
    pushBackT sz b moved spoilt m buf x none = fine (pushBack sz moved m buf x) := by
  have hg : growForOneT sz b moved spoilt m buf none = fine (growForOne sz moved m buf) := by
    unfold growForOneT growForOne
    split
    · exact growT_none sz b moved spoilt m buf _
    · rfl
  simp only [pushBackT, pushBack, hg, fine]
  cases growForOne sz moved m buf with
  | ub u => rfl
  | diverge => rfl
  | ok p =>
    simp only [Res.bind_ok, rbind_ok, tickMove_none]
    rfl

theorem onVarT_none (s : State α) (v : Nat) {g : Mem α → Buf → Res (Thrown α)} {h : Mem α → Buf → Res (Mem α × Buf)}
    (hg : ∀ m b, g m b = fine (h m b)) : onVarT s v g = (onVar s v h).bind (fun s' => .ok (s', false)) := by
  unfold onVarT onVar
  cases getVar s.vars v with
  | ub u => rfl
  | diverge => rfl
  | ok buf =>
    simp only [Res.bind_ok, hg, fine]
    cases h s.mem buf <;> rfl

theorem stepT_none (sz : Nat) (b : Bool) (moved spoilt : α → α) (torn : α → α → α) (dflt : α) (s : State α) (op : Op α) :
    stepT sz b moved spoilt torn dflt s op none = (step sz moved dflt s op).bind (fun s' => .ok (s', false)) := by
  cases op with
  | create n => simp only [stepT, newBufT_none]; rfl
  | ofRange xs =>
    simp only [stepT, step, ofRangeT, ofRange, newBufT_none, fillFromT_none, fine]
    cases fillFrom xs (newBuf sz s.mem xs.length).1 (newBuf sz s.mem xs.length).2 <;> rfl
  | copyNew src =>
    simp only [stepT, step, copyNewT, copyNew, newBufT_none, copyLoopT_none, fine]
    cases getVar s.vars src with
    | ub u => rfl
    | diverge => rfl
    | ok sb =>
      simp only [Res.bind_ok, rbind_ok]
      cases copyLoop sb.size 0 (newBuf sz s.mem sb.size).1 sb (newBuf sz s.mem sb.size).2 <;> rfl
  | copyAssign dst src =>
    simp only [stepT, step, copyNewT, copyNew, newBufT_none, copyLoopT_none, fine]
    cases getVar s.vars src with
    | ub u => rfl
    | diverge => rfl
    | ok sb =>
      simp only [Res.bind_ok, rbind_ok]
      cases copyLoop sb.size 0 (newBuf sz s.mem sb.size).1 sb (newBuf sz s.mem sb.size).2 with
      | ub u => rfl
      | diverge => rfl
      | ok p =>
        simp only [Res.bind_ok, rbind_ok, finishNew]
        cases getVar s.vars dst with
        | ub u => rfl
        | diverge => rfl
        | ok db =>
          simp only [Res.bind_ok, rbind_ok]
          cases destroy p.1 db <;> rfl
  | reserve v n => exact onVarT_none s v (fun m b' => reserveT_none sz b moved spoilt m b' n)
  | resize v n => exact onVarT_none s v (fun m b' => resizeT_none sz b moved spoilt dflt m b' n)
  | pushBack v x => exact onVarT_none s v (fun m b' => pushBackT_none sz b moved spoilt m b' x)
  | write v i x =>
    refine onVarT_none s v (g := fun m b' => writeT torn m b' i x none)
      (h := fun m b' => do let m' ← writeElem m b' i x; .ok (m', b')) (fun m b' => ?_)
    simp only [writeT, tick, fine]
    cases writeElem m b' i x <;> rfl
  | moveNew src => rfl
  | moveAssign dst src => rfl
  | popBack v => rfl
  | clear v => rfl
  | destroy v => rfl

/-! ## One operation -/

/-- What is left of a fuse is not longer. -/
def Shorter (f' f : Fuse) : Prop := ∀ i, f' = some i → ∃ i', f = some i' ∧ i ≤ i'

theorem Shorter.refl (f : Fuse) : Shorter f f := fun i h => ⟨i, h, Nat.le_refl i⟩

theorem Shorter.trans {f1 f2 f3 : Fuse} (h : Shorter f1 f2) (h' : Shorter f2 f3) : Shorter f1 f3 := by
  intro i hi
  obtain ⟨j, hj, hij⟩ := h i hi
  obtain ⟨k, hk, hjk⟩ := h' j hj
  exact ⟨k, hk, Nat.le_trans hij hjk⟩

theorem tick_some {f f' : Fuse} (h : tick f = some f') : Shorter f' f ∧ (∀ i, f' = some i → f = some (i + 1)) := by
  cases f with
  | none => cases h; exact ⟨Shorter.refl none, by simp⟩
  | some k =>
    cases k with
    | zero => cases h
    | succ k =>
      cases h
      refine ⟨fun i hi => ⟨k + 1, rfl, ?_⟩, fun i hi => ?_⟩
      · cases hi; omega
      · cases hi; rfl

theorem tick_none {f : Fuse} (h : tick f = none) : f = some 0 := by
  cases f with
  | none => cases h
  | some k =>
    cases k with
    | zero => rfl
    | succ k => cases h

theorem tickMove_shorter {b : Bool} {f f' : Fuse} (h : tickMove b f = some f') : Shorter f' f := by
  cases b with
  | false => cases h; exact Shorter.refl f
  | true => exact (tick_some h).1

/-- What an operation on one buffer leaves: the buffer owns `l'`, other blocks are untouched, and `lost` objects are lost. -/
structure Left (sz : Nat) (m : Mem α) (buf : Buf) (l : List α) (m' : Mem α) (buf' : Buf) (l' : List α) (lost : Nat) : Prop where
  owns : Owns sz m' buf' l'
  frame : Frame m buf m' buf'
  bal : Bal m l.length m' (l'.length + lost)

theorem Left.refl {sz : Nat} {m : Mem α} {buf : Buf} {l : List α} (h : Owns sz m buf l) : Left sz m buf l m buf l 0 :=
  ⟨h, Frame.refl m buf, by unfold Bal; omega⟩

theorem cutAt_length {moved spoilt : α → α} {k : Nat} {l : List α} (hk : k < l.length) :
    (cutAt moved spoilt k l).length = l.length := by
  simp [cutAt]
  omega

theorem cutAt_cons {moved spoilt : α → α} {k : Nat} {x : α} {l : List α} :
    cutAt moved spoilt (k + 1) (x :: l) = moved x :: cutAt moved spoilt k l := by
  simp [cutAt]

theorem moveLoopT_spec {sz : Nat} {b : Bool} {moved spoilt : α → α} {k i : Nat} {m : Mem α} {buf new : Buf} {d rest acc : List α}
    {f : Fuse} (ho : Owns sz m buf (d ++ rest)) (hn : Owns sz m new acc) (hd : d.length = i) (hk : rest.length = k)
    (hcap : acc.length + k ≤ new.cap) (hdis : ∀ b, buf.ptr = some b → new.ptr ≠ some b) :
    ∃ m' new' r, moveLoopT b moved spoilt k i m buf new f = .ok (m', new', r) ∧ new'.ptr = new.ptr ∧ new'.cap = new.cap ∧
      (∀ b, buf.ptr ≠ some b → new.ptr ≠ some b → m'.heap[b]? = m.heap[b]?) ∧ m'.heap.length = m.heap.length ∧
      m'.dtors = m.dtors ∧
      ((∃ f', r = some f' ∧ Shorter f' f ∧ (b = true → ∀ j, f = some j → k ≤ j) ∧ Owns sz m' buf (d ++ rest.map moved) ∧
          Owns sz m' new' (acc ++ rest) ∧ m'.ctors = m.ctors + k) ∨
        (∃ j, r = none ∧ b = true ∧ f = some j ∧ j < k ∧ Owns sz m' buf (d ++ cutAt moved spoilt j rest) ∧
          Owns sz m' new' (acc ++ rest.take j) ∧ m'.ctors = m.ctors + j)) := by
  induction k generalizing i m new d rest acc f with
  | zero =>
    have : rest = [] := List.length_eq_zero_iff.1 hk
    subst this
    exact ⟨m, new, some f, rfl, rfl, rfl, fun _ _ _ => rfl, rfl, rfl,
      .inl ⟨f, rfl, Shorter.refl f, fun _ j _ => Nat.zero_le j, by simpa using ho, by simpa using hn, rfl⟩⟩
  | succ k ih =>
    obtain ⟨x, rest, rfl⟩ : ∃ x r, rest = x :: r := by
      cases rest with
      | nil => simp at hk
      | cons x r => exact ⟨x, r, rfl⟩
    simp only [List.length_cons, Nat.add_right_cancel_iff] at hk
    have hx : (d ++ x :: rest)[i]? = some x := by
      rw [List.getElem?_append_right (by omega), hd]
      simp
    by_cases hz : b = true ∧ f = some 0
    · obtain ⟨rfl, rfl⟩ := hz
      obtain ⟨m2, b1, b2, b3, b4, b5⟩ := writeElem_spec ho (i := i) (y := spoilt x) (by simp; omega)
      have e : (d ++ x :: rest).set i (spoilt x) = d ++ cutAt moved spoilt 0 (x :: rest) := by
        rw [List.set_append_right _ _ (by omega), hd]
        simp [cutAt]
      rw [e] at b2
      refine ⟨m2, new, none, by simp only [moveLoopT, readElem_spec ho hx, Res.bind_ok, tickMove, tick, if_true, b1],
        rfl, rfl, fun b h1 _ => b3.other b h1, b3.len, b5, .inr ⟨0, rfl, rfl, rfl, by omega, b2, ?_, by rw [b4]; rfl⟩⟩
      simpa using hn.frame (fun b hb => b3.other b (fun h => hdis b h hb))
    · obtain ⟨f', hf', hrel⟩ : ∃ f', tickMove b f = some f' ∧
          ((b = true → ∀ j, f' = some j → f = some (j + 1)) ∧ (b = true → ∀ j, f = some j → 0 < j ∧ f' = some (j - 1))) := by
        cases b with
        | false => exact ⟨f, rfl, by simp, by simp⟩
        | true =>
          cases f with
          | none => exact ⟨none, rfl, by simp, by simp⟩
          | some j =>
            cases j with
            | zero => exact absurd ⟨rfl, rfl⟩ hz
            | succ j => exact ⟨some j, rfl, by rintro _ j' h; cases h; rfl, by rintro _ j' h; cases h; exact ⟨by omega, rfl⟩⟩
      obtain ⟨m1, a1, a2, a3, a4, a5⟩ := constructNext_spec hn (by omega) x
      have ho1 : Owns sz m1 buf (d ++ x :: rest) := ho.frame (fun b hb => a3.other b (hdis b hb))
      obtain ⟨m2, b1, b2, b3, b4, b5⟩ := writeElem_spec ho1 (i := i) (y := moved x) (by simp; omega)
      have e : (d ++ x :: rest).set i (moved x) = (d ++ [moved x]) ++ rest := by
        rw [List.set_append_right _ _ (by omega), hd]
        simp
      rw [e] at b2
      have hn2 : Owns sz m2 { new with size := new.size + 1 } (acc ++ [x]) :=
        a2.frame (fun b hb => b3.other b (fun h => hdis b h hb))
      obtain ⟨m', new', r, c1, c2, c3, c4, c5, c6, c7⟩ := ih (i := i + 1) (f := f') b2 hn2 (by simp [hd]) hk (by simp; omega) hdis
      refine ⟨m', new', r, ?_, c2, c3, ?_, by rw [c5, b3.len, a3.len], by rw [c6, b5, a5], ?_⟩
      · simp only [moveLoopT, readElem_spec ho hx, hf', a1, b1, Res.bind_ok, c1]
      · intro b h1 h2
        rw [c4 b h1 h2, b3.other b h1, a3.other b h2]
      · rcases c7 with ⟨f2, g1, g0, g2, g3, g4, g5⟩ | ⟨j, g1, g2, g3, g4, g5, g6, g7⟩
        · refine .inl ⟨f2, g1, g0.trans (tickMove_shorter hf'), ?_, by simpa using g3, by simpa using g4, by rw [g5, b4, a4]; omega⟩
          intro hb j hj
          obtain ⟨h1, h2⟩ := hrel.2 hb j hj
          have := g2 hb _ h2
          omega
        · refine .inr ⟨j + 1, g1, g2, hrel.1 g2 j g3, by omega, ?_, by simpa using g6, by rw [g7, b4, a4]; omega⟩
          rw [cutAt_cons]
          simpa using g5

theorem newBufT_cases (sz : Nat) (m : Mem α) (n : Nat) (f : Fuse) :
    (newBufT sz m n f = none ∧ f = some 0) ∨
      ∃ f', newBufT sz m n f = some ((newBuf sz m n).1, (newBuf sz m n).2, f') ∧ Shorter f' f := by
  unfold newBufT
  split
  · cases f with
    | none => exact .inr ⟨none, rfl, Shorter.refl none⟩
    | some k =>
      cases k with
      | zero => exact .inl ⟨rfl, rfl⟩
      | succ k => exact .inr ⟨some k, rfl, (tick_some (f := some (k + 1)) rfl).1⟩
  · exact .inr ⟨f, rfl, Shorter.refl f⟩

theorem Frame.of_mem {m m1 : Mem α} {buf : Buf} (h : ∀ b, b < m.heap.length → buf.ptr ≠ some b → m1.heap[b]? = m.heap[b]?)
    (hm : m.heap.length ≤ m1.heap.length)
    (hl : ∀ b c, m1.heap[b]? = some (some c) → b < m.heap.length) : Frame m buf m1 buf := by
  refine ⟨h, hm, ?_, fun b hb => .inl hb⟩
  intro b c hb
  by_cases hp : buf.ptr = some b
  · exact .inl hp
  · exact .inr ⟨hl b c hb, hp⟩

/-- Growth: it completes, or the allocation fails, or a move throws; the last two only with a fuse. -/
theorem growT_spec {sz : Nat} (hsz : 0 < sz) {b : Bool} {moved spoilt : α → α} {m : Mem α} {buf : Buf} {l : List α}
    (h : Owns sz m buf l) {n : Nat} {f : Fuse} (hn : l.length ≤ n) (hf : n * sz < 2 ^ 64) :
    ∃ m' buf' r, growT sz b moved spoilt m buf n f = .ok (m', buf', r) ∧
      ((∃ f', r = some f' ∧ Shorter f' f ∧ buf'.cap = n ∧ Left sz m buf l m' buf' l 0) ∨
        (r = none ∧ f = some 0 ∧ Left sz m buf l m' buf' l 0) ∨
        (r = none ∧ b = true ∧ ∃ k, f = some (k + 1) ∧ k < l.length ∧ Left sz m buf l m' buf' (cutAt moved spoilt k l) k)) ∧
      (b = true → 0 < n → ∀ k, f = some (k + 1) → k < l.length → r = none ∧ Left sz m buf l m' buf' (cutAt moved spoilt k l) k) := by
  rcases newBufT_cases sz m n f with ⟨hnone, rfl⟩ | ⟨f1, hsome, hfn⟩
  · exact ⟨m, buf, none, by simp only [growT, hnone], .inr (.inl ⟨rfl, rfl, Left.refl h⟩), by simp⟩
  obtain ⟨m1, new, a1, a2, a3, a4, a5, a6, a7, a8, a9⟩ := newBuf_spec hsz m hf
  have hlt : ∀ b, buf.ptr = some b → b < m.heap.length := fun b hb => Owns.lt h hb
  have h1 : Owns sz m1 buf l := h.frame (fun b hb => a4 b (hlt b hb))
  have hdis : ∀ b, buf.ptr = some b → new.ptr ≠ some b := by
    intro b hb hnb
    have := a7 b hnb
    have := hlt b hb
    omega
  rw [a1] at hsome
  obtain ⟨m2, new2, r, b1, b2, b3, b4, b5, b6, b7⟩ := moveLoopT_spec (b := b) (moved := moved) (spoilt := spoilt) (d := [])
    (rest := l) (i := 0) (f := f1) (by simpa using h1) a2 rfl rfl (by simp [a3]; exact hn) hdis
  simp only [List.nil_append] at b7
  have hsize := h.size.1
  have hfuse : 0 < n → ∀ k, f = some (k + 1) → f1 = some k := by
    rintro hpos k rfl
    have hp : 0 < n * sz := Nat.mul_pos hpos hsz
    simp only [newBufT, tick, Nat.mod_eq_of_lt hf, if_pos hp, Option.map_some, Option.some.injEq, Prod.mk.injEq] at hsome
    exact hsome.2.2.symm
  rcases b7 with ⟨f2, rfl, g0, g2, g3, g4, g5⟩ | ⟨j, rfl, rfl, rfl, g4, g5, g6, g7⟩
  · obtain ⟨m3, c1, c2, c3, c4, c5⟩ := destructMany_spec g3 (k := l.length) (by simp)
    obtain ⟨m4, d1, d2, d3, d4, d5⟩ := freeBuf_spec c2
    refine ⟨m4, new2, some f2, ?_, .inl ⟨f2, rfl, g0.trans hfn, b3.trans a3, ⟨?_, ?_, ?_⟩⟩, ?_⟩
    · rw [hsize] at d1 c1
      simp only [growT, hsome, hsize, b1, c1, d1, Res.bind_ok]
    · refine g4.frame ?_
      intro b hb
      have hbb : buf.ptr ≠ some b := fun hx => hdis b hx (by rw [← b2]; exact hb)
      rw [d2.other b hbb, c3.other b hbb]
    · refine ⟨?_, by rw [d2.len, c3.len, b5]; exact a5, ?_, ?_⟩
      · intro b hb hbb
        have hnb : new.ptr ≠ some b := by
          intro hx
          have := a7 b hx
          omega
        rw [d2.other b hbb, c3.other b hbb, b4 b hbb hnb, a4 b hb]
      · intro b c hb
        have hbb : buf.ptr ≠ some b := by
          intro hx
          rw [d3 b hx] at hb
          simp at hb
        by_cases hnb : new.ptr = some b
        · exact .inl (b2.trans hnb)
        · rw [d2.other b hbb, c3.other b hbb, b4 b hbb hnb] at hb
          rcases a6 b c hb with hh | hh
          · exact .inr ⟨hh, hbb⟩
          · exact absurd hh hnb
      · intro b hb
        exact .inr (a7 b (b2.symm.trans hb))
    · unfold Bal
      rw [d4, c4, g5, a8, d5, c5, b6, a9]
      omega
    · intro hb hpos k hk hkl
      have := g2 hb k (hfuse hpos k hk)
      omega
  · obtain ⟨m3, d1, d2, d3, d4, d5⟩ := freeBuf_spec g6
    have hL : Left sz m buf l m3 buf (cutAt moved spoilt j l) j := by
      refine ⟨?_, Frame.of_mem ?_ ?_ ?_, ?_⟩
      · refine g5.frame ?_
        intro b hb
        exact d2.other b (fun hx => hdis b hb (by rw [← b2]; exact hx))
      · intro b hb hbb
        have hnb : new.ptr ≠ some b := by
          intro hx
          have := a7 b hx
          omega
        rw [d2.other b (by rw [b2]; exact hnb), b4 b hbb hnb, a4 b hb]
      · rw [d2.len, b5]
        exact a5
      · intro b c hb
        by_cases hnb : new2.ptr = some b
        · rw [d3 b hnb] at hb
          simp at hb
        · rw [d2.other b hnb] at hb
          by_cases hbb : buf.ptr = some b
          · exact hlt b hbb
          · rw [b4 b hbb (by rw [← b2]; exact hnb)] at hb
            rcases a6 b c hb with hh | hh
            · exact hh
            · exact absurd (b2.trans hh) hnb
      · unfold Bal
        rw [d4, g7, a8, d5, b6, a9, cutAt_length g4]
        omega
    refine ⟨m3, buf, none, ?_, .inr (.inr ⟨rfl, rfl, j, ?_, g4, hL⟩), ?_⟩
    · rw [← hsize] at b1
      simp only [growT, hsome, b1, d1, Res.bind_ok]
    · obtain ⟨i, rfl, _⟩ := hfn j rfl
      cases i with
      | zero =>
        have hp : 0 < n * sz := Nat.mul_pos (by omega) hsz
        simp [newBufT, tick, Nat.mod_eq_of_lt hf, hp] at hsome
      | succ i =>
        have := hfuse (by omega) i rfl
        cases this
        rfl
    · intro _ hpos k hk _
      have := hfuse hpos k hk
      cases this
      exact ⟨rfl, hL⟩

theorem constructManyT_spec {sz : Nat} {dflt : α} {k : Nat} {m : Mem α} {buf : Buf} {l : List α} {f : Fuse} (h : Owns sz m buf l)
    (hc : l.length + k ≤ buf.cap) :
    ∃ m' buf' r j, constructManyT dflt k m buf f = .ok (m', buf', r) ∧ buf'.ptr = buf.ptr ∧
      Owns sz m' buf' (l ++ List.replicate j dflt) ∧ Same m m' buf ∧
      m'.ctors = m.ctors + j ∧ m'.dtors = m.dtors ∧ ((r ≠ none ∧ j = k) ∨ (r = none ∧ f = some j ∧ j < k)) := by
  induction k generalizing m buf l f with
  | zero =>
    exact ⟨m, buf, some f, 0, rfl, rfl, by simpa using h, Same.refl m buf, rfl, rfl, .inl ⟨by simp, rfl⟩⟩
  | succ k ih =>
    cases ht : tick f with
    | none =>
      refine ⟨m, buf, none, 0, by simp only [constructManyT, ht], rfl, by simpa using h, Same.refl m buf, rfl, rfl,
        .inr ⟨rfl, tick_none ht, by omega⟩⟩
    | some f' =>
      obtain ⟨m1, a1, a2, a3, a4, a5⟩ := constructNext_spec h (by omega) dflt
      obtain ⟨m2, buf2, r, j, b1, b2, b3, b4, b5, b6, b7⟩ := ih (f := f') a2 (by simp; omega)
      refine ⟨m2, buf2, r, j + 1, by simp only [constructManyT, ht, a1, Res.bind_ok, b1], b2,
        by simpa [List.replicate_succ] using b3, Same.trans a3 b4 rfl, by rw [b5, a4]; omega, by rw [b6, a5], ?_⟩
      rcases b7 with ⟨g1, g2⟩ | ⟨g1, g2, g3⟩
      · exact .inl ⟨g1, by omega⟩
      · exact .inr ⟨g1, (tick_some ht).2 j g2, by omega⟩

theorem fillFromT_spec {sz : Nat} {xs : List α} {m : Mem α} {buf : Buf} {l : List α} {f : Fuse} (h : Owns sz m buf l)
    (hc : l.length + xs.length ≤ buf.cap) :
    ∃ m' buf' r j, fillFromT xs m buf f = .ok (m', buf', r) ∧ buf'.ptr = buf.ptr ∧
      Owns sz m' buf' (l ++ xs.take j) ∧ Same m m' buf ∧
      m'.ctors = m.ctors + j ∧ m'.dtors = m.dtors ∧ j ≤ xs.length ∧
      ((r ≠ none ∧ j = xs.length) ∨ (r = none ∧ (∃ i, f = some i))) := by
  induction xs generalizing m buf l f with
  | nil =>
    exact ⟨m, buf, some f, 0, rfl, rfl, by simpa using h, Same.refl m buf, rfl, rfl, by simp, .inl ⟨by simp, rfl⟩⟩
  | cons x xs ih =>
    simp only [List.length_cons] at hc
    cases ht : tick f with
    | none =>
      refine ⟨m, buf, none, 0, by simp only [fillFromT, ht], rfl, by simpa using h, Same.refl m buf, rfl, rfl, by simp,
        .inr ⟨rfl, ?_⟩⟩
      cases f with
      | none => simp [tick] at ht
      | some i => exact ⟨i, rfl⟩
    | some f' =>
      obtain ⟨m1, a1, a2, a3, a4, a5⟩ := constructNext_spec h (by omega) x
      obtain ⟨m2, buf2, r, j, b1, b2, b3, b4, b5, b6, b7, b8⟩ := ih (f := f') a2 (by simp; omega)
      refine ⟨m2, buf2, r, j + 1, by simp only [fillFromT, ht, a1, Res.bind_ok, b1], b2,
        by simpa using b3, Same.trans a3 b4 rfl, by rw [b5, a4]; omega, by rw [b6, a5], by simp; omega, ?_⟩
      rcases b8 with ⟨g1, g2⟩ | ⟨g1, ⟨i, g2⟩⟩
      · exact .inl ⟨g1, by simp; omega⟩
      · refine .inr ⟨g1, ?_⟩
        cases f with
        | none => simp [tick] at ht; rw [← ht] at g2; simp at g2
        | some i => exact ⟨i, rfl⟩

theorem copyLoopT_spec {sz : Nat} {k i : Nat} {m : Mem α} {src new : Buf} {d rest acc : List α} {f : Fuse}
    (ho : Owns sz m src (d ++ rest)) (hn : Owns sz m new acc) (hd : d.length = i) (hk : rest.length = k)
    (hcap : acc.length + k ≤ new.cap) (hdis : ∀ b, src.ptr = some b → new.ptr ≠ some b) :
    ∃ m' new' r j, copyLoopT k i m src new f = .ok (m', new', r) ∧ new'.ptr = new.ptr ∧
      Owns sz m' new' (acc ++ rest.take j) ∧ Same m m' new ∧
      m'.ctors = m.ctors + j ∧ m'.dtors = m.dtors ∧ j ≤ k ∧
      ((r ≠ none ∧ j = k) ∨ (r = none ∧ (∃ i, f = some i))) := by
  induction k generalizing i m new d rest acc f with
  | zero =>
    have : rest = [] := List.length_eq_zero_iff.1 hk
    subst this
    exact ⟨m, new, some f, 0, rfl, rfl, by simpa using hn, Same.refl m new, rfl, rfl, by simp, .inl ⟨by simp, rfl⟩⟩
  | succ k ih =>
    obtain ⟨x, rest, rfl⟩ : ∃ x r, rest = x :: r := by
      cases rest with
      | nil => simp at hk
      | cons x r => exact ⟨x, r, rfl⟩
    simp only [List.length_cons, Nat.add_right_cancel_iff] at hk
    have hx : (d ++ x :: rest)[i]? = some x := by
      rw [List.getElem?_append_right (by omega), hd]
      simp
    cases ht : tick f with
    | none =>
      refine ⟨m, new, none, 0, by simp only [copyLoopT, readElem_spec ho hx, Res.bind_ok, ht], rfl, by simpa using hn,
        Same.refl m new, rfl, rfl, by simp, .inr ⟨rfl, ?_⟩⟩
      cases f with
      | none => simp [tick] at ht
      | some i => exact ⟨i, rfl⟩
    | some f' =>
      obtain ⟨m1, a1, a2, a3, a4, a5⟩ := constructNext_spec hn (by omega) x
      have ho1 : Owns sz m1 src ((d ++ [x]) ++ rest) := by
        simpa using ho.frame (fun b hb => a3.other b (hdis b hb))
      obtain ⟨m2, new2, r, j, c1, c2, c3, c4, c5, c6, c7, c8⟩ :=
        ih (i := i + 1) (f := f') ho1 a2 (by simp [hd]) hk (by simp; omega) hdis
      refine ⟨m2, new2, r, j + 1, by simp only [copyLoopT, readElem_spec ho hx, ht, a1, Res.bind_ok, c1], c2,
        by simpa using c3, Same.trans a3 c4 rfl, by rw [c5, a4]; omega, by rw [c6, a5], by omega, ?_⟩
      rcases c8 with ⟨g1, g2⟩ | ⟨g1, ⟨i, g2⟩⟩
      · exact .inl ⟨g1, by omega⟩
      · refine .inr ⟨g1, ?_⟩
        cases f with
        | none => simp [tick] at ht; rw [← ht] at g2; simp at g2
        | some i => exact ⟨i, rfl⟩

/-- The outcome of a constructor: a new vector, or everything as before. -/
structure Makes (sz : Nat) (m : Mem α) (xs : List α) (f : Fuse) (m' : Mem α) (buf' : Buf) (r : Option Fuse) : Prop where
  ret : r ≠ none → Left sz m Buf.null [] m' buf' xs 0
  threw : r = none → (∃ i, f = some i) ∧ Frame m Buf.null m' Buf.null ∧ Bal m 0 m' 0

theorem finishNew_spec {sz : Nat} {m m1 m2 : Mem α} {new new2 : Buf} {xs ys : List α} {r : Option Fuse} {f : Fuse}
    (hf : Frame m Buf.null m1 new) (ho : Owns sz m2 new2 ys) (hp : new2.ptr = new.ptr) (hs : Same m1 m2 new)
    (hb : Bal m 0 m2 ys.length) (hr : (r ≠ none ∧ ys = xs) ∨ (r = none ∧ ∃ i, f = some i)) :
    ∃ m' buf', finishNew (m2, new2, r) = .ok (m', buf', r) ∧ Makes sz m xs f m' buf' r := by
  have hf2 : Frame m Buf.null m2 new2 := hf.trans (Frame.of_same hs hp)
  rcases hr with ⟨hr, rfl⟩ | ⟨rfl, hi⟩
  · cases r with
    | none => exact absurd rfl hr
    | some f1 => exact ⟨m2, new2, rfl, ⟨fun _ => ⟨ho, hf2, by simpa using hb⟩, by simp⟩⟩
  · obtain ⟨m3, d1, d2, d3⟩ := destroy_spec ho
    exact ⟨m3, Buf.null, by simp only [finishNew, d1, Res.bind_ok], ⟨by simp, fun _ => ⟨hi, hf2.trans d2, hb.trans d3⟩⟩⟩

theorem Makes.alloc {sz : Nat} {m : Mem α} {xs : List α} {b : Buf} : Makes sz m xs (some 0) m b none :=
  ⟨by simp, fun _ => ⟨⟨0, rfl⟩, Frame.refl m Buf.null, by unfold Bal; omega⟩⟩

theorem fuse_after {f f1 : Fuse} (h : Shorter f1 f) (h1 : ∃ i, f1 = some i) : ∃ i, f = some i := by
  obtain ⟨i, hi⟩ := h1
  obtain ⟨j, hj, _⟩ := h i hi
  exact ⟨j, hj⟩

theorem ofRangeT_spec {sz : Nat} (hsz : 0 < sz) (m : Mem α) {xs : List α} {f : Fuse} (hf : xs.length * sz < 2 ^ 64) :
    ∃ m' buf' r, ofRangeT sz m xs f = .ok (m', buf', r) ∧ Makes sz m xs f m' buf' r := by
  rcases newBufT_cases sz m xs.length f with ⟨hnone, rfl⟩ | ⟨f1, hsome, hfn⟩
  · exact ⟨m, Buf.null, none, by simp only [ofRangeT, hnone], Makes.alloc⟩
  obtain ⟨m1, new, ⟨_, a2, a3, a4⟩, a5, a6, _⟩ := newBuf_does hsz m hf
  rw [a6] at hsome
  obtain ⟨m2, new2, r, j, b1, b2, b3, b4, b5, b6, b7, b8⟩ := fillFromT_spec (f := f1) a2 (xs := xs) (by simp [a5])
  obtain ⟨m3, buf3, c1, c2⟩ := finishNew_spec (xs := xs) (f := f) a3 b3 b2 b4 (by
      unfold Bal at *
      simp at *
      omega) (by
    rcases b8 with ⟨g1, rfl⟩ | ⟨g1, g2⟩
    · exact .inl ⟨g1, by simp⟩
    · exact .inr ⟨g1, fuse_after hfn g2⟩)
  exact ⟨m3, buf3, r, by simp only [ofRangeT, hsome, b1, Res.bind_ok, c1], c2⟩

theorem copyNewT_spec {sz : Nat} (hsz : 0 < sz) {m : Mem α} {src : Buf} {l : List α} {f : Fuse} (h : Owns sz m src l) :
    ∃ m' buf' r, copyNewT sz m src f = .ok (m', buf', r) ∧ Makes sz m l f m' buf' r := by
  have hf : l.length * sz < 2 ^ 64 := Nat.lt_of_le_of_lt (Nat.mul_le_mul_right sz h.size.2) h.fits
  rcases newBufT_cases sz m src.size f with ⟨hnone, rfl⟩ | ⟨f1, hsome, hfn⟩
  · exact ⟨m, Buf.null, none, by simp only [copyNewT, hnone], Makes.alloc⟩
  obtain ⟨m1, new, ⟨_, a2, a3, a4⟩, a5, a6, a7⟩ := newBuf_does hsz m hf
  have hlt : ∀ b, src.ptr = some b → b < m.heap.length := fun b hb => Owns.lt h hb
  have h1 : Owns sz m1 src l := h.frame (fun b hb => a3.other b (hlt b hb) (by simp [Buf.null]))
  rw [h.size.1, a6] at hsome
  obtain ⟨m2, new2, r, j, b1, b2, b3, b4, b5, b6, b7, b8⟩ := copyLoopT_spec (d := []) (rest := l) (i := 0) (k := l.length) (f := f1)
    (by simpa using h1) a2 rfl rfl (by simp [a5]) (fun b hb hnb => by have := a7 b hnb; have := hlt b hb; omega)
  obtain ⟨m3, buf3, c1, c2⟩ := finishNew_spec (xs := l) (f := f) a3 b3 b2 b4 (by
      unfold Bal at *
      simp at *
      omega) (by
    rcases b8 with ⟨g1, rfl⟩ | ⟨g1, g2⟩
    · exact .inl ⟨g1, by simp⟩
    · exact .inr ⟨g1, fuse_after hfn g2⟩)
  exact ⟨m3, buf3, r, by simp only [copyNewT, h.size.1, hsome, b1, Res.bind_ok, c1], c2⟩

/-- The outcome of an operation on one vector: it returns with `l'`, or it throws and leaves one of the given sequences. -/
structure Tries (sz : Nat) (m : Mem α) (buf : Buf) (l l' : List α) (bad : Nat → List α → Nat → Prop) (f : Fuse)
    (m' : Mem α) (buf' : Buf) (r : Option Fuse) : Prop where
  ret : r ≠ none → Left sz m buf l m' buf' l' 0
  threw : r = none → ∃ n, f = some n ∧ ∃ l2 lost, bad n l2 lost ∧ Left sz m buf l m' buf' l2 lost

/-- What a failed growth leaves. -/
def GrowBad (b : Bool) (moved spoilt : α → α) (l : List α) (n : Nat) (l2 : List α) (lost : Nat) : Prop :=
  (l2 = l ∧ lost = 0) ∨ (b = true ∧ n = lost + 1 ∧ lost < l.length ∧ l2 = cutAt moved spoilt lost l)

theorem growT_tries {sz : Nat} (hsz : 0 < sz) {b : Bool} {moved spoilt : α → α} {m : Mem α} {buf : Buf} {l : List α}
    (h : Owns sz m buf l) {n : Nat} {f : Fuse} (hn : l.length ≤ n) (hf : n * sz < 2 ^ 64) :
    ∃ m' buf' r, growT sz b moved spoilt m buf n f = .ok (m', buf', r) ∧
      Tries sz m buf l l (GrowBad b moved spoilt l) f m' buf' r ∧ (∀ f', r = some f' → buf'.cap = n ∧ Shorter f' f) := by
  obtain ⟨m', buf', r, h1, h2, _⟩ := growT_spec hsz (b := b) (moved := moved) (spoilt := spoilt) (f := f) h hn hf
  refine ⟨m', buf', r, h1, ?_⟩
  rcases h2 with ⟨f', rfl, g1, g2, g3⟩ | ⟨rfl, rfl, g3⟩ | ⟨rfl, rfl, k, rfl, g2, g3⟩
  · exact ⟨⟨fun _ => g3, by simp⟩, by rintro f2 h'; cases h'; exact ⟨g2, g1⟩⟩
  · exact ⟨⟨fun hr => absurd rfl hr, fun _ => ⟨0, rfl, l, 0, .inl ⟨rfl, rfl⟩, g3⟩⟩, by simp⟩
  · exact ⟨⟨fun hr => absurd rfl hr, fun _ => ⟨k + 1, rfl, _, k, .inr ⟨rfl, rfl, g2, rfl⟩, g3⟩⟩, by simp⟩

theorem reserveT_spec {sz : Nat} (hsz : 0 < sz) {b : Bool} {moved spoilt : α → α} {m : Mem α} {buf : Buf} {l : List α}
    (h : Owns sz m buf l) {n : Nat} {f : Fuse} (hf : n * sz < 2 ^ 64) :
    ∃ m' buf' r, reserveT sz b moved spoilt m buf n f = .ok (m', buf', r) ∧
      Tries sz m buf l l (GrowBad b moved spoilt l) f m' buf' r ∧ (∀ f', r = some f' → n ≤ buf'.cap ∧ Shorter f' f) := by
  unfold reserveT
  by_cases hc : n > buf.cap
  · rw [if_pos hc]
    have := h.size.2
    obtain ⟨m', buf', r, h1, h2, h3⟩ := growT_tries hsz (b := b) (moved := moved) (spoilt := spoilt) (f := f) h (n := n) (by omega) hf
    exact ⟨m', buf', r, h1, h2, fun f' hf' => ⟨by rw [(h3 f' hf').1]; exact Nat.le_refl n, (h3 f' hf').2⟩⟩
  · rw [if_neg hc]
    exact ⟨m, buf, some f, rfl, ⟨fun _ => Left.refl h, by simp⟩, by rintro f' h'; cases h'; exact ⟨by omega, Shorter.refl _⟩⟩

theorem Left.trans {sz : Nat} {m1 m2 m3 : Mem α} {b1 b2 b3 : Buf} {l1 l2 l3 : List α} {k : Nat} (h : Left sz m1 b1 l1 m2 b2 l2 0)
    (h' : Left sz m2 b2 l2 m3 b3 l3 k) : Left sz m1 b1 l1 m3 b3 l3 k :=
  ⟨h'.owns, h.frame.trans h'.frame, h.bal.trans h'.bal⟩

theorem resizeT_spec {sz : Nat} (hsz : 0 < sz) {b : Bool} {moved spoilt : α → α} {dflt : α} {m : Mem α} {buf : Buf} {l : List α}
    (h : Owns sz m buf l) {n : Nat} {f : Fuse} (hf : n * sz < 2 ^ 64) :
    ∃ m' buf' r, resizeT sz b moved spoilt dflt m buf n f = .ok (m', buf', r) ∧
      Tries sz m buf l (resized dflt n l)
        (fun i l2 lost => GrowBad b moved spoilt l i l2 lost ∨ ∃ j, l.length + j < n ∧ j ≤ i ∧ l2 = l ++ List.replicate j dflt ∧ lost = 0)
        f m' buf' r := by
  obtain ⟨m1, buf1, r1, a1, a2, a3⟩ := reserveT_spec hsz (b := b) (moved := moved) (spoilt := spoilt) (f := f) h hf
  cases r1 with
  | none =>
    obtain ⟨i, hi, l2, lost, g1, g2⟩ := a2.threw rfl
    exact ⟨m1, buf1, none, by simp only [resizeT, a1, Res.bind_ok],
      ⟨fun hr => absurd rfl hr, fun _ => ⟨i, hi, l2, lost, .inl g1, g2⟩⟩⟩
  | some f1 =>
    have hL := a2.ret (by simp)
    obtain ⟨hcap, hfn⟩ := a3 f1 rfl
    have hs1 := hL.owns.size.1
    obtain ⟨m2, b1, b2, b3, b4, b5⟩ := destructMany_spec hL.owns (k := l.length - n) (by omega)
    have hlen : (l.take (l.length - (l.length - n))).length = min n l.length := by
      simp; omega
    obtain ⟨m3, buf3, r, j, c1, c2, c3, c4, c5, c6, c7⟩ := constructManyT_spec (dflt := dflt) (f := f1) b2 (k := n - l.length) (by
      rw [hlen]; simp; have := hL.owns.size.2; omega)
    have heq : resizeT sz b moved spoilt dflt m buf n f = .ok (m3, buf3, r) := by
      simp only [resizeT, a1, Res.bind_ok, hs1, b1]
      rw [hs1] at c1
      rw [show n - (l.length - (l.length - n)) = n - l.length by omega]
      exact c1
    have hLeft : Left sz m buf l m3 buf3 (l.take (l.length - (l.length - n)) ++ List.replicate j dflt) 0 := by
      refine hL.trans ⟨c3, Frame.of_same (Same.trans b3 c4 rfl) (by rw [c2]), ?_⟩
      unfold Bal
      rw [c5, b4, c6, b5]
      simp only [List.length_append, List.length_take, List.length_replicate]
      omega
    refine ⟨m3, buf3, r, heq, ⟨?_, ?_⟩⟩
    · intro hr
      rcases c7 with ⟨_, rfl⟩ | ⟨hr', _⟩
      · have : resized dflt n l = l.take (l.length - (l.length - n)) ++ List.replicate (n - l.length) dflt := by
          unfold resized
          congr 1
          by_cases hnl : n ≤ l.length
          · congr 1; omega
          · rw [List.take_of_length_le (by omega), List.take_of_length_le (by omega)]
        rw [this]
        exact hLeft
      · exact absurd hr' hr
    · intro hr
      rcases c7 with ⟨hr', _⟩ | ⟨_, hi, hj⟩
      · exact absurd hr hr'
      · obtain ⟨i, hi', hji⟩ := hfn j hi
        refine ⟨i, hi', _, 0, .inr ⟨j, by omega, hji, ?_, rfl⟩, hLeft⟩
        rw [List.take_of_length_le (by omega)]

theorem pushBackT_spec {sz : Nat} (hsz : 0 < sz) {b : Bool} {moved spoilt : α → α} {m : Mem α} {buf : Buf} {l : List α}
    (h : Owns sz m buf l) {x : α} {f : Fuse} (hf : 3 * (l.length + 1) * sz < 2 ^ 64) :
    ∃ m' buf' r, pushBackT sz b moved spoilt m buf x f = .ok (m', buf', r) ∧
      Tries sz m buf l (l ++ [x]) (GrowBad b moved spoilt l) f m' buf' r := by
  have hs := h.size
  have hg : ∃ m1 buf1 r, growForOneT sz b moved spoilt m buf f = .ok (m1, buf1, r) ∧
      Tries sz m buf l l (GrowBad b moved spoilt l) f m1 buf1 r ∧
      (∀ f', r = some f' → l.length < buf1.cap ∧ Shorter f' f) := by
    unfold growForOneT
    by_cases hc : buf.size + 1 > buf.cap
    · rw [if_pos hc]
      have hnc : l.length < nextCapacity buf.size ∧ nextCapacity buf.size ≤ 3 * (l.length + 1) := by
        unfold nextCapacity
        have := Nat.mod_le (buf.size * 3) (2 ^ 64)
        split <;> omega
      have hfit := Nat.lt_of_le_of_lt (Nat.mul_le_mul_right sz hnc.2) hf
      obtain ⟨m1, b1, r, h1, h2, h3⟩ := reserveT_spec hsz (b := b) (moved := moved) (spoilt := spoilt) (f := f) h
        (n := nextCapacity buf.size) hfit
      rw [reserveT, if_pos (by omega)] at h1
      exact ⟨m1, b1, r, h1, h2, fun f' hf' => ⟨by have := (h3 f' hf').1; omega, (h3 f' hf').2⟩⟩
    · rw [if_neg hc]
      exact ⟨m, buf, some f, rfl, ⟨fun _ => Left.refl h, by simp⟩, by rintro f' h'; cases h'; exact ⟨by omega, Shorter.refl _⟩⟩
  obtain ⟨m1, buf1, r1, a1, a2, a3⟩ := hg
  cases r1 with
  | none =>
    exact ⟨m1, buf1, none, by simp only [pushBackT, a1, Res.bind_ok], ⟨fun hr => absurd rfl hr, a2.threw⟩⟩
  | some f1 =>
    have hL := a2.ret (by simp)
    obtain ⟨hcap, hfn⟩ := a3 f1 rfl
    cases ht : tickMove b f1 with
    | none =>
      obtain ⟨i, hi⟩ := fuse_after hfn (by
        cases f1 with
        | none => rw [tickMove_none] at ht; simp at ht
        | some i => exact ⟨i, rfl⟩)
      exact ⟨m1, buf1, none, by simp only [pushBackT, a1, Res.bind_ok, ht], ⟨fun hr => absurd rfl hr, fun _ =>
        ⟨i, hi, l, 0, .inl ⟨rfl, rfl⟩, hL⟩⟩⟩
    | some f2 =>
      obtain ⟨m2, b1, b2, b3, b4, b5⟩ := constructNext_spec hL.owns hcap x
      refine ⟨m2, { buf1 with size := buf1.size + 1 }, some f2, by simp only [pushBackT, a1, Res.bind_ok, ht, b1],
        ⟨fun _ => hL.trans ⟨b2, Frame.of_same b3 rfl, ?_⟩, by simp⟩⟩
      unfold Bal
      simp
      omega

theorem writeT_spec {sz : Nat} {torn : α → α → α} {m : Mem α} {buf : Buf} {l : List α} (h : Owns sz m buf l) {i : Nat} {x : α} {f : Fuse}
    (hi : i < l.length) :
    ∃ m' buf' r, writeT torn m buf i x f = .ok (m', buf', r) ∧
      Tries sz m buf l (l.set i x) (fun _ l2 lost => l2 = l.set i (torn l[i] x) ∧ lost = 0) f m' buf' r := by
  have hw : ∀ y, ∃ m', writeElem m buf i y = .ok m' ∧ Left sz m buf l m' buf (l.set i y) 0 := by
    intro y
    obtain ⟨m1, a1, a2, a3, a4, a5⟩ := writeElem_spec h (y := y) hi
    refine ⟨m1, a1, a2, Frame.of_same a3 rfl, ?_⟩
    unfold Bal
    simp
    omega
  cases ht : tick f with
  | none =>
    obtain ⟨m1, a1, a2⟩ := hw (torn l[i] x)
    exact ⟨m1, buf, none, by simp only [writeT, ht, readElem_spec h (List.getElem?_eq_getElem hi), a1, Res.bind_ok],
      ⟨fun hr => absurd rfl hr, fun _ => ⟨0, tick_none ht, _, 0, ⟨rfl, rfl⟩, a2⟩⟩⟩
  | some f' =>
    obtain ⟨m1, a1, a2⟩ := hw x
    exact ⟨m1, buf, some f', by simp only [writeT, ht, a1, Res.bind_ok], ⟨fun _ => a2, by simp⟩⟩

/-! ## Programs -/

/-- A statement returns or throws, in accordance with the sequences. -/
def Steps (sz : Nat) (b : Bool) (moved spoilt : α → α) (torn : α → α → α) (dflt : α) (e : Seqs α) (leak : Nat) (op : Op α) (f : Fuse)
    (s' : State α) (t : Bool) : Prop :=
  (t = false ∧ ∃ e', seqStep dflt e op = some e' ∧ Inv sz s' e' leak) ∨
    (t = true ∧ ∃ n, f = some n ∧ ∃ e' lost, Broken b moved spoilt torn dflt e op n e' lost ∧ Inv sz s' e' (leak + lost))

theorem set_same {e : Seqs α} {v : Nat} {l : List α} (h : e[v]? = some (some l)) : e.set v (some l) = e := by
  apply List.ext_getElem?
  intro j
  rw [get_setv h]
  split
  · rename_i hj; rw [hj, h]
  · rfl

theorem seqOf_get {e : Seqs α} {v : Nat} {l : List α} (h : seqOf e v = some l) : e[v]? = some (some l) := by
  unfold seqOf at h
  cases hx : e[v]? with
  | none => rw [hx] at h; simp at h
  | some o => rw [hx] at h; simp at h; rw [h]

theorem onVarT_spec {sz : Nat} {b : Bool} {moved spoilt : α → α} {torn : α → α → α} {dflt : α} {s : State α} {e : Seqs α} {leak : Nat}
    (h : Inv sz s e leak) {v : Nat} {l l' : List α} (hv : seqOf e v = some l) {op : Op α} {f : Fuse}
    {g : Mem α → Buf → Res (Thrown α)} {bad : Nat → List α → Nat → Prop} (hop : seqStep dflt e op = some (e.set v (some l')))
    (hbad : ∀ n l2 lost, bad n l2 lost → Broken b moved spoilt torn dflt e op n (e.set v (some l2)) lost)
    (hg : ∀ buf, Owns sz s.mem buf l → ∃ m' buf' r, g s.mem buf = .ok (m', buf', r) ∧ Tries sz s.mem buf l l' bad f m' buf' r) :
    ∃ s' t, onVarT s v g = .ok (s', t) ∧ Steps sz b moved spoilt torn dflt e leak op f s' t := by
  obtain ⟨buf, h1, h2, h3, h4⟩ := h.getVar hv
  obtain ⟨m', buf', r, g1, g2⟩ := hg buf h4
  refine ⟨_, _, by simp only [onVarT, h1, g1, Res.bind_ok]; rfl, ?_⟩
  cases r with
  | none =>
    obtain ⟨n, hi, l2, lost, k1, k2⟩ := g2.threw rfl
    exact .inr ⟨rfl, n, hi, _, lost, hbad n l2 lost k1, h.replace h2 h3 k2.owns k2.frame k2.bal⟩
  | some f1 =>
    have k2 := g2.ret (by simp)
    exact .inl ⟨rfl, _, hop, h.update h2 h3 k2.owns k2.frame k2.bal⟩

/-- Memory that changed only by blocks that are gone again. -/
theorem Inv.unchanged {sz : Nat} {s : State α} {e : Seqs α} {leak : Nat} (h : Inv sz s e leak) {m' : Mem α}
    (hf : Frame s.mem Buf.null m' Buf.null) (hb : Bal s.mem 0 m' 0) : Inv sz ⟨m', s.vars⟩ e leak := by
  have h1 := h.pushWith (buf' := Buf.null) (l' := []) (m' := m') (.inl ⟨rfl, rfl⟩) hf hb
  have h2 := h1.kill (v := s.vars.length) (by simp) (by rw [h.len]; simp)
  have e1 : (s.vars ++ [some Buf.null]).set s.vars.length none = s.vars ++ [none] := by
    rw [List.set_append_right _ _ (Nat.le_refl _)]
    simp
  have e2 : (e ++ [some []]).set s.vars.length none = e ++ [none] := by
    rw [h.len, List.set_append_right _ _ (Nat.le_refl _)]
    simp
  simp only [e1, e2] at h2
  exact h2.pop

theorem growBad_broken {b : Bool} {moved spoilt : α → α} {torn : α → α → α} {dflt : α} {e : Seqs α} {v : Nat} {l : List α}
    {op : Op α} (hop : growing op = some v) (hv : seqOf e v = some l) {n : Nat} {l2 : List α} {lost : Nat}
    (h : GrowBad b moved spoilt l n l2 lost) : Broken b moved spoilt torn dflt e op n (e.set v (some l2)) lost := by
  rcases h with ⟨rfl, rfl⟩ | ⟨h1, rfl, h2, rfl⟩
  · rw [set_same (seqOf_get hv)]
    exact .same (.inr (by rw [hop]; rfl))
  · exact .cut hop h1 hv h2

theorem stepT_spec {sz : Nat} (hsz : 0 < sz) {b : Bool} {moved spoilt : α → α} {torn : α → α → α} {dflt : α} {s : State α} {e : Seqs α}
    {leak : Nat} (h : Inv sz s e leak) {op : Op α} {f : Fuse} (hf : Fits sz e op) (hs : seqStep dflt e op ≠ none) :
    ∃ s' t, stepT sz b moved spoilt torn dflt s op f = .ok (s', t) ∧ Steps sz b moved spoilt torn dflt e leak op f s' t := by
  have plain : ∀ op', (∀ s f, stepT sz b moved spoilt torn dflt s op' f = (step sz moved dflt s op').bind (fun s' => .ok (s', false))) →
      Fits sz e op' → seqStep dflt e op' ≠ none →
      ∃ s' t, stepT sz b moved spoilt torn dflt s op' f = .ok (s', t) ∧ Steps sz b moved spoilt torn dflt e leak op' f s' t := by
    intro op' heq hf' hs'
    obtain ⟨e', he'⟩ := Option.ne_none_iff_exists'.1 hs'
    obtain ⟨s', g1, g2⟩ := step_spec hsz (moved := moved) h hf' he'
    exact ⟨s', false, by rw [heq, g1]; rfl, .inl ⟨rfl, e', he', g2⟩⟩
  cases op with
  | create n =>
    rcases newBufT_cases sz s.mem n f with ⟨hnone, rfl⟩ | ⟨f1, hsome, hfn⟩
    · exact ⟨s, true, by simp only [stepT, hnone], .inr ⟨rfl, 0, rfl, e, 0, .same (.inl rfl), h⟩⟩
    · obtain ⟨m', buf', ⟨_, g2, g3, g4⟩, _, g5, _⟩ := newBuf_does hsz s.mem hf
      rw [g5] at hsome
      exact ⟨⟨m', s.vars ++ [some buf']⟩, false, by simp only [stepT, hsome], .inl ⟨rfl, _, rfl, h.pushWith g2 g3 g4⟩⟩
  | ofRange xs =>
    obtain ⟨m', buf', r, g1, g2⟩ := ofRangeT_spec hsz s.mem (f := f) hf
    refine ⟨_, _, by simp only [stepT, g1, Res.bind_ok]; rfl, ?_⟩
    cases r with
    | none =>
      obtain ⟨⟨i, hi⟩, k1, k2⟩ := g2.threw rfl
      exact .inr ⟨rfl, i, hi, e, 0, .same (.inl rfl), h.unchanged k1 k2⟩
    | some f1 =>
      have k := g2.ret (by simp)
      exact .inl ⟨rfl, _, rfl, h.pushWith k.owns k.frame k.bal⟩
  | copyNew src =>
    obtain ⟨l, h1⟩ : ∃ l, seqOf e src = some l := Option.ne_none_iff_exists'.1 (by simpa [seqStep] using hs)
    obtain ⟨buf, h2, h3, h4, h5⟩ := h.getVar h1
    obtain ⟨m', buf', r, g1, g2⟩ := copyNewT_spec hsz (f := f) h5
    refine ⟨_, _, by simp only [stepT, h2, g1, Res.bind_ok]; rfl, ?_⟩
    cases r with
    | none =>
      obtain ⟨⟨i, hi⟩, k1, k2⟩ := g2.threw rfl
      exact .inr ⟨rfl, i, hi, e, 0, .same (.inl rfl), h.unchanged k1 k2⟩
    | some f1 =>
      have k := g2.ret (by simp)
      exact .inl ⟨rfl, _, by simp [seqStep, h1], h.pushWith k.owns k.frame k.bal⟩
  | copyAssign dst src =>
    obtain ⟨l, h1⟩ : ∃ l, seqOf e src = some l := by
      cases hx : seqOf e src with
      | none => simp [seqStep, hx] at hs
      | some l => exact ⟨l, rfl⟩
    obtain ⟨old, h1'⟩ : ∃ l, seqOf e dst = some l := by
      cases hx : seqOf e dst with
      | none => simp [seqStep, hx] at hs
      | some l => exact ⟨l, rfl⟩
    obtain ⟨sb, h2, h3, h4, h5⟩ := h.getVar h1
    obtain ⟨db, k2, k3, k4, k5⟩ := h.getVar h1'
    obtain ⟨m', tmp, r, g1, g2⟩ := copyNewT_spec hsz (f := f) h5
    cases r with
    | none =>
      obtain ⟨⟨i, hi⟩, j1, j2⟩ := g2.threw rfl
      exact ⟨_, true, by simp only [stepT, h2, g1, Res.bind_ok], .inr ⟨rfl, i, hi, e, 0, .same (.inl rfl), h.unchanged j1 j2⟩⟩
    | some f1 =>
      have k := g2.ret (by simp)
      have hp := h.pushWith k.owns k.frame k.bal
      have hlt := (List.getElem?_eq_some_iff.1 k3).1
      have hlte := (List.getElem?_eq_some_iff.1 k4).1
      have hs := hp.swap (x := dst) (y := s.vars.length) (bx := db) (bY := tmp) (lx := old) (ly := l)
        (by simp only; rw [List.getElem?_append_left hlt]; exact k3) (by simp)
        (by rw [List.getElem?_append_left hlte]; exact k4) (by rw [h.len]; simp)
      have e1 : ((s.vars ++ [some tmp]).set dst (some tmp)).set s.vars.length (some db) =
          s.vars.set dst (some tmp) ++ [some db] := by
        rw [List.set_append_left _ _ hlt, List.set_append_right _ _ (by simp)]
        simp
      have e2 : ((e ++ [some l]).set dst (some l)).set s.vars.length (some old) = e.set dst (some l) ++ [some old] := by
        rw [List.set_append_left _ _ hlte, h.len, List.set_append_right _ _ (by simp)]
        simp
      simp only [e1, e2] at hs
      obtain ⟨m'', d1, d2⟩ := hs.destroyVar (v := s.vars.length) (buf := db) (l := old)
        (by simp only; rw [List.getElem?_append_right (by simp)]; simp)
        (by rw [h.len, List.getElem?_append_right (by simp)]; simp)
      refine ⟨⟨m'', s.vars.set dst (some tmp)⟩, false, ?_, .inl ⟨rfl, e.set dst (some l), by simp [seqStep, h1, h1'], ?_⟩⟩
      · simp only [stepT, h2, k2, g1, Res.bind_ok]
        simp only at d1
        simp only [d1, Res.bind_ok]
      · have e3 : (s.vars.set dst (some tmp) ++ [some db]).set s.vars.length none = s.vars.set dst (some tmp) ++ [none] := by
          rw [List.set_append_right _ _ (by simp)]
          simp
        have e4 : (e.set dst (some l) ++ [some old]).set s.vars.length none = e.set dst (some l) ++ [none] := by
          rw [h.len, List.set_append_right _ _ (by simp)]
          simp
        simp only [e3, e4] at d2
        exact d2.pop
  | reserve v n =>
    obtain ⟨l, h1⟩ : ∃ l, seqOf e v = some l := Option.ne_none_iff_exists'.1 (by simpa [seqStep] using hs)
    refine onVarT_spec h h1 (l' := l) (g := fun m b' => reserveT sz b moved spoilt m b' n f) (bad := GrowBad b moved spoilt l)
      (by simp [seqStep, h1, set_same (seqOf_get h1)]) (fun n l2 lost hb => growBad_broken rfl h1 hb) (fun buf hb => ?_)
    obtain ⟨m', buf', r, g1, g2, _⟩ := reserveT_spec hsz (b := b) (moved := moved) (spoilt := spoilt) (f := f) hb hf
    exact ⟨m', buf', r, g1, g2⟩
  | resize v n =>
    obtain ⟨l, h1⟩ : ∃ l, seqOf e v = some l := Option.ne_none_iff_exists'.1 (by simpa [seqStep] using hs)
    refine onVarT_spec h h1 (l' := resized dflt n l) (g := fun m b' => resizeT sz b moved spoilt dflt m b' n f)
      (by simp [seqStep, h1]) ?_ (fun buf hb => resizeT_spec hsz hb hf)
    rintro i l2 lost (hb | ⟨j, hj, hji, rfl, rfl⟩)
    · exact growBad_broken rfl h1 hb
    · exact .part h1 hj hji
  | pushBack v x =>
    obtain ⟨l, h1⟩ : ∃ l, seqOf e v = some l := Option.ne_none_iff_exists'.1 (by simpa [seqStep] using hs)
    exact onVarT_spec h h1 (l' := l ++ [x]) (g := fun m b' => pushBackT sz b moved spoilt m b' x f)
      (by simp [seqStep, h1]) (fun n l2 lost hb => growBad_broken rfl h1 hb) (fun buf hb => pushBackT_spec hsz hb (hf l h1))
  | write v i x =>
    obtain ⟨l, h1, hi⟩ : ∃ l, seqOf e v = some l ∧ i < l.length := by
      cases hx : seqOf e v with
      | none => simp [seqStep, hx] at hs
      | some l =>
        refine ⟨l, rfl, ?_⟩
        simpa [seqStep, hx] using hs
    refine onVarT_spec h h1 (l' := l.set i x) (g := fun m b' => writeT torn m b' i x f)
      (by simp [seqStep, h1, hi]) ?_ (fun buf hb => writeT_spec hb hi)
    rintro _ l2 lost ⟨rfl, rfl⟩
    exact .torn h1 (List.getElem?_eq_getElem hi)
  | moveNew src => exact plain _ (fun _ _ => rfl) hf hs
  | moveAssign dst src => exact plain _ (fun _ _ => rfl) hf hs
  | popBack v => exact plain _ (fun _ _ => rfl) hf hs
  | clear v => exact plain _ (fun _ _ => rfl) hf hs
  | destroy v => exact plain _ (fun _ _ => rfl) hf hs

theorem runT_spec {sz : Nat} (hsz : 0 < sz) {b : Bool} {moved spoilt : α → α} {torn : α → α → α} {dflt : α} {s : State α} {e : Seqs α}
    {leak : Nat} (h : Inv sz s e leak) {p : TryProg α} (hp : Legal sz b moved spoilt torn dflt e p) :
    ∃ s' e' lost, runT sz b moved spoilt torn dflt s p = .ok s' ∧ Course b moved spoilt torn dflt e p e' lost ∧
      Inv sz s' e' (leak + lost) := by
  induction p generalizing s e leak with
  | stop => exact ⟨s, e, 0, rfl, .stop, h⟩
  | stmt op f next ih =>
    obtain ⟨hf, hs, hret, hthr⟩ := hp
    obtain ⟨s1, t, g1, g2⟩ := stepT_spec hsz (b := b) (moved := moved) (spoilt := spoilt) (torn := torn) (f := f) h hf hs
    rcases g2 with ⟨rfl, e1, k1, k2⟩ | ⟨rfl, j, rfl, e1, lost, k1, k2⟩
    · obtain ⟨s', e', lost, r1, r2, r3⟩ := ih false k2 (hret e1 k1)
      exact ⟨s', e', lost, by simp only [runT, g1, Res.bind_ok, r1], .done k1 r2, r3⟩
    · obtain ⟨s', e', lost', r1, r2, r3⟩ := ih true k2 (hthr j e1 lost rfl k1)
      exact ⟨s', e', lost + lost', by simp only [runT, g1, Res.bind_ok, r1], .threw k1 r2, by rwa [← Nat.add_assoc]⟩

/-- A constructor or a copy assignment that throws leaves every block and the count of objects as they were. -/
theorem making_spec {sz : Nat} (hsz : 0 < sz) {b : Bool} {moved spoilt : α → α} {torn : α → α → α} {dflt : α} {s s' : State α} {e : Seqs α}
    {leak : Nat} (h : Inv sz s e leak) {op : Op α} {f : Fuse} (hf : Fits sz e op) (hs : seqStep dflt e op ≠ none)
    (hop : making op = true) (ht : stepT sz b moved spoilt torn dflt s op f = .ok (s', true)) :
    s'.vars = s.vars ∧ Frame s.mem Buf.null s'.mem Buf.null ∧ Bal s.mem 0 s'.mem 0 := by
  have hsame : s' = s → s'.vars = s.vars ∧ Frame s.mem Buf.null s'.mem Buf.null ∧ Bal s.mem 0 s'.mem 0 := by
    rintro rfl
    exact ⟨rfl, Frame.refl _ _, by unfold Bal; omega⟩
  cases op with
  | create n =>
    simp only [stepT] at ht
    split at ht
    · cases ht; exact hsame rfl
    · cases ht
  | ofRange xs =>
    obtain ⟨m', buf', r, g1, g2⟩ := ofRangeT_spec hsz s.mem (f := f) hf
    simp only [stepT, g1, Res.bind_ok] at ht
    cases r with
    | none =>
      cases ht
      obtain ⟨_, k1, k2⟩ := g2.threw rfl
      exact ⟨rfl, k1, k2⟩
    | some f1 => cases ht
  | copyNew src =>
    obtain ⟨l, h1⟩ : ∃ l, seqOf e src = some l := Option.ne_none_iff_exists'.1 (by simpa [seqStep] using hs)
    obtain ⟨buf, h2, h3, h4, h5⟩ := h.getVar h1
    obtain ⟨m', buf', r, g1, g2⟩ := copyNewT_spec hsz (f := f) h5
    simp only [stepT, h2, g1, Res.bind_ok] at ht
    cases r with
    | none =>
      cases ht
      obtain ⟨_, k1, k2⟩ := g2.threw rfl
      exact ⟨rfl, k1, k2⟩
    | some f1 => cases ht
  | copyAssign dst src =>
    obtain ⟨l, h1⟩ : ∃ l, seqOf e src = some l := by
      cases hx : seqOf e src with
      | none => simp [seqStep, hx] at hs
      | some l => exact ⟨l, rfl⟩
    obtain ⟨buf, h2, h3, h4, h5⟩ := h.getVar h1
    obtain ⟨m', buf', r, g1, g2⟩ := copyNewT_spec hsz (f := f) h5
    simp only [stepT, h2, g1, Res.bind_ok] at ht
    cases r with
    | none =>
      cases ht
      obtain ⟨_, k1, k2⟩ := g2.threw rfl
      exact ⟨rfl, k1, k2⟩
    | some f1 =>
      simp only at ht
      cases hg : getVar s.vars dst with
      | ub u => rw [hg] at ht; cases ht
      | diverge => rw [hg] at ht; cases ht
      | ok db =>
        rw [hg] at ht
        simp only [Res.bind_ok] at ht
        cases hd : destroy m' db with
        | ub u => rw [hd] at ht; cases ht
        | diverge => rw [hd] at ht; cases ht
        | ok m2 => rw [hd] at ht; cases ht
  | _ => simp [making] at hop

theorem Course.no_loss {moved spoilt : α → α} {torn : α → α → α} {dflt : α} {e e' : Seqs α} {p : TryProg α} {k : Nat}
    (h : Course false moved spoilt torn dflt e p e' k) : k = 0 := by
  induction h with
  | stop => rfl
  | done _ _ ih => exact ih
  | threw h _ ih =>
    cases h with
    | cut _ hm _ _ => simp at hm
    | _ => simpa using ih

theorem ofRange_full {sz : Nat} (hsz : 0 < sz) (m : Mem α) {xs : List α} (hf : xs.length * sz < 2 ^ 64) :
    ∃ m' buf', Does sz (ofRange sz m xs) m Buf.null [] xs m' buf' ∧ buf'.cap = xs.length := by
  obtain ⟨m1, new, _, a5, a6, _⟩ := newBuf_does hsz m hf
  obtain ⟨m', buf', h⟩ := ofRange_spec hsz m hf
  refine ⟨m', buf', h, ?_⟩
  obtain ⟨_, _, ⟨_, a2, _, _⟩, b5, b6, _⟩ := newBuf_does hsz m hf
  obtain ⟨m2, b1, _⟩ := fillFrom_spec a2 (xs := xs) (by simp [b5])
  have := h.eq
  simp only [ofRange, b6, b1] at this
  cases this
  exact b5

theorem pushBackT_cut {sz : Nat} (hsz : 0 < sz) {moved spoilt : α → α} {m : Mem α} {buf : Buf} {l : List α}
    (h : Owns sz m buf l) {x : α} {k : Nat} (hf : 3 * (l.length + 1) * sz < 2 ^ 64) (hfull : buf.cap = l.length) (hk : k < l.length) :
    ∃ m' buf', pushBackT sz true moved spoilt m buf x (some (k + 1)) = .ok (m', buf', none) ∧
      Left sz m buf l m' buf' (cutAt moved spoilt k l) k := by
  have hs := h.size
  have hnc : l.length < nextCapacity buf.size ∧ nextCapacity buf.size ≤ 3 * (l.length + 1) := by
    unfold nextCapacity
    have := Nat.mod_le (buf.size * 3) (2 ^ 64)
    split <;> omega
  obtain ⟨m', buf', r, g1, _, g2⟩ := growT_spec hsz (b := true) (moved := moved) (spoilt := spoilt) (f := some (k + 1)) h
    (n := nextCapacity buf.size) (by omega) (Nat.lt_of_le_of_lt (Nat.mul_le_mul_right sz hnc.2) hf)
  obtain ⟨rfl, g3⟩ := g2 rfl (by omega) k rfl hk
  refine ⟨m', buf', ?_, g3⟩
  simp only [pushBackT, growForOneT, if_pos (show buf.size + 1 > buf.cap by omega), g1, Res.bind_ok]

end Vec
end Coil
