import Verif.Props.Vector
import Verif.Proofs.VectorThrow

/-!
# Properties of vectors when allocation or elements throw (C80)

Every allocation, construction and assignment of an element may throw; programs catch the exceptions and go on
depending on them. `Spec.Course` says on plain sequences what such a program may do.
-/

namespace Coil
open Spec Mem

variable {α : Type}

/-- A program that starts with no vectors and an empty heap. -/
abbrev Vec.try (sz : Nat) (mayMove : Bool) (moved spoilt : α → α) (torn : α → α → α) (dflt : α) (p : Vec.TryProg α) : Res (Vec.State α) :=
  Vec.runT sz mayMove moved spoilt torn dflt ⟨Mem.empty, []⟩ p

/-- **C80 (no exceptions).** Statements in which nothing throws do what they did in the model without exceptions. -/
theorem C80_no_fault (sz : Nat) (mayMove : Bool) (moved spoilt : α → α) (torn : α → α → α) (dflt : α) (s : Vec.State α) (op : Vec.Op α) :
    Vec.stepT sz mayMove moved spoilt torn dflt s op none =
      (Vec.step sz moved dflt s op).bind (fun s' => .ok (s', false)) :=
  Vec.stepT_none sz mayMove moved spoilt torn dflt s op

/-- **C80.** A program whose preconditions hold runs without undefined behaviour wherever exceptions strike, its vectors show the
sequences of one of the courses the specification allows, every heap block belongs to exactly one live vector, and
constructions exceed destructions by the number of elements and of lost objects. -/
theorem C80_course {sz : Nat} (hsz : 0 < sz) (mayMove : Bool) (moved spoilt : α → α) (torn : α → α → α) (dflt : α) (p : Vec.TryProg α)
    (hp : Legal sz mayMove moved spoilt torn dflt [] p) :
    ∃ s e lost, Vec.try sz mayMove moved spoilt torn dflt p = .ok s ∧ Course mayMove moved spoilt torn dflt [] p e lost ∧
      Vec.ShowsAll s e ∧ s.mem.ctors = s.mem.dtors + total e + lost ∧
      ∀ (b : Nat) c, s.mem.heap[b]? = some (some c) →
        ∃ v buf, (Vec.getVar s.vars v = .ok buf ∧ buf.ptr = some b) ∧
          ∀ w buf', Vec.getVar s.vars w = .ok buf' → buf'.ptr = some b → w = v := by
  obtain ⟨s, e, lost, h1, h2, h3⟩ := Vec.runT_spec hsz (Vec.Inv.init sz) hp
  have hget : ∀ w buf', Vec.getVar s.vars w = .ok buf' → s.vars[w]? = some (some buf') := by
    intro w buf' hw
    unfold Vec.getVar at hw
    split at hw
    · rename_i b hb
      cases hw
      exact hb
    · cases hw
  refine ⟨s, e, lost, h1, h2, h3.shows, by simpa using h3.count, fun b c hc => ?_⟩
  obtain ⟨v, buf, hv, hp⟩ := h3.live b c hc
  exact ⟨v, buf, ⟨by simp [Vec.getVar, hv], hp⟩, fun w buf' hw hp' => h3.dist w v buf' buf b (hget w buf' hw) hv hp' hp⟩

/-- **C80 (objects).** If moving an element cannot throw, no object is lost: constructions exceed destructions by exactly the
number of elements. Without that condition this is false, see `C80_growth_false`. -/
theorem C80_objects_partial {sz : Nat} (hsz : 0 < sz) (moved spoilt : α → α) (torn : α → α → α) (dflt : α) (p : Vec.TryProg α)
    (hp : Legal sz false moved spoilt torn dflt [] p) :
    ∃ s e, Vec.try sz false moved spoilt torn dflt p = .ok s ∧ Course false moved spoilt torn dflt [] p e 0 ∧
      Vec.ShowsAll s e ∧ s.mem.ctors = s.mem.dtors + total e := by
  obtain ⟨s, e, lost, h1, h2, h3, h4, _⟩ := C80_course hsz false moved spoilt torn dflt p hp
  have := Vec.Course.no_loss h2
  subst this
  exact ⟨s, e, h1, h2, h3, h4⟩

/-- **C80 (strong guarantee).** After any such program, a constructor or copy assignment that throws leaves everything as it was:
the variables, the content of every heap block, and the number of objects; and no new block stays behind. -/
theorem C80_strong {sz : Nat} (hsz : 0 < sz) (mayMove : Bool) (moved spoilt : α → α) (torn : α → α → α) (dflt : α) (p : Vec.TryProg α)
    (hp : Legal sz mayMove moved spoilt torn dflt [] p) :
    ∃ s e, Vec.try sz mayMove moved spoilt torn dflt p = .ok s ∧ Vec.ShowsAll s e ∧
      ∀ op f s', making op = true → Fits sz e op → seqStep dflt e op ≠ none →
        Vec.stepT sz mayMove moved spoilt torn dflt s op f = .ok (s', true) →
        s'.vars = s.vars ∧ (∀ b, b < s.mem.heap.length → s'.mem.heap[b]? = s.mem.heap[b]?) ∧
          (∀ b c, s'.mem.heap[b]? = some (some c) → b < s.mem.heap.length) ∧
          s'.mem.ctors + s.mem.dtors = s.mem.ctors + s'.mem.dtors := by
  obtain ⟨s, e, lost, h1, h2, h3⟩ := Vec.runT_spec hsz (Vec.Inv.init sz) hp
  refine ⟨s, e, h1, h3.shows, fun op f s' hop hf hs ht => ?_⟩
  obtain ⟨g1, g2, g3⟩ := Vec.making_spec hsz h3 hf hs hop ht
  refine ⟨g1, fun b hb => g2.other b hb (by simp [Buf.null]), fun b c hb => ?_, ?_⟩
  · rcases g2.live b c hb with h | h
    · simp [Buf.null] at h
    · exact h.1
  · unfold Vec.Bal at g3
    omega

/-- **C80 (first action).** After any such program, a statement other than an assignment of an element that fails at its first action,
in particular at its allocation, leaves all sequences and the number of objects as they were. -/
theorem C80_first {sz : Nat} (hsz : 0 < sz) (mayMove : Bool) (moved spoilt : α → α) (torn : α → α → α) (dflt : α) (p : Vec.TryProg α)
    (hp : Legal sz mayMove moved spoilt torn dflt [] p) :
    ∃ s e, Vec.try sz mayMove moved spoilt torn dflt p = .ok s ∧ Vec.ShowsAll s e ∧
      ∀ op s', (∀ v i x, op ≠ .write v i x) → Fits sz e op → seqStep dflt e op ≠ none →
        Vec.stepT sz mayMove moved spoilt torn dflt s op (some 0) = .ok (s', true) →
        Vec.ShowsAll s' e ∧ s'.mem.ctors + s.mem.dtors = s.mem.ctors + s'.mem.dtors := by
  obtain ⟨s, e, lost, h1, h2, h3⟩ := Vec.runT_spec hsz (Vec.Inv.init sz) hp
  refine ⟨s, e, h1, h3.shows, fun op s' hop hf hs ht => ?_⟩
  obtain ⟨s2, t, g1, g2⟩ := Vec.stepT_spec hsz (b := mayMove) (moved := moved) (spoilt := spoilt) (torn := torn) (f := some 0) h3 hf hs
  rw [ht] at g1
  cases g1
  rcases g2 with ⟨h, _⟩ | ⟨_, n, hn, e', lost', k1, k2⟩
  · cases h
  · cases hn
    have fin : Vec.Inv sz s' e (lost + 0) → Vec.ShowsAll s' e ∧ s'.mem.ctors + s.mem.dtors = s.mem.ctors + s'.mem.dtors := by
      intro hI
      refine ⟨hI.shows, ?_⟩
      have a := hI.count
      have b := h3.count
      omega
    cases k1 with
    | same _ => exact fin (by simpa using k2)
    | part hv hj hn =>
      have : _ = 0 := Nat.le_zero.1 hn
      subst this
      simp only [List.replicate_zero, List.append_nil] at k2
      rw [Vec.set_same (Vec.seqOf_get hv)] at k2
      exact fin (by simpa using k2)
    | torn _ _ => exact absurd rfl (hop _ _ _)

/-- **C80 (interrupted growth).** When moving element `k` of a full vector throws in `pushBack`, the exception is caught and the vector is
destroyed afterwards, the `k` objects already moved to the new storage have been constructed and are never destroyed;
before that, the first `k` elements of the vector are moved-from. -/
theorem C80_growth_false {sz : Nat} (hsz : 0 < sz) (moved spoilt : α → α) (torn : α → α → α) (dflt : α) (l : List α) (x : α) (k : Nat)
    (hk : k < l.length) (hf : 3 * (l.length + 1) * sz < 2 ^ 64) :
    (∃ s, Vec.try sz true moved spoilt torn dflt
        (.stmt (.ofRange l) none fun _ => .stmt (.pushBack 0 x) (some (k + 1)) fun _ => .stop) = .ok s ∧
      Vec.ShowsAll s [some ((l.take k).map moved ++ spoilt l[k] :: l.drop (k + 1))] ∧
      s.mem.ctors = s.mem.dtors + l.length + k) ∧
    ∃ s, Vec.try sz true moved spoilt torn dflt
        (.stmt (.ofRange l) none fun _ => .stmt (.pushBack 0 x) (some (k + 1)) fun _ => .stmt (.destroy 0) none fun _ => .stop) = .ok s ∧
      Vec.ShowsAll s [none] ∧ s.mem.ctors = s.mem.dtors + k := by
  have hf' : l.length * sz < 2 ^ 64 := Nat.lt_of_le_of_lt (Nat.mul_le_mul_right sz (by omega)) hf
  obtain ⟨m1, buf1, ⟨a1, a2, a3, a4⟩, a5⟩ := Vec.ofRange_full hsz (Mem.empty (α := α)) hf'
  have hI : Vec.Inv sz ⟨m1, [some buf1]⟩ [some l] := (Vec.Inv.init sz).pushWith a2 a3 a4
  obtain ⟨m2, buf2, b1, b2⟩ := Vec.pushBackT_cut hsz (moved := moved) (spoilt := spoilt) (x := x) a2 hf a5 hk
  have hI2 : Vec.Inv sz ⟨m2, [some buf2]⟩ [some (cutAt moved spoilt k l)] (0 + k) := hI.replace (v := 0) rfl rfl b2.owns b2.frame b2.bal
  have hcut : cutAt moved spoilt k l = (l.take k).map moved ++ spoilt l[k] :: l.drop (k + 1) := by
    have : (l.drop k).take 1 = [l[k]] := by
      rw [List.drop_eq_getElem_cons hk]
      rfl
    rw [cutAt, this]
    simp
  have r1 : Vec.stepT sz true moved spoilt torn dflt ⟨Mem.empty, []⟩ (.ofRange l) none = .ok (⟨m1, [some buf1]⟩, false) := by
    rw [Vec.stepT_none]
    simp only [Vec.step, a1, Res.bind_ok]
    rfl
  have r2 : Vec.stepT sz true moved spoilt torn dflt ⟨m1, [some buf1]⟩ (.pushBack 0 x) (some (k + 1)) = .ok (⟨m2, [some buf2]⟩, true) := by
    simp only [Vec.stepT, Vec.onVarT, Vec.getVar, List.getElem?_cons_zero, b1, Res.bind_ok]
    rfl
  have hlen := Vec.cutAt_length (moved := moved) (spoilt := spoilt) hk
  refine ⟨⟨_, by simp only [Vec.try, Vec.runT, r1, r2, Res.bind_ok]; rfl, by rw [← hcut]; exact hI2.shows, ?_⟩, ?_⟩
  · have := hI2.count
    simp [total, hlen] at this
    omega
  · obtain ⟨s3, c1, c2⟩ := Vec.step_spec hsz (moved := moved) (dflt := dflt) hI2 (op := .destroy 0) (e' := [none]) trivial rfl
    have r3 : Vec.stepT sz true moved spoilt torn dflt ⟨m2, [some buf2]⟩ (.destroy 0) none = .ok (s3, false) := by
      rw [Vec.stepT_none, c1]
      rfl
    refine ⟨s3, by simp only [Vec.try, Vec.runT, r1, r2, r3, Res.bind_ok], c2.shows, ?_⟩
    have := c2.count
    simpa [total] using this

/-! ## Examples -/

/-- A program that catches an exception of a copy, one of `resize`, and one of `pushBack`, and goes on. -/
def demoTry : Vec.TryProg Nat :=
  .stmt (.ofRange [1, 2, 3]) none fun _ =>
  .stmt (.copyNew 0) (some 2) fun t =>
  .stmt (.resize 0 6) (some 6) fun _ =>
  if t then .stmt (.pushBack 0 9) (some 3) fun _ => .stop else .stop

/-- What can be seen of the outcome: the blocks, the variables, constructions and destructions. -/
def Vec.seen (r : Res (Vec.State Nat)) : Res (List (Option (List (Option Nat))) × List (Option Buf) × Nat × Nat) :=
  r.bind (fun s => .ok (s.mem.heap, s.vars, s.mem.ctors, s.mem.dtors))

/-- Growth to six elements stops after two new ones; the copy stopped after one; the last growth is not needed. -/
example : Vec.seen (Vec.try 8 true (fun _ => 0) (· + 100) (fun a _ => a) 7 demoTry) =
    .ok ([none, none, some [some 1, some 2, some 3, some 7, some 7, some 9]], [some ⟨some 2, 6, 6⟩], 10, 4) := by
  decide +kernel

/-- The second move of the growth throws: one element is lost, the first is moved-from and the second is spoilt. -/
example : Vec.seen (Vec.try 8 true (fun _ => 0) (· + 100) (fun a _ => a) 7
      (.stmt (.ofRange [1, 2, 3]) none fun _ => .stmt (.pushBack 0 4) (some 2) fun _ => .stop)) =
    .ok ([some [some 0, some 102, some 3], none], [some ⟨some 0, 3, 3⟩], 4, 0) := by
  decide +kernel

/-- The same where moves do not throw: the allocation fails and everything is as before. -/
example : Vec.seen (Vec.try 8 false (fun _ => 0) (· + 100) (fun a _ => a) 7
      (.stmt (.ofRange [1, 2, 3]) none fun _ => .stmt (.pushBack 0 4) (some 0) fun _ => .stop)) =
    .ok ([some [some 1, some 2, some 3]], [some ⟨some 0, 3, 3⟩], 3, 0) := by
  decide +kernel

/-- A failing copy assignment, and an interrupted assignment of an element. -/
example : Vec.seen (Vec.try 8 true (fun _ => 0) (· + 100) (fun a b => a * 10 + b) 7
      (.stmt (.ofRange [1, 2]) none fun _ => .stmt (.ofRange [3]) none fun _ => .stmt (.copyAssign 1 0) (some 2) fun t =>
        .stmt (.write 1 0 5) (if t then some 0 else none) fun _ => .stop)) =
    .ok ([some [some 1, some 2], some [some 35], none], [some ⟨some 0, 2, 2⟩, some ⟨some 1, 1, 1⟩], 4, 1) := by
  decide +kernel


/-- The preconditions of a program that pushes only if the constructor did not throw. -/
example : Legal 8 true (fun _ => 0) (· + 100) (fun a _ => a) 7 []
    (.stmt (.ofRange [1, 2]) (some 2) fun t => if t then .stop else .stmt (.pushBack 0 3) (some 1) fun _ => .stop) := by
  refine ⟨by simp [Fits], by simp [seqStep], ?_, fun _ _ _ _ _ => trivial⟩
  intro e' he'
  simp only [seqStep, List.nil_append, Option.some.injEq] at he'
  subst he'
  refine ⟨?_, by simp [seqStep, seqOf], fun _ _ => trivial, fun _ _ _ _ _ => trivial⟩
  intro l hl
  simp [seqOf] at hl
  subst hl
  decide

end Coil
