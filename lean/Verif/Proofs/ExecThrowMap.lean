import Verif.Proofs.ExecThrow
import Verif.Props.HeapMapThrow

/-! # The hash map on heaps when memory runs out, as the container of `Bindings` -/

namespace Coil
namespace Oom
open Spec HMap

variable {C D : Type} {c : HMap.Cfg Bytes (Command C D)}

/-- The phase and the entries after a history. -/
def contentAfter (ops : List (DictOp Bytes (Command C D))) : Phase × List (Bytes × Command C D) :=
  ops.foldl (fun p op => (phaseStep p.1 p.2 op, orderStep p.2 op)) (.calm, [])

theorem contentAfter_snoc (ops : List (DictOp Bytes (Command C D))) (op : DictOp Bytes (Command C D)) :
    contentAfter (ops ++ [op]) = (phaseStep (contentAfter ops).1 (contentAfter ops).2 op, orderStep (contentAfter ops).2 op) := by
  simp [contentAfter]

theorem contentAfter_lists (h : List (RegEvent C D)) : Lists (contentAfter (h.map asDictOp)).2 (standing h) := by
  suffices hs : ∀ (ops : List (DictOp Bytes (Command C D))) (p : Phase × List (Bytes × Command C D)) (d : Bytes → Option (Command C D)),
      Lists p.2 d → Lists (ops.foldl (fun p op => (phaseStep p.1 p.2 op, orderStep p.2 op)) p).2 (ops.foldl dictStep d) from
    hs _ _ _ UMap.lists_nil
  intro ops
  induction ops with
  | nil => exact fun p d h => h
  | cons op ops ih => exact fun p d h => ih _ _ (UMap.lists_step h op)

theorem orderStep_length (l : List (Bytes × Command C D)) (op : DictOp Bytes (Command C D)) : (orderStep l op).length ≤ l.length + 1 := by
  cases op with
  | put k v =>
    simp only [orderStep]
    split <;> simp
  | erase k =>
    simp only [orderStep]
    split
    · split
      · omega
      · split
        · simp; omega
        · simp; omega
    · omega
  | clear => simp [orderStep]

theorem contentAfter_length (ops : List (DictOp Bytes (Command C D))) : (contentAfter ops).2.length ≤ ops.length := by
  suffices hs : ∀ (ops : List (DictOp Bytes (Command C D))) (p : Phase × List (Bytes × Command C D)),
      (ops.foldl (fun p op => (phaseStep p.1 p.2 op, orderStep p.2 op)) p).2.length ≤ p.2.length + ops.length by
    have := hs ops (.calm, [])
    simpa [contentAfter] using this
  intro ops
  induction ops with
  | nil => exact fun p => Nat.le_refl _
  | cons op ops ih =>
    intro p
    have := ih (phaseStep p.1 p.2 op, orderStep p.2 op)
    have h2 := orderStep_length p.2 op
    simp only [List.foldl_cons, List.length_cons] at this ⊢
    omega

theorem allowed_last {ops : List (DictOp Bytes (Command C D))} {op : DictOp Bytes (Command C D)} (h : SafeFrom .calm [] (ops ++ [op])) :
    Allowed (contentAfter ops).1 (contentAfter ops).2 op := by
  suffices hs : ∀ (ops : List (DictOp Bytes (Command C D))) (p : Phase × List (Bytes × Command C D)), SafeFrom p.1 p.2 (ops ++ [op]) →
      Allowed (ops.foldl (fun p op => (phaseStep p.1 p.2 op, orderStep p.2 op)) p).1
        (ops.foldl (fun p op => (phaseStep p.1 p.2 op, orderStep p.2 op)) p).2 op from hs ops (.calm, []) h
  intro ops
  induction ops with
  | nil => exact fun p h => h.1
  | cons o ops ih => exact fun p h => ih _ h.2

/-- The heaps hold what the history says. -/
def HeapIs (c : HMap.Cfg Bytes (Command C D)) (h : List (RegEvent C D)) (s : HMap.HState Bytes (Command C D)) : Prop :=
  Represents c s [some (some (contentAfter (h.map asDictOp)))]

theorem HeapIs.shows {h : List (RegEvent C D)} {s : HMap.HState Bytes (Command C D)} (hi : HeapIs c h s) :
    iterate s 0 = .ok (contentAfter (h.map asDictOp)).2 ∧ ∀ k, HMap.find c s 0 k = .ok (standing h k) := by
  have := Represents.shows hi 0
  obtain ⟨h1, _, h3⟩ := this
  refine ⟨h1, fun k => ?_⟩
  rw [h3]
  refine congrArg Res.ok ?_
  have l1 := contentAfter_lists h
  have l2 := lists_lookup l1.1
  apply Option.ext
  intro v
  exact (l2.2 k v).symm.trans (l1.2 k v)

theorem HeapIs.step (hN : 0 < c.nodeSize) (hB : 0 < c.indexSize) (hex : ∀ b, 0 < b → c.exceeds 1 b = false) {h : List (RegEvent C D)}
    {s : HMap.HState Bytes (Command C D)} (hi : HeapIs c h s) (ev : RegEvent C D) (hs : HeapHandled c h)
    (hok : Handled c.fixed (h ++ [ev])) (fail : Fail) :
    ∃ s' threw, stepT c s (.on 0 (asDictOp ev)) fail = .ok (s', threw) ∧ (threw = false → HeapIs c (h ++ [ev]) s') ∧
      (threw = true → HeapIs c h s' ∧ needsMemory (.on 0 (asDictOp ev)) = true ∧ HMapFails fail) := by
  have hlen := contentAfter_length (h.map asDictOp)
  rw [List.length_map] at hlen
  have := C84_step_partial hN hB hex (e := [some (some (contentAfter (h.map asDictOp)))])
    (e1 := [some (some (contentAfter ((h ++ [ev]).map asDictOp)))]) hi (op := .on 0 (asDictOp ev)) ?_ ?_ ?_ fail ?_
  · exact this
  · cases ev with
    | added n fs =>
      intro x hx
      cases hx
      exact ⟨Nat.lt_of_le_of_lt (Nat.mul_le_mul_right _ (by simp only [Content.entries]; omega)) hs.2.1,
        Nat.lt_of_le_of_lt (Nat.mul_le_mul_right _ (by simp only [Content.entries]; omega)) hs.2.2⟩
    | removed n => trivial
    | cleared => trivial
  · rcases hok with h1 | h1
    · exact .inl h1
    · refine .inr ?_
      intro ph l hl
      have hl' : contentAfter (h.map asDictOp) = (ph, l) := by simpa [contentOf] using hl
      unfold SafeHistory at h1
      rw [List.map_append, List.map_singleton] at h1
      have := allowed_last h1
      rw [hl'] at this
      exact this
  · rw [List.map_append, List.map_singleton, contentAfter_snoc]
    rfl
  · intro dst src hx
    cases hx

theorem handled_added {fixed : Bool} {h : List (RegEvent C D)} (hs : Handled fixed h) (n : Bytes) (fs : List (Inst C D)) :
    Handled fixed (h ++ [.added n fs]) := by
  rcases hs with h1 | h1
  · exact .inl h1
  · refine .inr ?_
    unfold SafeHistory at h1 ⊢
    rw [List.map_append]
    suffices hx : ∀ (ops : List (DictOp Bytes (Command C D))) ph l, SafeFrom ph l ops →
        SafeFrom ph l (ops ++ List.map asDictOp [RegEvent.added n fs]) from hx _ _ _ h1
    intro ops
    induction ops with
    | nil => exact fun ph l _ => ⟨trivial, trivial⟩
    | cons o ops ih => exact fun ph l h => ⟨h.1, ih _ _ h.2⟩

theorem heap_implementsT (hN : 0 < c.nodeSize) (hB : 0 < c.indexSize) (hex : ∀ b, 0 < b → c.exceeds 1 b = false) :
    ImplementsT (HeapHandled c) (heapTOps c) (HeapIs c) where
  find hi hs k := hi.shows.2 k
  put {h m} n fs fault hi hs := by
    obtain ⟨s', t, h1, h2, h3⟩ := hi.step hN hB hex (.added n fs) hs (handled_added hs.1 n fs)
      ⟨fault.buckets, if fault.nodes then some 0 else none⟩
    refine ⟨s', t, h1, h2, fun ht => ⟨(h3 ht).1, ?_⟩⟩
    obtain ⟨b, n⟩ := fault
    intro hx
    cases hx
    rcases (h3 ht).2.2 with h | h
    · cases h
    · exact h rfl
  erase {h m} n hi hs := by
    obtain ⟨s', t, h1, h2, h3⟩ := hi.step hN hB hex (.removed n) (heapHandled_prefix _ _ hs) hs.1 .never
    cases t with
    | true => cases (h3 rfl).2.1
    | false =>
      obtain ⟨m', g1, g2⟩ := Res.bind_eq_ok.1 (show calmly (HMap.erase c m 0 n) = _ from h1)
      cases g2
      exact ⟨_, g1, h2 rfl⟩
  clear {h m} hi hs := by
    obtain ⟨s', t, h1, h2, h3⟩ := hi.step hN hB hex .cleared (heapHandled_prefix _ _ hs) hs.1 .never
    cases t with
    | true => cases (h3 rfl).2.1
    | false =>
      obtain ⟨m', g1, g2⟩ := Res.bind_eq_ok.1 (show calmly (HMap.clear c m 0) = _ from h1)
      cases g2
      simp only [heapTOps, heapOps, g1]
      exact h2 rfl
  all {h m} hi hs id := by
    simp only [heapTOps, heapOps, hi.shows.1]
    exact ids_iff (contentAfter_lists h) id

theorem heap_madeT (hN : 0 < c.nodeSize) (hB : 0 < c.indexSize) (hex : ∀ b, 0 < b → c.exceeds 1 b = false) (hs : c.indexSize < 2 ^ 64)
    (fail : Bool) : ∃ s threw, createT c (start : HMap.HState Bytes (Command C D)) 1 fail = .ok (s, threw) ∧ (threw = false → HeapIs c [] s) ∧
      (threw = true → fail = true) := by
  obtain ⟨s, t, h1, h2, h3⟩ := C84_step_partial hN hB hex (h := (start : HMap.HState Bytes (Command C D))) (e := [])
    (e1 := [some (some (.calm, []))]) ⟨[], rel_start, holding_nil⟩ (op := .create 1) (show 1 * c.indexSize < 2 ^ 64 by omega)
    (.inr trivial) rfl ⟨fail, none⟩ (by intro dst src hx; cases hx)
  refine ⟨s, t, h1, h2, fun ht => ?_⟩
  rcases (h3 ht).2.2 with h | h
  · exact h
  · exact absurd rfl h

end Oom
end Coil
