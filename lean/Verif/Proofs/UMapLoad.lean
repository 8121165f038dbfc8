import Verif.Proofs.UMapEntries
import Verif.Proofs.UMapSim

/-! # Numbers of buckets and nodes -/

namespace Coil
open Spec
namespace UMap

variable {K V : Type} {hash : K → Nat} {m m' : UMap K V}

theorem writeAt_length {α : Type} {l l' : List α} {i : Nat} {a : α} (h : writeAt l i a = .ok l') : l'.length = l.length := by
  unfold writeAt at h
  split at h
  · cases h; simp
  · simp at h

theorem setBucket_length {l l' : List (Option Nat)} {b x : Option Nat} (h : setBucket l b x = .ok l') : l'.length = l.length := by
  unfold setBucket at h
  split at h
  · exact writeAt_length h
  · simp at h

theorem insertNode_buckets {new : Nat} (h : insertNode hash m new = .ok m') : m'.buckets.length = m.buckets.length := by
  simp only [insertNode, Res.bind_eq_ok] at h
  obtain ⟨nd, _, b, _, n1, h1, first, _, h⟩ := h
  split at h
  · obtain ⟨bs, hb, h⟩ := Res.bind_eq_ok.1 h
    cases h
    exact writeAt_length hb
  · obtain ⟨n2, h2, h⟩ := Res.bind_eq_ok.1 h
    cases h
    rfl

theorem rehashLoop_buckets : ∀ {count i : Nat} {m : UMap K V}, rehashLoop hash count i m = .ok m' →
    m'.buckets.length = m.buckets.length := by
  intro count
  induction count with
  | zero => intro i m h; cases h; rfl
  | succ count ih =>
    intro i m h
    simp only [rehashLoop, Res.bind_eq_ok] at h
    obtain ⟨m1, h1, h2⟩ := h
    rw [ih h2, insertNode_buckets h1]

theorem unlink_buckets {i : Nat} (h : unlink m i = .ok m') : m'.buckets.length = m.buckets.length := by
  have tail : ∀ (e1 : UNode K V) (m1 : UMap K V), (match e1.next with
      | some q => do
        let nodes2 ← modifyAt m1.nodes q (fun n => { n with prev := e1.prev })
        let nodes3 ← modifyAt nodes2 i (fun n => { n with prev := none, next := none })
        Res.ok (⟨m1.buckets, nodes3⟩ : UMap K V)
      | none => do
        let nodes2 ← Res.ok m1.nodes
        let nodes3 ← modifyAt nodes2 i (fun n => { n with prev := none, next := none })
        Res.ok (⟨m1.buckets, nodes3⟩ : UMap K V)) = .ok m' → m'.buckets = m1.buckets := by
    intro e1 m1 h
    split at h
    · simp only [Res.bind_eq_ok] at h
      obtain ⟨n2, h2, n3, h3, h⟩ := h
      cases h
      rfl
    · simp only [Res.bind_eq_ok] at h
      obtain ⟨n2, h2, n3, h3, h⟩ := h
      cases h
      rfl
  unfold unlink at h
  obtain ⟨e, _, h⟩ := Res.bind_eq_ok.1 h
  split at h
  · obtain ⟨n1, h1, h⟩ := Res.bind_eq_ok.1 h
    obtain ⟨m1, h2, h⟩ := Res.bind_eq_ok.1 h
    obtain ⟨e1, _, h⟩ := Res.bind_eq_ok.1 h
    cases h2
    rw [tail _ _ h]
  · obtain ⟨n1, h1, h⟩ := Res.bind_eq_ok.1 h
    obtain ⟨m1, h2, h⟩ := Res.bind_eq_ok.1 h
    obtain ⟨e1, _, h⟩ := Res.bind_eq_ok.1 h
    cases h2
    rw [tail _ _ h]
    exact setBucket_length h1

theorem fillHole_buckets {fixed : Bool} {i : Nat} (h : fillHole fixed m i = .ok m') : m'.buckets.length = m.buckets.length := by
  unfold fillHole at h
  split at h
  · obtain ⟨l, hl, h⟩ := Res.bind_eq_ok.1 h
    split at h
    · obtain ⟨n1, h1, h⟩ := Res.bind_eq_ok.1 h
      obtain ⟨m1, h2, h⟩ := Res.bind_eq_ok.1 h
      cases h2
      simp only [Res.bind_eq_ok] at h
      obtain ⟨_, _, _, _, _, _, _, _, _, _, _, _, h⟩ := h
      cases h
      rfl
    · obtain ⟨n1, h1, h⟩ := Res.bind_eq_ok.1 h
      obtain ⟨m1, h2, h⟩ := Res.bind_eq_ok.1 h
      cases h2
      simp only [Res.bind_eq_ok] at h
      obtain ⟨_, _, _, _, _, _, _, _, _, _, _, _, h⟩ := h
      cases h
      exact setBucket_length h1
  · cases h
    rfl

theorem size_eq (m : UMap K V) : m.size = m.nodes.length := rfl

section
variable [DecidableEq K]

theorem erase_size {fixed : Bool} {k : K} (h : eraseWith hash fixed m k = .ok m') :
    m'.buckets.length = m.buckets.length ∧ m'.nodes.length ≤ m.nodes.length := by
  unfold eraseWith at h
  obtain ⟨o, ho, h⟩ := Res.bind_eq_ok.1 h
  split at h
  · cases h; exact ⟨rfl, Nat.le_refl _⟩
  · rename_i i
    obtain ⟨m1, h4, h5⟩ := Res.bind_eq_ok.1 h
    refine ⟨by rw [fillHole_buckets h5, unlink_buckets h4], ?_⟩
    have e1 : m1.nodes.length = m.nodes.length := by
      rw [← entries_length, unlink_kv h4, entries_length]
    obtain ⟨nd, hn, _⟩ := findIndex_key ho
    have hi := (List.getElem?_eq_some_iff.1 hn).1
    obtain ⟨k1, z, k2, g1, g2, g3⟩ := fillHole_kv (by omega) h5
    have l1 := congrArg List.length g1
    have l2 := g3.length_eq
    rw [entries_length] at l1 l2
    simp at l1 l2
    omega

theorem put_size {exceeds : Nat → Nat → Bool} {k : K} {v : V} (h : insertOrAssign hash exceeds m k v = .ok m') :
    (m'.nodes.length = m.nodes.length ∧ m'.buckets.length = m.buckets.length) ∨
    (m'.nodes.length = m.nodes.length + 1 ∧
      ((exceeds (m.nodes.length + 1) m.buckets.length = false ∧ m'.buckets.length = m.buckets.length) ∨
       (exceeds (m.nodes.length + 1) m.buckets.length = true ∧ m'.buckets.length = m.nodes.length * 2))) := by
  unfold insertOrAssign at h
  obtain ⟨o, ho, h⟩ := Res.bind_eq_ok.1 h
  split at h
  · obtain ⟨l, hl, h⟩ := Res.bind_eq_ok.1 h
    cases h
    refine .inl ⟨?_, rfl⟩
    have := modifyAt_get hl
    unfold modifyAt at hl
    split at hl
    · cases hl; simp
    · simp at hl
  · obtain ⟨m1, h1, h2⟩ := Res.bind_eq_ok.1 h
    have e1 := growIfNeeded_kv h1
    have e2 := insertNode_kv h2
    have len : m'.nodes.length = m.nodes.length + 1 := by
      rw [← entries_length, e2, entries_length]
      simp only [List.length_append, List.length_singleton]
      rw [← entries_length m1, e1, entries_length]
    have hb := insertNode_buckets h2
    refine .inr ⟨len, ?_⟩
    unfold growIfNeeded rehash at h1
    split at h1
    · rename_i he
      refine .inr ⟨he, ?_⟩
      rw [hb]
      have := rehashLoop_buckets h1
      simpa using this
    · rename_i he
      cases h1
      exact .inl ⟨by simpa using he, hb⟩

end

end UMap
end Coil
