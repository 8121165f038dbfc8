import Verif.Model.Assert
import Verif.Spec.Asserts

/-! # Facts on assertions -/

namespace Coil
open Spec

theorem Spec.Stops.refl {α : Type} (x : Res α) : Stops x x := .inl rfl

theorem Spec.Stops.bind {α β : Type} {x y : Res α} {f g : α → Res β} (h : Stops x y) (hf : ∀ a, Stops (f a) (g a)) :
    Stops (x >>= f) (y >>= g) := by
  rcases h with rfl | rfl
  · cases x with
    | ok a => exact hf a
    | ub u => exact .inl rfl
    | diverge => exact .inl rfl
  · exact .inr rfl

theorem Spec.Stops.of_ok {α : Type} {x y : Res α} {a : α} (h : Stops x y) (hx : x = .ok a) : y = .ok a := by
  rcases h with h | h
  · rw [← h, hx]
  · rw [h] at hx
    simp at hx

theorem Spec.Stops.check {β : Type} {c : Prop} [Decidable c] {x y : Res β} (h : Stops x y) : Stops (assertThat c >>= fun _ => x) y := by
  unfold assertThat
  split
  · exact h
  · exact .inr rfl

theorem assertThat_pos {c : Prop} [Decidable c] (h : c) : assertThat c = .ok () := if_pos h

theorem Spec.Contained.ok {α : Type} {a : α} : Contained (.ok a : Res α) := by simp [Contained]
theorem Spec.Contained.stop {α : Type} : Contained (.ub .assertion : Res α) := by simp [Contained]
theorem Spec.Contained.diverge {α : Type} : Contained (.diverge : Res α) := by simp [Contained]

theorem Spec.Contained.bind {α β : Type} {x : Res α} {f : α → Res β} (h : Contained x) (hf : ∀ a, x = .ok a → Contained (f a)) :
    Contained (x >>= f) := by
  cases x with
  | ok a => exact hf a rfl
  | ub u =>
    intro w hw
    simp at hw
    exact h w (by rw [hw])
  | diverge => exact .diverge

theorem Spec.Contained.check {c : Prop} [Decidable c] : Contained (assertThat c) := by
  unfold assertThat
  split
  · exact .ok
  · exact .stop

section
variable {α : Type} {l : List α} {i : Nat}

theorem stops_read : Stops (readC l i) (readAt l i) := Stops.check (.refl _)
theorem stops_write {a : α} : Stops (writeC l i a) (writeAt l i a) := Stops.check (.refl _)

theorem contained_read : Contained (readC l i) := by
  unfold readC assertThat
  split
  · rename_i h
    simp [readAt_of_lt h]
    exact .ok
  · exact .stop

theorem contained_write {a : α} : Contained (writeC l i a) := by
  unfold writeC assertThat
  split
  · rename_i h
    simp [writeAt, h]
    exact .ok
  · exact .stop

theorem readC_of_ok {a : α} (h : readAt l i = .ok a) : readC l i = .ok a := by
  have : i < l.length := by
    unfold readAt at h
    split at h
    · rename_i h'
      exact (List.getElem?_eq_some_iff.1 h').1
    · simp at h
  simp only [readC, assertThat_pos this, Res.bind_ok, h]

theorem lt_of_readAt {a : α} (h : readAt l i = .ok a) : i < l.length := by
  unfold readAt at h
  split at h
  · rename_i h'
    exact (List.getElem?_eq_some_iff.1 h').1
  · simp at h

theorem lt_of_writeAt {a : α} {l' : List α} (h : writeAt l i a = .ok l') : i < l.length := by
  unfold writeAt at h
  split at h
  · assumption
  · simp at h

theorem writeC_of_ok {a : α} {l' : List α} (h : writeAt l i a = .ok l') : writeC l i a = .ok l' := by
  simp only [writeC, assertThat_pos (lt_of_writeAt h), Res.bind_ok, h]

end

end Coil
