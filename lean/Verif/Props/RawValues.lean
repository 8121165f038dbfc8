import Verif.Props.Typed

/-!
# Vectors and optionals of `coil::Value` (C58)

`TypeSerializer<Value>::fromString` returns a reference to its argument (Value.h 44-49). The serializers of `std::vector` and
`std::optional` give it a temporary and use the reference after the temporary is destroyed (StdLibCompat.h 55-58, 101-103).
-/

namespace Coil
open Spec

/-- **C58, negation.** Every non-empty argument for a parameter `std::vector<coil::Value>` is read from a destroyed object. -/
theorem C58_vector_false (s : Bytes) (rest : List Bytes) : (vecConv valueConv).fromString ⟨s :: rest⟩ = .ub .deadObject := by
  simp [vecConv, vecLoop, onTemporary_dead (c := valueConv) rfl rfl]

/-- **C58, negation.** Every argument for a parameter `std::optional<coil::Value>` that starts with a non-empty text is read
from a destroyed object. -/
theorem C58_optional_false {s : Bytes} (hs : s ≠ []) (rest : List Bytes) :
    (optConv valueConv).fromString ⟨s :: rest⟩ = .ub .deadObject := by
  simp [optConv, hs, onTemporary_dead (c := valueConv) rfl rfl]

/-- **C58, partial.** Missing: arguments with content, see above. A plain `coil::Value` gets the argument as it is; an empty argument
gives an empty vector and an empty optional. -/
theorem C58_partial (v : Value) :
    valueConv.fromString v = .ok (.ok v) ∧ (vecConv valueConv).fromString ⟨[]⟩ = .ok (.ok []) ∧
    (optConv valueConv).fromString ⟨[]⟩ = .ok (.ok none) ∧ (optConv valueConv).fromString ⟨[[]]⟩ = .ok (.ok none) :=
  ⟨rfl, rfl, rfl, rfl⟩

theorem onTemporary_ub {α : Type} {c : Conv α} {s : Bytes} {w : UB} (h : c.fromString ⟨[s]⟩ = .ub w) : c.onTemporary s = .ub w := by
  simp [Conv.onTemporary, h]

theorem vecLoop_defined {α : Type} {c : Conv α} (h : ∀ s, c.onTemporary s ≠ .ub .deadObject) (n : Bytes) (v : Value) :
    ∀ (l : List Bytes) (acc : List α), vecLoop c n v l acc ≠ .ub .deadObject := by
  intro l
  induction l with
  | nil => intro acc; simp [vecLoop]
  | cons s l ih =>
    intro acc
    simp only [vecLoop]
    rcases h' : c.onTemporary s with (e | x) | w | _
    · simp
    · simpa using ih _
    · intro hw
      simp at hw
      exact h s (by rw [h', hw])
    · simp

/-- **C58, exactly which types.** A parameter type reads destroyed objects for some argument exactly if it contains a vector or an optional
of `coil::Value`; the argument `x` already shows it. -/
theorem C58_exact (pl : Platform) (a : PTy) :
    (a.Usable → ∀ v, (a.conv pl).fromString v ≠ .ub .deadObject) ∧
    (¬ a.Usable → (a.conv pl).fromString ⟨[lit "x"]⟩ = .ub .deadObject) := by
  have hx : lit "x" ≠ [] := by decide
  induction a with
  | int t =>
    refine ⟨fun _ v => ?_, fun h => absurd trivial h⟩
    obtain ⟨l⟩ := v
    simp only [PTy.conv, intConv, arithConv]
    split
    · split <;> simp
    · simp
  | bool =>
    refine ⟨fun _ v => ?_, fun h => absurd trivial h⟩
    obtain ⟨l⟩ := v
    match l with
    | [] => simp [PTy.conv, boolConv]
    | [s] =>
      simp only [PTy.conv, boolConv, equalCaseInsensitive]
      intro h
      have key : ∀ w, (if w.length ≠ s.length then Res.ok false else equalLoop pl.charSigned s w) ≠ .ub .deadObject := by
        intro w
        split
        · simp
        · rcases equalLoop_total pl.charSigned s w with ⟨r, hr⟩ | hr <;> simp [hr]
      split at h
      · simp at h
      · split at h
        · simp at h
        · rcases h1 : (if (lit "true").length ≠ s.length then Res.ok false else equalLoop pl.charSigned s (lit "true")) with b | w | _
          · rw [h1] at h
            rcases h2 : (if (lit "false").length ≠ s.length then Res.ok false else equalLoop pl.charSigned s (lit "false")) with b' | w | _
            · rw [h2] at h
              cases b <;> cases b' <;> simp at h
            · rw [h2] at h
              cases b <;> simp at h
              exact key _ (h ▸ h2)
            · rw [h2] at h
              cases b <;> simp at h
          · rw [h1] at h
            simp at h
            exact key _ (h ▸ h1)
          · rw [h1] at h
            simp at h
    | _ :: _ :: _ => simp [PTy.conv, boolConv]
  | text =>
    refine ⟨fun _ v => ?_, fun h => absurd trivial h⟩
    obtain ⟨l⟩ := v
    match l with
    | [] => simp [PTy.conv, stringConv]
    | [s] => simp [PTy.conv, stringConv]
    | _ :: _ :: _ => simp [PTy.conv, stringConv]
  | raw => exact ⟨fun _ v => by simp [PTy.conv, valueConv], fun h => absurd trivial h⟩
  | vec a ih =>
    refine ⟨fun h v => ?_, fun h => ?_⟩
    · refine vecLoop_defined (fun s => ?_) _ _ _ _
      rw [onTemporary_eq (owned_conv pl h.1)]
      exact ih.1 h.2 _
    · by_cases ha : a = .raw
      · subst ha
        exact C58_vector_false _ _
      · have hu : ¬ a.Usable := fun hu => h ⟨by cases a <;> simp_all [PTy.Owned], hu⟩
        simp [PTy.conv, vecConv, vecLoop, onTemporary_ub (ih.2 hu)]
  | opt a ih =>
    refine ⟨fun h v => ?_, fun h => ?_⟩
    · obtain ⟨l⟩ := v
      simp only [PTy.conv, optConv]
      match l with
      | [] => simp
      | s :: rest =>
        simp only
        split
        · simp
        · rw [onTemporary_eq (owned_conv pl h.1)]
          have := ih.1 h.2 ⟨[s]⟩
          rcases h' : (a.conv pl).fromString ⟨[s]⟩ with (e | x) | w | _
          · simp
          · simp
          · rw [h'] at this
            simpa using this
          · simp
    · by_cases ha : a = .raw
      · subst ha
        exact C58_optional_false hx _
      · have hu : ¬ a.Usable := fun hu => h ⟨by cases a <;> simp_all [PTy.Owned], hu⟩
        simp [PTy.conv, optConv, hx, onTemporary_ub (ih.2 hu)]

/-- Usable and unusable types. -/
example : (PTy.vec (.opt .text)).Usable ∧ PTy.raw.Usable ∧ ¬ (PTy.opt (.vec .raw)).Usable := by
  simp [PTy.Usable, PTy.Owned]

/-- The other element types are not affected. -/
example : (vecConv stringConv).fromString ⟨[lit "a", lit "b"]⟩ = .ok (.ok [lit "a", lit "b"]) := by decide +kernel

end Coil
