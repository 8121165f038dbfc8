import Verif.Model.TypeName
import Verif.Spec.Typed

/-! # Lemmas about type names -/

namespace Coil.TypeNames

/-- The types without parts. -/
def bases : List CTy :=
  [.void, .bool, .float, .double, .longDouble, .text, .raw, .int .char, .int .schar, .int .uchar, .int .short, .int .ushort, .int .int,
    .int .uint, .int .long, .int .ulong, .int .llong, .int .ullong]

/-- A platform with the given naming. -/
def naming (a l : Bool) : Platform := ⟨true, true, a, l⟩

theorem name_naming (pl : Platform) (t : CTy) : t.name pl = t.name (naming pl.intAlias pl.int64IsLong) := by
  induction t with
  | int t => rfl
  | vec t ih => simp only [CTy.name, ih]
  | opt t ih => simp only [CTy.name, ih]
  | _ => rfl

theorem bases_inj : ∀ a l : Bool, ∀ t ∈ bases, ∀ u ∈ bases, t.name (naming a l) = u.name (naming a l) → t = u := by decide +kernel

theorem bases_vec : ∀ a l : Bool, ∀ t ∈ bases, (lit "vector<").isPrefixOf (t.name (naming a l)) = false := by decide +kernel

theorem bases_opt : ∀ a l : Bool, ∀ t ∈ bases, (lit "optional<").isPrefixOf (t.name (naming a l)) = false := by decide +kernel

theorem base_or (t : CTy) : t ∈ bases ∨ (∃ u, t = .vec u) ∨ ∃ u, t = .opt u := by
  cases t with
  | int t => cases t <;> simp [bases]
  | vec u => exact .inr (.inl ⟨u, rfl⟩)
  | opt u => exact .inr (.inr ⟨u, rfl⟩)
  | _ => simp [bases]

theorem isPrefixOf_append (a b : Bytes) : a.isPrefixOf (a ++ b) = true := by
  induction a with
  | nil => rfl
  | cons x a ih => simp [ih]

theorem name_inj (a l : Bool) (t u : CTy) (h : t.name (naming a l) = u.name (naming a l)) : t = u := by
  have hvo : ∀ t u : CTy, (CTy.vec t).name (naming a l) ≠ (CTy.opt u).name (naming a l) := by
    intro t u h
    have h1 := congrArg List.head? h
    revert h1
    simp only [CTy.name, List.append_assoc]
    rw [show lit "vector<" = 118 :: lit "ector<" by decide, show lit "optional<" = 111 :: lit "ptional<" by decide]
    simp
  have hb : ∀ t ∈ bases, ∀ u : CTy, t.name (naming a l) = u.name (naming a l) → t = u := by
    intro t ht u h
    rcases base_or u with hu | ⟨u, rfl⟩ | ⟨u, rfl⟩
    · exact bases_inj a l _ ht u hu h
    · have := bases_vec a l t ht
      rw [h] at this
      simp only [CTy.name, List.append_assoc, isPrefixOf_append] at this
      cases this
    · have := bases_opt a l t ht
      rw [h] at this
      simp only [CTy.name, List.append_assoc, isPrefixOf_append] at this
      cases this
  induction t generalizing u with
  | vec t ih =>
    rcases base_or u with hu | ⟨u, rfl⟩ | ⟨u, rfl⟩
    · exact (hb u hu _ h.symm).symm
    · simp only [CTy.name, List.append_assoc, List.append_cancel_left_eq, List.append_cancel_right_eq] at h
      rw [ih u h]
    · exact absurd h (hvo _ _)
  | opt t ih =>
    rcases base_or u with hu | ⟨u, rfl⟩ | ⟨u, rfl⟩
    · exact (hb u hu _ h.symm).symm
    · exact absurd h.symm (hvo _ _)
    · simp only [CTy.name, List.append_assoc, List.append_cancel_left_eq, List.append_cancel_right_eq] at h
      rw [ih u h]
  | int t => exact hb _ (by cases t <;> simp [bases]) u h
  | _ => exact hb _ (by simp [bases]) u h

end Coil.TypeNames
