import Verif.Proofs.Text
import Verif.Props.Conv
import Verif.Props.Typed

/-!
# The texts of vectors and optionals (C66)
-/

namespace Coil
open Spec

/-- **C66.** The text of a vector: the texts of its elements, in order, with `, ` between them, in brackets. -/
theorem C66_vector_text {α : Type} (c : Conv α) (xs : List α) :
    (vecConv c).toString xs = bracketed (xs.map c.toString) := Texts.vector_text c xs

/-- **C66.** The text of an optional: that of its value, or nothing. -/
theorem C66_optional_text {α : Type} (c : Conv α) :
    (optConv c).toString none = [] ∧ ∀ x, (optConv c).toString (some x) = c.toString x := ⟨rfl, fun _ => rfl⟩

/-- **C66.** The text of a number, truth value, or vector (of vectors, to any depth) of these determines the value. -/
theorem C66_determined (pl : Platform) (a : PTy) (ha : a.Numeric) {x y : a.T} (hx : a.AllFit pl x) (hy : a.AllFit pl y)
    (h : (a.conv pl).toString x = (a.conv pl).toString y) : x = y := by
  induction a with
  | int t =>
    have h1 := C11_int_roundtrip pl t hx
    have h2 := C11_int_roundtrip pl t hy
    rw [show (intConv pl t).toString x = (intConv pl t).toString y from h, h2] at h1
    simpa using h1.symm
  | bool =>
    have hb : ∀ b c : Bool, (if b then lit "true" else lit "false") = (if c then lit "true" else lit "false") → b = c := by decide
    exact hb x y h
  | text => exact ha.elim
  | raw => exact ha.elim
  | opt a => exact ha.elim
  | vec a ih =>
    have h' : (vecConv (a.conv pl)).toString x = (vecConv (a.conv pl)).toString y := h
    rw [C66_vector_text, C66_vector_text] at h'
    have hs : ∀ (zs : List a.T), ∀ t ∈ zs.map (a.conv pl).toString, Separable t := by
      intro zs t ht
      obtain ⟨z, _, rfl⟩ := List.mem_map.1 ht
      exact Texts.numeric_separable pl a ha z
    have hm := Texts.bracketed_inj (hs _) (hs _) h'
    clear h h'
    have hx : ∀ z ∈ (show List a.T from x), a.AllFit pl z := hx
    have hy : ∀ z ∈ (show List a.T from y), a.AllFit pl z := hy
    show (show List a.T from x) = (show List a.T from y)
    have key : ∀ (x y : List a.T), (∀ z ∈ x, a.AllFit pl z) → (∀ z ∈ y, a.AllFit pl z) →
        x.map (a.conv pl).toString = y.map (a.conv pl).toString → x = y := by
      intro x
      induction x with
      | nil => intro y _ _ hm; cases y with
        | nil => rfl
        | cons _ _ => simp at hm
      | cons u x ihx =>
        intro y hx hy hm
        cases y with
        | nil => simp at hm
        | cons v y =>
          simp only [List.map_cons, List.cons.injEq] at hm
          rw [ih ha (hx u (by simp)) (hy v (by simp)) hm.1,
            ihx y (fun z hz => hx z (by simp [hz])) (fun z hz => hy z (by simp [hz])) hm.2]
    exact key x y hx hy hm

/-- **C66**, the limits: texts of vectors of strings and of optionals do not determine the vector. -/
theorem C66_strings_false :
    (vecConv stringConv).toString [lit "a, b"] = (vecConv stringConv).toString [lit "a", lit "b"] ∧
    (vecConv stringConv).toString [[]] = (vecConv stringConv).toString [] ∧
    (vecConv (optConv (boolConv linux64))).toString [none] = (vecConv (optConv (boolConv linux64))).toString [] := by
  refine ⟨?_, ?_, ?_⟩ <;> decide +kernel

example : ((PTy.vec (.vec (.int .short))).conv linux64).toString [[1, -2], [], [30]] = lit "[[1, -2], [], [30]]" := by decide +kernel

end Coil
