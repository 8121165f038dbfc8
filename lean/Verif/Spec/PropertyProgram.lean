import Verif.Model.PropertyProgram
import Verif.Spec.Account
import Verif.Spec.Float
import Verif.Spec.Pool
import Verif.Spec.Swarm

/-!
# Specification of the program of examples/properties
-/

namespace Coil.Spec

/-- The number is converted to the integer `n` of type `std::size_t`: the fraction is dropped, and the result is not negative and fits. -/
def Truncates (x : Fl) (n : Nat) : Prop :=
  ∃ neg m e, x = .fin neg m e ∧ n ≤ mag m e ∧ mag m e < n + 1 ∧ (n = 0 ∨ neg = false ∧ n < 2 ^ 64)

/-- A list with another length: elements are dropped at the end, or zeros are appended. -/
def Resized (xs : List Int) (n : Nat) (ys : List Int) : Prop := ys.length = n ∧ ∀ k < n, ys[k]? = some (xs[k]?.getD 0)

/-- The read-only properties. -/
def fixedNames (nan : Fl → Fl → Bool) (hypot : Fl → Fl → Fl) : List (Bytes × (Window → Fl)) :=
  [(lit "window.readonly_aspect", Window.aspect nan), (lit "window.readonly_diagonal", Window.diagonal nan hypot)]

/-- The width for an aspect. -/
def aspectWidth (nan : Fl → Fl → Bool) (w : Window) (x : Fl) : Fl := Fl.mul .single nan x (Fl.ofNat .single w.height)

/-- A side for a diagonal. -/
def scaledSide (nan : Fl → Fl → Bool) (hypot : Fl → Fl → Fl) (w : Window) (side : Nat) (x : Fl) : Fl :=
  Fl.mul .single nan (Fl.ofNat .single side) (Fl.div .single nan x (w.diagonal nan hypot))

/-- What the commands do. -/
inductive PropTold (refuse : Nat → Option Exn) (tiny : Nat → Nat → Bool) (nan : Fl → Fl → Bool) (hypot : Fl → Fl → Fl) : Account PropWorld
  | printSize {h named} : PropTold refuse tiny nan hypot h ⟨lit "window.print_size", [], named⟩ h
      (.good none (natDec h.window.width ++ lit "x" ++ natDec h.window.height ++ lit "\n"))
  | aspect {h named} : PropTold refuse tiny nan hypot h ⟨lit "window.aspect", [], named⟩ h
      (.good (some ((singleConv tiny).toString (h.window.aspect nan))) [])
  | diagonal {h named} : PropTold refuse tiny nan hypot h ⟨lit "window.diagonal", [], named⟩ h
      (.good (some ((singleConv tiny).toString (h.window.diagonal nan hypot))) [])
  | setAspect {h t x n w named} : ReadsFloat tiny t x → Truncates (aspectWidth nan h.window x) n → w = ⟨n, h.window.height⟩ →
      PropTold refuse tiny nan hypot h ⟨lit "window.aspect", [⟨[t]⟩], named⟩ ⟨w, h.data⟩ (.good (some ((singleConv tiny).toString (w.aspect nan))) [])
  | setDiagonal {h t x m n w named} : ReadsFloat tiny t x → Truncates (scaledSide nan hypot h.window h.window.width x) m →
      Truncates (scaledSide nan hypot h.window h.window.height x) n → w = ⟨m, n⟩ →
      PropTold refuse tiny nan hypot h ⟨lit "window.diagonal", [⟨[t]⟩], named⟩ ⟨w, h.data⟩
        (.good (some ((singleConv tiny).toString (w.diagonal nan hypot))) [])
  | fixed {h name getter named} : (name, getter) ∈ fixedNames nan hypot →
      PropTold refuse tiny nan hypot h ⟨name, [], named⟩ h (.good (some ((singleConv tiny).toString (getter h.window))) [])
  | fix {h name getter t x named} : (name, getter) ∈ fixedNames nan hypot → ReadsFloat tiny t x →
      PropTold refuse tiny nan hypot h ⟨name, [⟨[t]⟩], named⟩ h (.bad [lit "This property is read-only"])
  | data {h named} : PropTold refuse tiny nan hypot h ⟨lit "data", [], named⟩ h
      (.good none (lit "{ " ++ (h.data.map fun x => intDec x ++ lit " ").flatten ++ lit "}"))
  | size {h named} : PropTold refuse tiny nan hypot h ⟨lit "data.size", [], named⟩ h (.good (some (natDec h.data.length)) [])
  | setSize {h t} {n : Nat} {ys named} : IndexText t (n : Int) → (n ≤ h.data.length ∨ refuse n = none) → Resized h.data n ys →
      PropTold refuse tiny nan hypot h ⟨lit "data.size", [⟨[t]⟩], named⟩ ⟨h.window, ys⟩ (.good (some (natDec n)) [])
  | refused {h t} {n : Nat} {e named} : IndexText t (n : Int) → h.data.length < n → refuse n = some e →
      PropTold refuse tiny nan hypot h ⟨lit "data.size", [⟨[t]⟩], named⟩ h ⟨[], none, [], some e⟩

/-- The commands that make the program undefined: a width or height that is negative, too great, infinite or no number. -/
def PropTrouble (tiny : Nat → Nat → Bool) (nan : Fl → Fl → Bool) (hypot : Fl → Fl → Fl) (h : PropWorld) (i : Input) : Prop :=
  ∃ t x, i.arguments = [⟨[t]⟩] ∧ ReadsFloat tiny t x ∧
    ((i.name = lit "window.aspect" ∧ ¬ ∃ n, Truncates (aspectWidth nan h.window x) n) ∨
     (i.name = lit "window.diagonal" ∧ ((¬ ∃ n, Truncates (scaledSide nan hypot h.window h.window.width x) n) ∨
        ¬ ∃ n, Truncates (scaledSide nan hypot h.window h.window.height x) n)))

end Coil.Spec
