import Verif.Spec.Swarm
import Verif.Spec.Pool
import Verif.Spec.Answered
import Verif.Model.BasicExample

/-!
# Specification of the program of examples/basic

Only one thing is ever changed: what was written to the console. So a history is the number of greetings.
-/

namespace Coil.Spec

/-- What `hello_with_context` writes. -/
def greetingText : Bytes :=
  lit "log: no automatic line break\nlogline: line break is added automatically\nlogf: no automatic line break, but formatted\nloglinef: automatic line break and formatted\n"

/-- Who answers to a command with an introduction. -/
def speakers : List (Bytes × Bytes) :=
  [(lit "plain_function", lit "function"), (lit "lambda", lit "lambda"), (lit "custom_functor", lit "custom functor"), (lit "std_function", lit "std::function")]

/-- The commands that multiply. -/
def scalers : List (Bytes × Int) := [(lit "scaler1.scale", 2), (lit "scaler2.scale", 10)]

/-- A text that stands for an `int`. -/
def IntText (pl : Platform) (t : Bytes) (z : Int) : Prop := Numeral t z ∧ InRange pl .int z

/-- What the commands do. -/
inductive BasicTold (pl : Platform) (tiny : Nat → Nat → Bool) (nan : Fl → Fl → Bool) : Telling Nat
  | hello {h named} : BasicTold pl tiny nan h ⟨lit "hello", [], named⟩ (h + 1) none []
  | greeting {h named} : BasicTold pl tiny nan h ⟨lit "hello_with_context", [], named⟩ h none greetingText
  | repeated {h s t k named} : IndexText t k →
      BasicTold pl tiny nan h ⟨lit "print_repeated", [⟨[s]⟩, ⟨[t]⟩], named⟩ h none (List.replicate k.toNat s).flatten
  | quoted {h s named} : BasicTold pl tiny nan h ⟨lit "print_quoted", [⟨[s]⟩], named⟩ h none ([39] ++ upToNul s ++ [39, 10])
  | invert {h t b named} : BoolWord t b →
      BasicTold pl tiny nan h ⟨lit "invert", [⟨[t]⟩], named⟩ h (some (if b then lit "false" else lit "true")) []
  | add {h s t x y named} : ReadsFloat tiny s x → ReadsFloat tiny t y →
      BasicTold pl tiny nan h ⟨lit "add", [⟨[s]⟩, ⟨[t]⟩], named⟩ h (some ((singleConv tiny).toString (Fl.add .single nan x y))) []
  | concat {h s t named} : BasicTold pl tiny nan h ⟨lit "concat", [⟨[s]⟩, ⟨[t]⟩], named⟩ h (some (s ++ t)) []
  | speak {h n who t z named} : (n, who) ∈ speakers → IntText pl t z →
      BasicTold pl tiny nan h ⟨n, [⟨[t]⟩], named⟩ h (some (lit "I am a " ++ who ++ lit ": " ++ intDec z)) []
  | scale {h n m t z named} : (n, m) ∈ scalers → IntText pl t z → InRange pl .int (m * z) →
      BasicTold pl tiny nan h ⟨n, [⟨[t]⟩], named⟩ h (some (intDec (m * z))) []

/-- A text of the length of `true` or `false` that has one of the bytes 0x80..0xFE after a beginning of that word. -/
def OddWord (s : Bytes) : Prop :=
  ∃ w, (w = lit "true" ∨ w = lit "false") ∧ s.length = w.length ∧
    ∃ p c r p' d r', s = p ++ c :: r ∧ w = p' ++ d :: r' ∧ Forall2 SameLetter p p' ∧ 128 ≤ c ∧ c ≠ 255

/-- The commands that make the program undefined: a product that is no `int`, and `invert` of an odd word where `char` is signed. -/
def BasicTrouble (pl : Platform) (i : Input) : Prop :=
  (∃ m t z, (i.name, m) ∈ scalers ∧ i.arguments = [⟨[t]⟩] ∧ IntText pl t z ∧ ¬ InRange pl .int (m * z)) ∨
  (i.name = lit "invert" ∧ pl.charSigned = true ∧ ∃ t, i.arguments = [⟨[t]⟩] ∧ OddWord t)

/-- The state is the one after so many greetings. -/
def BasicKeeps (w : BasicWorld) (h : Nat) : Prop :=
  w.console = (List.replicate h (lit "Hello, world!\n")).flatten ∧ w.scaler1 = 2 ∧ w.scaler2 = 10

end Coil.Spec
