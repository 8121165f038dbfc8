import Verif.Model.EnumPrograms
import Verif.Spec.Enums
import Verif.Spec.BasicExample

/-!
# Specification of the programs of examples/enums and examples/flags
-/

namespace Coil.Spec

/-- Constants as they usually are: different values, small ones, names that differ by more than the case. -/
structure PlainConstants (cs : List (Bytes × Int)) : Prop where
  values : (cs.map (·.2)).Nodup
  small : ∀ c ∈ cs, -128 ≤ c.2 ∧ c.2 ≤ 128
  apart : ∀ c ∈ cs, ∀ e ∈ cs, SameWord c.1 e.1 → c = e

/-- The text names the value `x`, in any mixture of cases. -/
def Names (cs : List (Bytes × Int)) (t : Bytes) (x : Int) : Prop := ∃ n, (n, x) ∈ cs ∧ SameWord t n

/-- What is shown for a value: its name, or nothing. -/
def Shown (cs : List (Bytes × Int)) (x : Int) (t : Bytes) : Prop := (t, x) ∈ cs ∨ (t = [] ∧ ∀ n, (n, x) ∉ cs)

/-! ## examples/enums -/

/-- What can be done: choosing an ability and when it is reset, and assigning the type. -/
inductive Choice where
  | ability (a m : Int)
  | type (x : Int)

def Choice.ability? : Choice → Option (Int × Int)
  | .ability a m => some (a, m)
  | .type _ => none

def Choice.type? : Choice → Option Int
  | .ability _ _ => none
  | .type x => some x

/-- The ability and the mode chosen last; at first they are `None` and `Never`. -/
def abilityAfter (h : List Choice) : Int × Int := ((h.filterMap Choice.ability?).getLast?).getD (0, 0)

/-- The type assigned last; at first it is `String`. -/
def typeAfter (h : List Choice) : Int := ((h.filterMap Choice.type?).getLast?).getD 2

def abilities : List (Bytes × Int) := [(lit "None", 0), (lit "SpeedBoost", 1), (lit "IncreasedHealth", 2)]
def resetModes : List (Bytes × Int) := [(lit "Never", 0), (lit "AfterDelay", 1), (lit "AfterDeath", 2)]
def variableTypes : List (Bytes × Int) := [(lit "Integer", 0), (lit "Float", 1), (lit "String", 2)]

/-- A text that stands for a value of an `enum class`: a number of type `int`, or a name. -/
def ScopedText (pl : Platform) (cs : List (Bytes × Int)) (t : Bytes) (x : Int) : Prop := IntText pl t x ∨ Names cs t x

/-- A text that stands for a `ResetMode`: a number between 0 and 3, or a name. -/
def ModeText (pl : Platform) (u : IntType) (t : Bytes) (x : Int) : Prop := AsNumber pl u t x ∧ 0 ≤ x ∧ x ≤ 3 ∨ Names resetModes t x

/-- What the commands do. -/
inductive EnumTold (pl : Platform) (u : IntType) : Telling (List Choice)
  | choose {h s t a m named} : ScopedText pl abilities s a → ModeText pl u t m →
      EnumTold pl u h ⟨lit "abilities.set_ability", [⟨[s]⟩, ⟨[t]⟩], named⟩ (h ++ [.ability a m]) none []
  | ability {h t named} : Shown abilities (abilityAfter h).1 t → EnumTold pl u h ⟨lit "abilities.get_ability", [], named⟩ h (some t) []
  | mode {h t named} : Shown resetModes (abilityAfter h).2 t → EnumTold pl u h ⟨lit "abilities.get_reset_mode", [], named⟩ h (some t) []
  | type {h t named} : Shown variableTypes (typeAfter h) t → EnumTold pl u h ⟨lit "variable_type", [], named⟩ h (some t) []
  | assign {h s x t named} : ScopedText pl variableTypes s x → Shown variableTypes x t →
      EnumTold pl u h ⟨lit "variable_type", [⟨[s]⟩], named⟩ (h ++ [.type x]) (some t) []

/-- The commands that make the program undefined: a number greater than 3 or negative as the mode, whatever the ability. -/
def EnumTrouble (pl : Platform) (u : IntType) (i : Input) : Prop :=
  i.name = lit "abilities.set_ability" ∧ ∃ a t z, i.arguments = [a, ⟨[t]⟩] ∧ AsNumber pl u t z ∧ ¬ (0 ≤ z ∧ z ≤ 3)

/-- The state is the one after the choices. -/
def EnumKeeps (w : EnumWorld) (h : List Choice) : Prop := (w.ability, w.resetMode) = abilityAfter h ∧ w.variableType = typeAfter h

/-! ## examples/flags -/

def flagNames : List (Bytes × Int) := [(lit "DrawBoundingBox", 1), (lit "DrawOrigin", 2), (lit "DrawWireframe", 4), (lit "DrawName", 8)]

/-- The flags given last; at first two are set. -/
def flagsAfter (h : List (List Int)) : List Int := h.getLastD [1, 8]

/-- What `entity.draw` writes, by the bits that are set. -/
def drawText (b : Nat → Bool) : Bytes :=
  (if b 0 then lit "Drawing bounding box\n" else []) ++ (if b 1 then lit "Drawing origin\n" else []) ++
  (if b 2 then lit "Drawing wireframe\n" else []) ++ (if b 3 then lit "Drawing name\n" else [])

/-- The names of the flags that are set, with bars between them. -/
def flagsLine (b : Nat → Bool) : Bytes :=
  (lit "|").intercalate ((if b 0 then [lit "DrawBoundingBox"] else []) ++ (if b 1 then [lit "DrawOrigin"] else []) ++
    (if b 2 then [lit "DrawWireframe"] else []) ++ (if b 3 then [lit "DrawName"] else []))

/-- What the commands do; a history is the list of the lists of flags that were given. -/
inductive FlagsTold (pl : Platform) : Telling (List (List Int))
  | read {h z t named} : Union pl .int (flagsAfter h) z → FlagText drawDecl z t →
      FlagsTold pl h ⟨lit "entity.flags", [], named⟩ h (some t) []
  | write {h v xs z t named} : Forall2 (fun p x => ScopedText pl flagNames p x) v.subvalues xs → Union pl .int xs z → FlagText drawDecl z t →
      FlagsTold pl h ⟨lit "entity.flags", [v], named⟩ (h ++ [xs]) (some t) []
  | draw {h b named} : (∀ k, b k = true ↔ ∃ x ∈ flagsAfter h, Bit x k) →
      FlagsTold pl h ⟨lit "entity.draw", [], named⟩ h none (drawText b)

end Coil.Spec
