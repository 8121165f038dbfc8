import Verif.Model.NamedProgram
import Verif.Spec.Account
import Verif.Spec.EnumPrograms
import Verif.Spec.NamedCommands

/-!
# Specification of the program of examples/named
-/

namespace Coil.Spec
open Vw

def itemSources : List (Bytes × Int) := [(lit "None", 0), (lit "Loot", 1), (lit "Reward", 2), (lit "Debug", 3)]
def itemTypes : List (Bytes × Int) := [(lit "None", 0), (lit "Key", 1), (lit "Weapon", 2), (lit "Currency", 3)]
def saveTypes : List (Bytes × Int) := [(lit "Disk", 0), (lit "Memory", 1)]

/-- The line of an item. A source or type without a name is shown as nothing. -/
def ItemLine (i : Item Bytes) (t : Bytes) : Prop :=
  ∃ so ty, Shown itemSources i.source so ∧ Shown itemTypes i.type ty ∧
    t = natDec i.id.toNat ++ lit "\t" ++ upToNul i.name ++ lit "\t" ++ natDec i.amount.toNat ++ lit "\t" ++ so ++ lit "\t" ++ ty ++ lit "\n"

/-- What `inventory.list` is asked for, and the errors. -/
def ListAsked (pl : Platform) (named : List Named) (es : List Bytes) (n : Option Bytes) (a so ty : Option Int) : Prop :=
  ∃ e1 e2 e3 e4, es = e1 ++ e2 ++ e3 ++ e4 ∧ Asked stringConv (lit "name") false none named e1 n ∧
    Asked (intConv pl .ulong) (lit "min_amount") false none named e2 a ∧ Asked (enumConv pl sourceDecl) (lit "source") false none named e3 so ∧
    Asked (enumConv pl typeDecl) (lit "type") false none named e4 ty

/-- The amount and the type for `inventory.add`, and the errors. -/
def AddAsked (pl : Platform) (named : List Named) (es : List Bytes) (a ty : Option Int) : Prop :=
  ∃ e1 e2, es = e1 ++ e2 ∧ Asked (intConv pl .ulong) (lit "amount") false (some 1) named e1 a ∧
    Asked (enumConv pl typeDecl) (lit "type") false (some 2) named e2 ty

/-- The kind and the delay for `save_game`, and the errors. -/
def SaveAsked (pl : Platform) (tiny : Nat → Nat → Bool) (named : List Named) (es : List Bytes) (ty : Option Int) (d : Option Fl) : Prop :=
  ∃ e1 e2, es = e1 ++ e2 ∧ Asked (enumConv pl saveGameDecl) (lit "type") true none named e1 ty ∧
    Asked (singleConv tiny) (lit "delay") false (some (.fin false 0 Fmt.single.emin)) named e2 d

/-- What the commands do, by the items there are. -/
inductive NamedAccount (pl : Platform) (tiny : Nat → Nat → Bool) : Account (List (Item Bytes))
  | list {h named n a so ty shown lines} : ListAsked pl named [] n a so ty → Chosen (Wanted n a so ty) h shown → Forall2 ItemLine shown lines →
      NamedAccount pl tiny h ⟨lit "inventory.list", [], named⟩ h (.good none (tableHead ++ lines.flatten))
  | noList {h named es n a so ty} : ListAsked pl named es n a so ty → es ≠ [] →
      NamedAccount pl tiny h ⟨lit "inventory.list", [], named⟩ h (.bad es)
  | add {h s z t x k named} : IndexText s z → AddAsked pl named [] (some x) (some k) →
      NamedAccount pl tiny h ⟨lit "inventory.add", [⟨[s]⟩, ⟨[t]⟩], named⟩ (h ++ [⟨z, t, x, 3, k⟩]) (.good none [])
  | noAdd {h s z t a ty es named} : IndexText s z → AddAsked pl named es a ty → es ≠ [] →
      NamedAccount pl tiny h ⟨lit "inventory.add", [⟨[s]⟩, ⟨[t]⟩], named⟩ h (.bad es)
  | args {h named} : NamedAccount pl tiny h ⟨lit "print_args", [], named⟩ h
      (.good none (named.map fun nv => upToNul nv.key ++ lit ": " ++ upToNul (joined nv.value.subvalues) ++ lit "\n").flatten)
  | floats {h named out} : FloatLines tiny named out → NamedAccount pl tiny h ⟨lit "print_floats", [], named⟩ h (.good none out)
  | save {h named k n x t} : SaveAsked pl tiny named [] (some k) (some x) → Shown saveTypes k n → SixPlaces x t →
      NamedAccount pl tiny h ⟨lit "save_game", [], named⟩ h
        (.good none (lit "Saving game with type " ++ n ++ lit " and delay " ++ t ++ lit " ms\n"))
  | noSave {h named es ty d} : SaveAsked pl tiny named es ty d → es ≠ [] → NamedAccount pl tiny h ⟨lit "save_game", [], named⟩ h (.bad es)
  | missing {h named} : NotNamed (lit "required") named →
      NamedAccount pl tiny h ⟨lit "required_and_optional", [], named⟩ h (.bad [lit "Missing named argument 'required'"])
  | both {h named v e1 e2 o1 o2} : FirstNamed (lit "required") named v → AnyShown pl (lit "Required: ") v e1 o1 →
      OptionalShown pl (lit "Optional: ") (lit "optional") named e2 o2 →
      NamedAccount pl tiny h ⟨lit "required_and_optional", [], named⟩ h ⟨e1 ++ e2, none, o1 ++ o2, none⟩

/-- The commands that make the program undefined: `required_and_optional` with an odd word, where `char` is signed. The optional argument is looked at
only if the required one is there. -/
def NamedTrouble (pl : Platform) (i : Input) : Prop :=
  pl.charSigned = true ∧ i.name = lit "required_and_optional" ∧ i.arguments = [] ∧
    ∃ v, FirstNamed (lit "required") i.namedArguments v ∧
      ((∃ t, v = ⟨[t]⟩ ∧ OddWord t) ∨ ∃ t, FirstNamed (lit "optional") i.namedArguments ⟨[t]⟩ ∧ OddWord t)

/-- The items of the beginning: number, name, amount, source (1 is `Loot`, 2 is `Reward`, 3 is `Debug`), type (1 is `Key`, 2 is `Weapon`, 3 is
`Currency`). -/
def firstItems : List (Item Bytes) :=
  [⟨0, lit "coin", 7000, 1, 3⟩, ⟨1, lit "gems", 40, 2, 3⟩, ⟨2, lit "sword", 1, 1, 2⟩, ⟨3, lit "machete", 1, 2, 2⟩, ⟨4, lit "katana", 1, 1, 2⟩,
    ⟨5, lit "rifle", 1, 1, 2⟩, ⟨6, lit "knife", 2, 2, 2⟩, ⟨7, lit "key", 1, 1, 1⟩]

end Coil.Spec
