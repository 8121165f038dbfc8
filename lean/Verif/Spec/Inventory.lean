import Verif.Model.Kept
import Verif.Spec.Exec

/-!
# Specification of the inventory
-/

namespace Coil.Spec
open Vw

/-- What a function gets when it asks for a named argument: the errors that are reported, and the value if there is one. -/
inductive Asked {T : Type} (conv : Conv T) (key : Bytes) (required : Bool) (dflt : Option T) (named : List Named) : List Bytes → Option T → Prop
  | absent : NotNamed key named → required = false → Asked conv key required dflt named [] dflt
  | missing : NotNamed key named → required = true →
      Asked conv key required dflt named [lit "Missing named argument '" ++ key ++ lit "'"] none
  | good {v : Value} {x : T} : FirstNamed key named v → conv.fromString v = .ok (.ok x) → Asked conv key required dflt named [] (some x)
  | bad {v : Value} {m : Bytes} : FirstNamed key named v → conv.fromString v = .ok (.error m) → Asked conv key required dflt named [m] none

/-- The elements with a property, in the same order. -/
inductive Chosen {A : Type} (p : A → Prop) : List A → List A → Prop
  | nil : Chosen p [] []
  | take {a : A} {l r : List A} : p a → Chosen p l r → Chosen p (a :: l) (a :: r)
  | skip {a : A} {l r : List A} : ¬ p a → Chosen p l r → Chosen p (a :: l) r

/-- An item that is asked for: its name contains the text, its amount is at least the number, its source and its type are the given ones. -/
structure Wanted (name : Option Bytes) (minAmount source type : Option Int) (i : Item Bytes) : Prop where
  name : ∀ n, name = some n → ∃ a b, i.name = a ++ n ++ b
  amount : ∀ n, minAmount = some n → n ≤ i.amount
  source : ∀ n, source = some n → i.source = n
  type : ∀ n, type = some n → i.type = n

/-- The name of an enumerator. -/
def sourceNames : List Bytes := [lit "None", lit "Loot", lit "Reward", lit "Debug"]

/-- The name of an enumerator. -/
def typeNames : List Bytes := [lit "None", lit "Key", lit "Weapon", lit "Currency"]

/-- The line of an item. -/
def lineOf (i : Item Bytes) : Bytes :=
  natDec i.id.toNat ++ lit "\t" ++ cstr i.name ++ lit "\t" ++ natDec i.amount.toNat ++ lit "\t" ++
    sourceNames.getD i.source.toNat [] ++ lit "\t" ++ typeNames.getD i.type.toNat [] ++ lit "\n"

/-- What is above the items. -/
def tableHead : Bytes := lit "ID\tName\tAmount\tSource\tType\n--\t----\t------\t------\t----\n"

/-- An item with a source and a type that have names. -/
def Item.Proper (i : Item Bytes) : Prop := 0 ≤ i.source ∧ i.source < 4 ∧ 0 ≤ i.type ∧ i.type < 4

end Coil.Spec
