import Verif.Spec.EnumPrograms
import Verif.Spec.ErrorProgram
import Verif.Spec.Pool

/-!
# Commands that are refused

What a program with fixed commands answers to a command that it does not carry out, told from the kinds of its parameters alone.
-/

namespace Coil.Spec

/-- The kinds of parameters: a text, a number of type `int`, a number of type `std::size_t`, a number of type `float`, a truth value, a pair of numbers of
type `float`, an entity, a list of one kind (`DynamicArray` or `std::vector`), something that may be missing (`std::optional`), anything, an enumeration
with these constants and numbers of type `u` that are `good`. -/
inductive Kind where
  | text | int | size | float | truth
  | pair (called : Bytes)
  | entity
  | list (k : Kind)
  | vector (k : Kind)
  | option (k : Kind)
  | any
  | choice (called : Bytes) (u : IntType) (constants : List (Bytes × Int)) (good : Int → Prop)

/-- How the kind is called in messages; `size` is how `std::size_t` is called. -/
def Kind.called (pl : Platform) (size : Bytes) : Kind → Bytes
  | .text => lit "string"
  | .int => IntType.int.name pl
  | .size => size
  | .float => lit "float"
  | .truth => lit "bool"
  | .pair n => n
  | .entity => lit "EntityId"
  | .list k => lit "DynamicArray<" ++ k.called pl size ++ lit ">"
  | .vector k => lit "vector<" ++ k.called pl size ++ lit ">"
  | .option k => lit "optional<" ++ k.called pl size ++ lit ">"
  | .any => lit "value"
  | .choice n _ _ _ => n

/-- The kind takes the value. -/
def Kind.Takes (pl : Platform) (tiny : Nat → Nat → Bool) : Kind → Value → Prop
  | .text, v => ∃ s, v = ⟨[s]⟩
  | .int, v => ∃ s z, v = ⟨[s]⟩ ∧ IntText pl s z
  | .size, v => ∃ s z, v = ⟨[s]⟩ ∧ IndexText s z
  | .float, v => ∃ s x, v = ⟨[s]⟩ ∧ ReadsFloat tiny s x
  | .truth, v => ∃ s, v = ⟨[s]⟩ ∧ IsBool s
  | .pair _, v => ∃ s t x y, v = ⟨[s, t]⟩ ∧ ReadsFloat tiny s x ∧ ReadsFloat tiny t y
  | .entity, v => ∃ s z, v = ⟨[s]⟩ ∧ IndexText s z
  | .list k, v => ∀ s ∈ v.subvalues, k.Takes pl tiny ⟨[s]⟩
  | .vector k, v => ∀ s ∈ v.subvalues, k.Takes pl tiny ⟨[s]⟩
  | .option k, v => v.subvalues = [] ∨ ∃ s rest, v.subvalues = s :: rest ∧ (s = [] ∨ k.Takes pl tiny ⟨[s]⟩)
  | .any, _ => True
  | .choice _ u cs good, v => ∃ s x, v = ⟨[s]⟩ ∧ (AsNumber pl u s x ∧ good x ∨ Names cs s x)

/-- What is said of a value with the wrong number of parts. -/
def wrongParts (v : Value) (called : Bytes) (n : Nat) : Bytes :=
  cannotConvertBecause (upToNul (joined v.subvalues)) called (wrongSubvalues n v.subvalues.length)

/-- What is said of a value for the reason `m`. -/
def because (v : Value) (called m : Bytes) : Bytes := cannotConvertBecause (upToNul (joined v.subvalues)) called m

/-- `k.Says pl tiny size v m`: the kind does not take the value, and this is what is said. Of an odd word nothing is said where `char` is signed, and
nothing of a number that is not good for an enumeration: that is undefined. -/
inductive Kind.Says (pl : Platform) (tiny : Nat → Nat → Bool) (size : Bytes) : Kind → Value → Bytes → Prop
  | text {v} : v.subvalues.length ≠ 1 → Says pl tiny size .text v (wrongParts v (lit "string") 1)
  | intParts {v} : v.subvalues.length ≠ 1 → Says pl tiny size .int v (wrongParts v (IntType.int.name pl) 1)
  | int {s} : (¬ ∃ z, IntText pl s z) → Says pl tiny size .int ⟨[s]⟩ (cannotConvert (upToNul s) (IntType.int.name pl))
  | sizeParts {v} : v.subvalues.length ≠ 1 → Says pl tiny size .size v (wrongParts v size 1)
  | size {s} : (¬ ∃ z, IndexText s z) → Says pl tiny size .size ⟨[s]⟩ (cannotConvert (upToNul s) size)
  | float {v m} : FloatError tiny v m → Says pl tiny size .float v m
  | truthParts {v} : v.subvalues.length ≠ 1 → Says pl tiny size .truth v (wrongParts v (lit "bool") 1)
  | truth {s} : ¬ IsBool s → ¬ (pl.charSigned = true ∧ OddWord s) → Says pl tiny size .truth ⟨[s]⟩ (cannotConvert (upToNul s) (lit "bool"))
  | pairParts {n v} : v.subvalues.length ≠ 2 → Says pl tiny size (.pair n) v (wrongParts v n 2)
  | pairFirst {n s t m} : FloatError tiny ⟨[s]⟩ m → Says pl tiny size (.pair n) ⟨[s, t]⟩ (because ⟨[s, t]⟩ n (upToNul m))
  | pairSecond {n s t x m} : ReadsFloat tiny s x → FloatError tiny ⟨[t]⟩ m → Says pl tiny size (.pair n) ⟨[s, t]⟩ (because ⟨[s, t]⟩ n (upToNul m))
  | entity {v m} : Says pl tiny size .size v m → Says pl tiny size .entity v (because v (lit "EntityId") (upToNul m))
  | list {k v before s after m} : v.subvalues = before ++ s :: after → (∀ b ∈ before, k.Takes pl tiny ⟨[b]⟩) → Says pl tiny size k ⟨[s]⟩ m →
      Says pl tiny size (.list k) v (because v ((Kind.list k).called pl size) (upToNul m))
  | vector {k v before s after m} : v.subvalues = before ++ s :: after → (∀ b ∈ before, k.Takes pl tiny ⟨[b]⟩) → Says pl tiny size k ⟨[s]⟩ m →
      Says pl tiny size (.vector k) v (because v ((Kind.vector k).called pl size) (upToNul m))
  | option {k v s rest m} : v.subvalues = s :: rest → s ≠ [] → Says pl tiny size k ⟨[s]⟩ m →
      Says pl tiny size (.option k) v (because v ((Kind.option k).called pl size) (upToNul m))
  | choiceParts {n u cs good v} : v.subvalues.length ≠ 1 → Says pl tiny size (.choice n u cs good) v (wrongParts v n 1)
  | choice {n u cs good s} : (∀ z, ¬ AsNumber pl u s z) → (∀ x, ¬ Names cs s x) →
      Says pl tiny size (.choice n u cs good) ⟨[s]⟩ (cannotConvertBecause (upToNul s) n (possibleValues (cs.map (·.1))))

/-- `Judged … ks vs es`: the values are as many as the kinds, and `es` is what is said of those that are not taken, in order. -/
inductive Judged (pl : Platform) (tiny : Nat → Nat → Bool) (size : Bytes) : List Kind → List Value → List Bytes → Prop
  | nil : Judged pl tiny size [] [] []
  | takes {k ks v vs es} : k.Takes pl tiny v → Judged pl tiny size ks vs es → Judged pl tiny size (k :: ks) (v :: vs) es
  | said {k ks v vs m es} : k.Says pl tiny size v m → Judged pl tiny size ks vs es → Judged pl tiny size (k :: ks) (v :: vs) (m :: es)

/-- The commands of a program with the kinds of the parameters of their functions. -/
abbrev Signatures := List (Bytes × List (List Kind))

/-- The functions of a name: those of the last command with the name. -/
def Signatures.of : Signatures → Bytes → Option (List (List Kind))
  | [], _ => none
  | (m, kss) :: rest, n =>
    match Signatures.of rest n with
    | some x => some x
    | none => if m = n then some kss else none

/-- The first function that takes `n` arguments has the parameters `ks`. -/
def FirstWith (n : Nat) (kss : List (List Kind)) (ks : List Kind) : Prop :=
  ∃ before after, kss = before ++ ks :: after ∧ ks.length = n ∧ ∀ x ∈ before, x.length ≠ n

/-- The command is refused with these errors. -/
inductive Declined (pl : Platform) (tiny : Nat → Nat → Bool) (size : Bytes) (sigs : Signatures) (i : Input) : List Bytes → Prop
  | noName : i.name = [] → Declined pl tiny size sigs i [lit "No function name is specified"]
  | unknown : i.name ≠ [] → sigs.of i.name = none → Declined pl tiny size sigs i [lit "No function '" ++ upToNul i.name ++ lit "' is registered"]
  | count {kss} : i.name ≠ [] → sigs.of i.name = some kss → (∀ ks ∈ kss, ks.length ≠ i.arguments.length) →
      Declined pl tiny size sigs i [lit "Wrong number of arguments to '" ++ upToNul i.name ++ lit "': expected " ++
        countsInWords (kss.map List.length) ++ lit ", got " ++ natDec i.arguments.length]
  | arguments {kss ks es} : i.name ≠ [] → sigs.of i.name = some kss → FirstWith i.arguments.length kss ks → Judged pl tiny size ks i.arguments es →
      es ≠ [] → Declined pl tiny size sigs i es

/-- The command is understood: there is a function for as many arguments that takes all of them. -/
def Understood (pl : Platform) (tiny : Nat → Nat → Bool) (size : Bytes) (sigs : Signatures) (i : Input) : Prop :=
  i.name ≠ [] ∧ ∃ kss ks, sigs.of i.name = some kss ∧ FirstWith i.arguments.length kss ks ∧ Judged pl tiny size ks i.arguments []

/-- What a request asks for. -/
inductive Asks (d : Delims) : Request → Input → Prop
  | line {t i} : ReadsAs d t (.ok i) → Asks d (.line t) i
  | input {i} : Asks d (.input i) i

/-- The conversion reads the values that the kind takes, and says of the others what is said of them. -/
def Suits (pl : Platform) (tiny : Nat → Nat → Bool) (size : Bytes) {α : Type} (c : Conv α) (k : Kind) : Prop :=
  ∀ v, ((∃ x, c.fromString v = .ok (.ok x)) ↔ k.Takes pl tiny v) ∧ ∀ m, c.fromString v = .ok (.error m) ↔ k.Says pl tiny size v m

/-- The parameters are of these kinds. -/
def SuitsAll (pl : Platform) (tiny : Nat → Nat → Bool) (size : Bytes) : List Param → List Kind → Prop
  | [], [] => True
  | p :: ps, k :: ks => Suits pl tiny size p.conv k ∧ SuitsAll pl tiny size ps ks
  | _, _ => False

/-- The commands of the table have these signatures. -/
def HasSignatures (pl : Platform) (tiny : Nat → Nat → Bool) (size : Bytes) {W C D : Type} (P : C → FunctorDef W C D) (T : Table C D) (sigs : Signatures) : Prop :=
  Forall2 (fun c s => c.1 = s.1 ∧ Forall2 (fun f ks => SuitsAll pl tiny size (P f.1).params ks) c.2 s.2) T sigs

/-- The basic example. -/
def basicSignatures : Signatures :=
  [(lit "hello", [[]]), (lit "hello_with_context", [[]]), (lit "print_repeated", [[.text, .size]]), (lit "print_quoted", [[.text]]),
   (lit "invert", [[.truth]]), (lit "add", [[.float, .float]]), (lit "concat", [[.text, .text]]), (lit "plain_function", [[.int]]),
   (lit "lambda", [[.int]]), (lit "custom_functor", [[.int]]), (lit "std_function", [[.int]]), (lit "scaler1.scale", [[.int]]),
   (lit "scaler2.scale", [[.int]])]

/-- The overloading example. -/
def overSignatures : Signatures :=
  [(lit "func", [[], [.int], [.int, .float]]), (lit "mixed_func", [[], [.int], [.text, .float], [.text, .float, .truth]]),
   (lit "explosions.create", [[.text], [.text, .float]])]

/-- The usertypes example. -/
def userSignatures : Signatures :=
  [(lit "entities.add", [[.text]]), (lit "entities.find", [[.text]]), (lit "entities.focused_entity", [[], [.entity]]),
   (lit "entities.remove_some", [[.list .text]]), (lit "particles.spawn", [[.pair (lit "Vec2"), .pair (lit "Vec2")]]), (lit "particles.get_pos_at", [[.float]]),
   (lit "particles.last_particle_pos", [[], [.pair (lit "Vec2")]]), (lit "sum", [[.list .int]])]

/-- The errors example. -/
def errorSignatures : Signatures :=
  [(lit "sqrt_context", [[.float]]), (lit "sqrt_except", [[.float]]), (lit "get_float", [[.any]]), (lit "get_type_name", [[.any]]),
   (lit "test_named_args", [[]])]

/-- The named arguments example. -/
def namedSignatures : Signatures :=
  [(lit "inventory.list", [[]]), (lit "inventory.add", [[.size, .text]]), (lit "print_args", [[]]), (lit "print_floats", [[]]),
   (lit "save_game", [[]]), (lit "required_and_optional", [[]])]

/-- The properties example. -/
def propSignatures : Signatures :=
  [(lit "window.print_size", [[]]), (lit "window.aspect", [[], [.float]]), (lit "window.diagonal", [[], [.float]]),
   (lit "window.readonly_aspect", [[], [.float]]), (lit "window.readonly_diagonal", [[], [.float]]), (lit "data", [[]]),
   (lit "data.size", [[], [.size]])]

/-- The variadic example. -/
def entitySignatures : Signatures :=
  [(lit "entities.rename", [[.any, .text]]), (lit "entities.list", [[]]), (lit "entities.add", [[.size, .text]])]

/-- The compound example; `point` is how points are called. -/
def swarmSignatures (point : Bytes) : Signatures :=
  [(lit "particles.add", [[.text, .pair point, .pair point]]), (lit "particles.get", [[.text]]), (lit "particles.update", [[.float]]),
   (lit "particles.list", [[]]), (lit "pivot", [[], [.pair point]]), (lit "sum_all", [[.vector .float]]), (lit "get_arg_or_pi", [[.option .float]])]

/-- The variables example. -/
def varSignatures : Signatures :=
  [(lit "time_scale", [[], [.float]]), (lit "city", [[], [.text]]),
   (lit "type", [[], [.choice (lit "Type") .int [(lit "Type1", 0), (lit "Type2", 1), (lit "Type3", 2)] fun _ => True]]),
   (lit "god_var", [[], [.truth]]), (lit "god_toggle", [[], [.truth]]), (lit "print_variables", [[]])]

/-- The enums example; `u` is the underlying type of `ResetMode`, which has values from 0 to 3 only. -/
def enumSignatures (u : IntType) : Signatures :=
  [(lit "abilities.set_ability", [[.choice (lit "Ability") .int abilities fun _ => True, .choice (lit "ResetMode") u resetModes fun x => 0 ≤ x ∧ x ≤ 3]]),
   (lit "abilities.get_ability", [[]]), (lit "abilities.get_reset_mode", [[]]),
   (lit "variable_type", [[], [.choice (lit "VariableType") .int variableTypes fun _ => True]])]

/-- The flags example. -/
def flagsSignatures : Signatures :=
  [(lit "entity.flags", [[], [.vector (.choice (lit "EntityDebugDrawFlags") .int flagNames fun _ => True)]]), (lit "entity.draw", [[]])]

end Coil.Spec
