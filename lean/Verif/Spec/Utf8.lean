import Verif.Model.Exec

/-!
# Well-formed UTF-8

The well-formed byte sequences of the Unicode standard (table 3-7), and what it means for commands, results and user functions to
contain nothing else.
-/

namespace Coil
namespace Spec

/-- A continuation byte. -/
def Cont (b : Byte) : Prop := 0x80 ≤ b ∧ b ≤ 0xBF

/-- The first two bytes of a character of three bytes: no overlong forms, no surrogates. -/
def Lead3 (a b : Byte) : Prop :=
  (a = 0xE0 ∧ 0xA0 ≤ b ∧ b ≤ 0xBF) ∨ (0xE1 ≤ a ∧ a ≤ 0xEC ∧ Cont b) ∨ (a = 0xED ∧ 0x80 ≤ b ∧ b ≤ 0x9F) ∨
  (0xEE ≤ a ∧ a ≤ 0xEF ∧ Cont b)

/-- The first two bytes of a character of four bytes: no overlong forms, nothing above U+10FFFF. -/
def Lead4 (a b : Byte) : Prop :=
  (a = 0xF0 ∧ 0x90 ≤ b ∧ b ≤ 0xBF) ∨ (0xF1 ≤ a ∧ a ≤ 0xF3 ∧ Cont b) ∨ (a = 0xF4 ∧ 0x80 ≤ b ∧ b ≤ 0x8F)

instance (b : Byte) : Decidable (Cont b) := by unfold Cont; infer_instance
instance (a b : Byte) : Decidable (Lead3 a b) := by unfold Lead3; infer_instance
instance (a b : Byte) : Decidable (Lead4 a b) := by unfold Lead4; infer_instance

/-- A well-formed UTF-8 text. -/
inductive Utf8 : Bytes → Prop
  | nil : Utf8 []
  | one {a : Byte} {s : Bytes} : a ≤ 0x7F → Utf8 s → Utf8 (a :: s)
  | two {a b : Byte} {s : Bytes} : 0xC2 ≤ a ∧ a ≤ 0xDF → Cont b → Utf8 s → Utf8 (a :: b :: s)
  | three {a b c : Byte} {s : Bytes} : Lead3 a b → Cont c → Utf8 s → Utf8 (a :: b :: c :: s)
  | four {a b c d : Byte} {s : Bytes} : Lead4 a b → Cont c → Cont d → Utf8 s → Utf8 (a :: b :: c :: d :: s)

/-- All delimiters of a lexer are ASCII characters. -/
def AsciiDelims (cfg : LexCfg) : Prop :=
  ∀ c, c ∈ cfg.parens ∨ c ∈ cfg.quotes ∨ c ∈ cfg.seps ∨ c ∈ cfg.spaces → c ≤ 0x7F

/-- Every part of a value is UTF-8. -/
def Utf8Value (v : Value) : Prop := ∀ t ∈ v.subvalues, Utf8 t

/-- Key and value of a named argument are UTF-8. -/
def Utf8Named (a : Named) : Prop := Utf8 a.key ∧ Utf8Value a.value

/-- Every text of a command is UTF-8. -/
structure Utf8Input (i : Input) : Prop where
  name : Utf8 i.name
  arguments : ∀ v ∈ i.arguments, Utf8Value v
  named : ∀ a ∈ i.namedArguments, Utf8Named a

/-- A UTF-8 command line that fits in the address space. -/
def Utf8Line (t : Bytes) : Prop := Utf8 t ∧ t.length < 2 ^ 64 - 1

/-- Every text of a request is UTF-8. -/
def Utf8Request : Request → Prop
  | .line t => Utf8Line t
  | .input i => Utf8Input i

/-- Every text of a result is UTF-8: the command, the errors, the return value and the output. -/
structure Utf8Result (r : ExecResult) : Prop where
  input : Utf8Input r.input
  errors : ∀ e ∈ r.errors, Utf8 e
  value : ∀ v, r.returnValue = some v → Utf8 v
  output : Utf8 r.output

/-- The text of an exception is UTF-8. -/
def Utf8Exn : Exn → Prop
  | .std what => Utf8 what
  | .other => True

/-- What `execute` gives its caller is UTF-8. -/
def Utf8Out : ExecOut → Prop
  | .ok r => Utf8Result r
  | .error e => Utf8Exn e

/-- A lexer makes UTF-8 of UTF-8. -/
def Utf8Lexer (l : Lexer) : Prop :=
  ∀ t, Utf8Line t → (∀ i, l t = .ok (.ok i) → Utf8Input i) ∧ (∀ e, l t = .ok (.error e) → Utf8 e)

/-- A serializer makes UTF-8 of UTF-8: from UTF-8 it reads values that satisfy `G`, its errors are UTF-8, and the texts of values
that satisfy `G` are UTF-8. -/
structure Utf8Conv {T : Type} (conv : Conv T) (G : T → Prop) : Prop where
  name : Utf8 conv.name
  reads : ∀ v, Utf8Value v → ∀ x, conv.fromString v = .ok (.ok x) → G x
  fails : ∀ v, Utf8Value v → ∀ e, conv.fromString v = .ok (.error e) → Utf8 e
  prints : ∀ x, G x → Utf8 (conv.toString x)

variable {S W C D R : Type}

/-- A user function body that says only UTF-8 as long as it is told only UTF-8: what it logs, reports, throws and executes is UTF-8,
its result satisfies `G`, and it leaves the program state in `I`, given that the state satisfies `I` and what it gets from the library is
UTF-8. -/
def Speaks (I : W → Prop) (G : R → Prop) : Prog W C D R → Prop
  | .ret r => G r
  | .throw e => Utf8Exn e
  | .ub _ => True
  | .diverge => True
  | .log s k => Utf8 s ∧ Speaks I G k
  | .logline s k => Utf8 s ∧ Speaks I G k
  | .reportError s k => Utf8 s ∧ Speaks I G k
  | .hasErrors k => ∀ b, Speaks I G (k b)
  | .named k => ∀ l, (∀ a ∈ l, Utf8Named a) → Speaks I G (k l)
  | .setNamed _ v k => Utf8Named v ∧ Speaks I G k
  | .get k => ∀ w, I w → Speaks I G (k w)
  | .set w k => I w ∧ Speaks I G k
  | .captured k => ∀ d, Speaks I G (k d)
  | .add _ _ k => Speaks I G k
  | .remove _ k => Speaks I G k
  | .clear k => Speaks I G k
  | .execLine c k => Utf8Line c ∧ ∀ o, Utf8Out o → Speaks I G (k o)
  | .execInput i k => Utf8Input i ∧ ∀ o, Utf8Out o → Speaks I G (k o)

/-- Conditions on the values of a parameter list. -/
def Conditions : List Param → Type
  | [] => Unit
  | p :: ps => (p.T → Prop) × Conditions ps

/-- The serializers of all the parameters make UTF-8 of UTF-8. -/
def Conditions.Read : (ps : List Param) → Conditions ps → Prop
  | [], _ => True
  | p :: ps, (g, gs) => Utf8Conv p.conv g ∧ Conditions.Read ps gs

/-- The arguments satisfy the conditions. -/
def Conditions.Hold : (ps : List Param) → Conditions ps → Args ps → Prop
  | [], _, _ => True
  | _ :: ps, (g, gs), (x, xs) => g x ∧ Conditions.Hold ps gs xs

/-- A function that makes UTF-8 of UTF-8. -/
def Utf8Function (I : W → Prop) (d : FunctorDef W C D) : Prop :=
  ∃ (g : Conditions d.params) (G : d.R → Prop), Conditions.Read d.params g ∧
    (∀ f, d.print = some f → ∀ r, G r → Utf8 (f r)) ∧ ∀ a, Conditions.Hold d.params g a → Speaks I G (d.body a)

/-- A program whose lexer makes UTF-8 of UTF-8 and whose state satisfies `I`. -/
structure Utf8Sys (I : W → Prop) (s : Sys S W C D) : Prop where
  lexer : ∀ l, s.lexer = some l → Utf8Lexer l
  state : I s.user

end Spec
end Coil
