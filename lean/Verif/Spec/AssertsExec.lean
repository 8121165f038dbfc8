import Verif.Model.Registry
import Verif.Spec.Asserts

/-!
# What assertions may do to a program that executes commands
-/

namespace Coil
namespace Spec

/-- The first outcome mirrors the second: both end, with related values, or have the same undefined behaviour, or do not
end. If `stop`, the first may instead stop at a failed assertion. -/
inductive Mirrors {α β : Type} (stop : Prop) (R : α → β → Prop) : Res α → Res β → Prop where
  | ok {a : α} {b : β} : R a b → Mirrors stop R (.ok a) (.ok b)
  | ub (u : UB) : Mirrors stop R (.ub u) (.ub u)
  | diverge : Mirrors stop R .diverge .diverge
  | stop (y : Res β) : stop → Mirrors stop R (.ub .assertion) y

/-- A lexer with and without assertions; a missing lexer stops the program (if `stop`). -/
inductive SameLexer (stop : Prop) : Option Lexer → Option Lexer → Prop where
  | none : stop → SameLexer stop none none
  | some {l l' : Lexer} : (∀ t, Mirrors stop Eq (l t) (l' t)) → SameLexer stop (some l) (some l')

/-- The two programs differ in nothing but the lexer. -/
def SameButLexer {S W C D : Type} (s s' : Sys S W C D) : Prop := s' = setLexer s s'.lexer

/-- The same action in both builds. -/
inductive SameAction {W C D : Type} (stop : Prop) : Action W C D → Action W C D → Prop where
  | same (a : Action W C D) : (∀ l, a ≠ .setLexer l) → SameAction stop a a
  | setLexer {l l' : Option Lexer} : SameLexer stop l l' → SameAction stop (.setLexer l) (.setLexer l')

/-- The same actions, one after the other. -/
inductive SameActions {W C D : Type} (stop : Prop) : List (Action W C D) → List (Action W C D) → Prop where
  | nil : SameActions stop [] []
  | cons {a a' : Action W C D} {l l' : List (Action W C D)} : SameAction stop a a' → SameActions stop l l' →
      SameActions stop (a :: l) (a' :: l')

/-- A text that fits into memory together with a terminating zero. -/
def FitsMemory (t : Bytes) : Prop := t.length < 2 ^ 64 - 1

/-- A user function with no undefined behaviour of its own when called with `n` named arguments. It changes the registry only
if `changes`. -/
inductive Careful {W C D R : Type} (changes : Prop) (n : Nat) : Prog W C D R → Prop where
  | ret (r : R) : Careful changes n (.ret r)
  | throw (e : Exn) : Careful changes n (.throw e)
  | diverge : Careful changes n .diverge
  | log (t : Bytes) {k : Prog W C D R} : Careful changes n k → Careful changes n (.log t k)
  | logline (t : Bytes) {k : Prog W C D R} : Careful changes n k → Careful changes n (.logline t k)
  | reportError (t : Bytes) {k : Prog W C D R} : Careful changes n k → Careful changes n (.reportError t k)
  | hasErrors {k : Bool → Prog W C D R} : (∀ b, Careful changes n (k b)) → Careful changes n (.hasErrors k)
  | named {k : List Named → Prog W C D R} : (∀ l, l.length = n → Careful changes n (k l)) → Careful changes n (.named k)
  | setNamed {i : Nat} (v : Named) {k : Prog W C D R} : i < n → Careful changes n k → Careful changes n (.setNamed i v k)
  | get {k : W → Prog W C D R} : (∀ w, Careful changes n (k w)) → Careful changes n (.get k)
  | set (w : W) {k : Prog W C D R} : Careful changes n k → Careful changes n (.set w k)
  | captured {k : D → Prog W C D R} : (∀ d, Careful changes n (k d)) → Careful changes n (.captured k)
  | add (name : Bytes) (fs : List (C × D)) {k : Prog W C D R} : changes → Careful changes n k → Careful changes n (.add name fs k)
  | remove (name : Bytes) {k : Prog W C D R} : changes → Careful changes n k → Careful changes n (.remove name k)
  | clear {k : Prog W C D R} : changes → Careful changes n k → Careful changes n (.clear k)
  | execLine {t : Bytes} {k : ExecOut → Prog W C D R} : FitsMemory t → (∀ o, Careful changes n (k o)) → Careful changes n (.execLine t k)
  | execInput (i : Input) {k : ExecOut → Prog W C D R} : (∀ o, Careful changes n (k o)) → Careful changes n (.execInput i k)

/-- All functions are careful, and so are the serializers of their parameters. -/
structure CarefulFunctions {W C D : Type} (changes : Prop) (P : C → FunctorDef W C D) : Prop where
  body : ∀ c (xs : Args (P c).params) n, Careful changes n ((P c).body xs)
  conv : ∀ c, ∀ p ∈ (P c).params, ∀ v, Contained (p.conv.fromString v)

/-- A lexer that has no undefined behaviour for texts that fit into memory, except that it may stop at an assertion. -/
def CarefulLexer (l : Option Lexer) : Prop := ∀ l0, l = some l0 → ∀ t, FitsMemory t → Contained (l0 t)

/-- An action of the surrounding program with careful arguments. -/
inductive CarefulAction {W C D : Type} : Action W C D → Prop where
  | add (name : Bytes) (fs : List (C × D)) : CarefulAction (.add name fs)
  | remove (name : Bytes) : CarefulAction (.remove name)
  | clear : CarefulAction .clear
  | setLexer {l : Option Lexer} : CarefulLexer l → CarefulAction (.setLexer l)
  | line {t : Bytes} : FitsMemory t → CarefulAction (.exec (.line t))
  | input (i : Input) : CarefulAction (.exec (.input i))
  | setUser (w : W) : CarefulAction (.setUser w)

end Spec
end Coil
