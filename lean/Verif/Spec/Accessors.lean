import Verif.Model.Accessors
import Verif.Spec.Lifetime

/-!
# Reading optionals, expecteds and owners as plain values

The verdict on a program: it is proper and shows something, it reads an alternative that is not there, it uses a variable
that is not alive, or (expecteds) a copy between different alternatives throws. Only the names of the statements and the
parameters of the contained types are taken from the model.
-/

namespace Coil
namespace Spec
open Life

/-- A verdict. `wrong silent`: something is read that is not there; `silent` says that it is read through
`Optional::operator->`. -/
inductive Verdict (σ : Type) where
  | proper (s : σ)
  | wrong (silent : Bool)
  | dead
  | torn
  deriving DecidableEq, Repr

/-- One statement after the other. -/
def Verdict.andThen {σ τ : Type} : Verdict σ → (σ → Verdict τ) → Verdict τ
  | .proper s, k => k s
  | .wrong b, _ => .wrong b
  | .dead, _ => .dead
  | .torn, _ => .torn

/-- Use a variable that should be alive. -/
def using' {β σ : Type} (e : List (Option β)) (v : Nat) (k : β → Verdict σ) : Verdict σ :=
  match valueOf e v with
  | some x => k x
  | none => .dead

/-- Programs: the statements in order, all that they show. -/
def runAll {σ υ ω : Type} (step : σ → υ → Verdict (σ × List ω)) : σ → List υ → Verdict (σ × List ω)
  | s, [] => .proper (s, [])
  | s, u :: us => (step s u).andThen (fun r => (runAll step r.1 us).andThen (fun r' => .proper (r'.1, r.2 ++ r'.2)))

section
variable {α β : Type} (ty : Ty α) (eq : α → α → Bool) (eqTo : α → β → Bool)

/-- Two optionals are equal if both are empty or both have equal values. -/
def optSame : Option α → Option α → Bool
  | none, none => true
  | some x, some y => eq x y
  | _, _ => false

/-- Statements on optionals. -/
def optUseSpec (e : List (Option (Option α))) : OptUse α β → Verdict (List (Option (Option α)) × List (Seen α Unit Unit))
  | .op (.write v x fail) => using' e v (fun o =>
    match o with
    | none => .wrong false
    | some old => .proper (e.set v (some (some (if fail then ty.torn old x else x))), []))
  | .op o =>
    match optSpec ty e o with
    | some e' => .proper (e', [])
    | none => .dead
  | .hasValue v => using' e v (fun o => .proper (e, [.flag o.isSome]))
  | .read v => using' e v (fun o => match o with | some x => .proper (e, [.value x]) | none => .wrong false)
  | .arrow v => using' e v (fun o => match o with | some x => .proper (e, [.value x]) | none => .wrong true)
  | .take v => using' e v (fun o =>
    match o with | some x => .proper (e.set v (some (some (ty.moved x))), [.value x]) | none => .wrong false)
  | .equal v w => using' e v (fun a => using' e w (fun b => .proper (e, [.flag (optSame eq a b)])))
  | .notEqual v w => using' e v (fun a => using' e w (fun b => .proper (e, [.flag (!optSame eq a b)])))
  | .equalTo v y => using' e v (fun a => .proper (e, [.flag (a.any (fun x => eqTo x y))]))
  | .notEqualTo v y => using' e v (fun a => .proper (e, [.flag (!a.any (fun x => eqTo x y))]))

end

section
variable {α ε υ β δ : Type} (ta : Ty α) (te : Ty ε) (tu : Ty υ) (conv : υ → ε) (cmp : Compare α ε β δ)

/-- Two expecteds are equal if both have equal values or both have equal errors. -/
def expSame {α' ε' : Type} (val : α → α' → Bool) (err : ε → ε' → Bool) : α ⊕ ε → α' ⊕ ε' → Bool
  | .inl x, .inl y => val x y
  | .inr x, .inr y => err x y
  | _, _ => false

/-- The plain variables: expecteds and the payloads of the `Unexpected`s. -/
structure Plain (α ε υ : Type) where
  exp : List (Option (α ⊕ ε))
  unex : List υ
  deriving DecidableEq, Repr

/-- A copy assignment between different alternatives that throws, as a test. -/
def tearing (e : List (Option (α ⊕ ε))) : ExpOp α ε → Bool
  | .copyAssign dst src fail =>
    fail && (match valueOf e dst, valueOf e src with | some d, some r => d.isLeft != r.isLeft | _, _ => false)
  | _ => false

/-- Use a payload that should exist. -/
def payloadOf {σ : Type} (l : List υ) (i : Nat) (k : υ → Verdict σ) : Verdict σ :=
  match l[i]? with
  | some x => k x
  | none => .dead

/-- Statements on expecteds. -/
def expUseSpec (e : Plain α ε υ) : ExpUse α ε υ β δ → Verdict (Plain α ε υ × List (Seen α ε υ))
  | .op o =>
    if tearing e.exp o then .torn
    else match expSpec ta te e.exp o with
      | some e' => .proper ({ e with exp := e' }, [])
      | none => .dead
  | .hasValue v => using' e.exp v (fun o => .proper (e, [.flag o.isLeft]))
  | .value v | .arrow v => using' e.exp v (fun o => match o with | .inl x => .proper (e, [.value x]) | .inr _ => .wrong false)
  | .error v => using' e.exp v (fun o => match o with | .inr x => .proper (e, [.error x]) | .inl _ => .wrong false)
  | .takeValue v => using' e.exp v (fun o =>
    match o with
    | .inl x => .proper ({ e with exp := e.exp.set v (some (.inl (ta.moved x))) }, [.value x])
    | .inr _ => .wrong false)
  | .takeError v => using' e.exp v (fun o =>
    match o with
    | .inr x => .proper ({ e with exp := e.exp.set v (some (.inr (te.moved x))) }, [.error x])
    | .inl _ => .wrong false)
  | .setValue v x => using' e.exp v (fun o =>
    match o with | .inl _ => .proper ({ e with exp := e.exp.set v (some (.inl x)) }, []) | .inr _ => .wrong false)
  | .setError v x => using' e.exp v (fun o =>
    match o with | .inr _ => .proper ({ e with exp := e.exp.set v (some (.inr x)) }, []) | .inl _ => .wrong false)
  | .equal v w => using' e.exp v (fun a => using' e.exp w (fun b => .proper (e, [.flag (expSame cmp.val cmp.err a b)])))
  | .equalOther v y => using' e.exp v (fun a => .proper (e, [.flag (expSame cmp.valTo cmp.errTo a y)]))
  | .equalTo v y => using' e.exp v (fun a => .proper (e, [.flag (match a with | .inl x => cmp.valTo x y | .inr _ => false)]))
  | .equalError v y => using' e.exp v (fun a => .proper (e, [.flag (match a with | .inr x => cmp.errTo x y | .inl _ => false)]))
  | .makeUnexpected x => .proper ({ e with unex := e.unex ++ [x] }, [])
  | .payload i => payloadOf e.unex i (fun x => .proper (e, [.plain x]))
  | .convert i f move => payloadOf e.unex i (fun x =>
    .proper ({ e with unex := (if move then e.unex.set i (tu.moved x) else e.unex) ++ [f x] }, []))
  | .ofUnexpected i move => payloadOf e.unex i (fun x =>
    .proper (⟨e.exp ++ [some (.inr (conv x))], if move then e.unex.set i (tu.moved x) else e.unex⟩, []))

end

/-- Statements on owners. -/
def ptrUseSpec (e : Owners) : PtrUse → Verdict (Owners × List PtrSeen)
  | .op o =>
    match ptrSpec e o with
    | some e' => .proper (e', [])
    | none => .dead
  | .get v => using' e.vars v (fun p => .proper (e, [.pointer p]))
  | .owns v => using' e.vars v (fun p => .proper (e, [.flag p.isSome]))
  | .deref v | .arrow v => using' e.vars v (fun p => match p with | some i => .proper (e, [.object i]) | none => .wrong false)

end Spec
end Coil
