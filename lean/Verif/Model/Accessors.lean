import Verif.Model.Assert
import Verif.Model.Lifetime

/-!
# Reading `Optional`, `Expected`, `Unexpected` and `UniquePtr`
(include/coil/detail/Optional.h 133-201, Expected.h 142-253, Unexpected.h, UniquePtr.h 29-63)

Programs as in `Model/Lifetime.lean` that also read, compare and write through the accessors, in builds with assertions
(`chk`) and without. A program shows the list of what it read. The overloads for constant, changeable and temporary objects
differ only in the kind of reference they return: `take` statements construct an object from the reference of a temporary
(`move(e).value()`), the other statements read or write through the reference.
-/

namespace Coil
namespace Life

/-- `COIL_ASSERT(c)` (Assert.h 5-14); `chk` says whether assertions are on. -/
def guardThat (chk : Bool) (c : Prop) [Decidable c] : Res Unit := if chk then assertThat c else .ok ()

/-- What a statement shows: a truth value, a contained value, a contained error or the payload of an `Unexpected`. -/
inductive Seen (α ε υ : Type) where
  | flag (b : Bool)
  | value (x : α)
  | error (x : ε)
  | plain (x : υ)
  deriving DecidableEq, Repr

/-- One statement after the other: the effect of a program and what it shows. -/
def useAll {σ υ ω : Type} (step : σ → υ → Res (σ × List ω)) : σ → List υ → Res (σ × List ω)
  | s, [] => .ok (s, [])
  | s, u :: us => do
    let (s', out) ← step s u
    let (s'', outs) ← useAll step s' us
    .ok (s'', out ++ outs)

/-! ## `Optional` -/

/-- A statement: one of `OptOp` or a use of an accessor. `β` is the type of the other side of `o == x`. -/
inductive OptUse (α β : Type) where
  | op (o : OptOp α)
  | hasValue (v : Nat)
  | read (v : Nat)
  | arrow (v : Nat)
  | take (v : Nat)
  | equal (v w : Nat)
  | notEqual (v w : Nat)
  | equalTo (v : Nat) (x : β)
  | notEqualTo (v : Nat) (x : β)
  deriving DecidableEq, Repr

section
variable {α β : Type} (chk : Bool) (ty : Ty α) (eq : α → α → Bool) (eqTo : α → β → Bool)

/-- `operator*` (Optional.h 145-157). -/
def OptObj.deref (o : OptObj α) : Res α := do
  guardThat chk (o.hasValue = true)
  o.value

/-- Reading through `operator->` (Optional.h 159-169): no assertion. -/
def OptObj.arrow (o : OptObj α) : Res α := o.value

/-- `operator==(T2 const&)` (Optional.h 189-194). -/
def OptObj.equalTo (o : OptObj α) (x : β) : Res Bool :=
  if o.hasValue then do
    let y ← o.value
    .ok (eqTo y x)
  else .ok false

/-- The effect of a statement. `*o = x` goes through `operator*`; `hasValue` and `operator bool` (Optional.h 133-143) are the
flag; `!=` (183-187, 196-201) is the negation of `==`. -/
def optUse (s : OptState α) : OptUse α β → Res (OptState α × List (Seen α Unit Unit))
  | .op (.write v x fail) => do
    let o ← live s.vars v
    let _ ← o.deref chk
    let s' ← optStep ty s (.write v x fail)
    .ok (s', [])
  | .op o => do
    let s' ← optStep ty s o
    .ok (s', [])
  | .hasValue v => do
    let o ← live s.vars v
    .ok (s, [.flag o.hasValue])
  | .read v => do
    let o ← live s.vars v
    let x ← o.deref chk
    .ok (s, [.value x])
  | .arrow v => do
    let o ← live s.vars v
    let x ← o.arrow
    .ok (s, [.value x])
  | .take v => do
    let o ← live s.vars v
    let x ← o.deref chk
    .ok ({ s with vars := s.vars.set v (some { o with cell := some (ty.moved x) }) }, [.value x])
  | .equal v w => do
    let a ← live s.vars v
    let b ← live s.vars w
    let r ← a.equal eq b
    .ok (s, [.flag r])
  | .notEqual v w => do
    let a ← live s.vars v
    let b ← live s.vars w
    let r ← a.equal eq b
    .ok (s, [.flag (!r)])
  | .equalTo v x => do
    let a ← live s.vars v
    let r ← a.equalTo eqTo x
    .ok (s, [.flag r])
  | .notEqualTo v x => do
    let a ← live s.vars v
    let r ← a.equalTo eqTo x
    .ok (s, [.flag (!r)])

/-- The effect of a program and what it shows. -/
def optUses : OptState α → List (OptUse α β) → Res (OptState α × List (Seen α Unit Unit)) := useAll (optUse chk ty eq eqTo)

end

/-! ## `Expected` and `Unexpected` -/

/-- The variables of a program: `Expected<T, E>` and `Unexpected<U>` (Unexpected.h 29-30). -/
structure ExpVars (α ε υ : Type) where
  exp : ExpState α ε
  unex : List υ
  deriving DecidableEq, Repr

/-- A statement: one of `ExpOp` or a use of an accessor. `β` and `δ` are the types of the other side of a comparison. -/
inductive ExpUse (α ε υ β δ : Type) where
  | op (o : ExpOp α ε)
  | hasValue (v : Nat)
  | value (v : Nat)
  | arrow (v : Nat)
  | error (v : Nat)
  | takeValue (v : Nat)
  | takeError (v : Nat)
  | setValue (v : Nat) (x : α)
  | setError (v : Nat) (x : ε)
  | equal (v w : Nat)
  | equalOther (v : Nat) (x : β ⊕ δ)
  | equalTo (v : Nat) (x : β)
  | equalError (v : Nat) (x : δ)
  | makeUnexpected (x : υ)
  | payload (i : Nat)
  | convert (i : Nat) (f : υ → υ) (move : Bool)
  | ofUnexpected (i : Nat) (move : Bool)

/-- The comparisons of the contained types that a program uses. -/
structure Compare (α ε β δ : Type) where
  val : α → α → Bool
  err : ε → ε → Bool
  valTo : α → β → Bool
  errTo : ε → δ → Bool

section
variable {α ε υ β δ : Type} (chk : Bool) (ta : Ty α) (te : Ty ε) (tu : Ty υ) (conv : υ → ε) (cmp : Compare α ε β δ)

/-- `value()`, `operator*` and `operator->` (Expected.h 197-246). -/
def ExpObj.valueC (o : ExpObj α ε) : Res α := do
  guardThat chk (o.hasValue = true)
  o.value

/-- `error()` (Expected.h 154-173). -/
def ExpObj.errorC (o : ExpObj α ε) : Res ε := do
  guardThat chk (o.hasValue = false)
  o.error

/-- `operator==(Expected<T2, E2> const&)` (Expected.h 175-188). -/
def ExpObj.equal {α' ε' : Type} (val : α → α' → Bool) (err : ε → ε' → Bool) (a : ExpObj α ε) (b : ExpObj α' ε') : Res Bool :=
  if a.hasValue && b.hasValue then do
    let x ← a.valueC chk
    let y ← b.valueC chk
    .ok (val x y)
  else if !a.hasValue && !b.hasValue then do
    let x ← a.errorC chk
    let y ← b.errorC chk
    .ok (err x y)
  else .ok false

/-- `operator==(T2 const&)` (Expected.h 190-195). -/
def ExpObj.equalTo (val : α → β → Bool) (a : ExpObj α ε) (y : β) : Res Bool :=
  if a.hasValue then do
    let x ← a.valueC chk
    .ok (val x y)
  else .ok false

/-- `operator==(Unexpected<E2> const&)` (Expected.h 248-253). -/
def ExpObj.equalError (err : ε → δ → Bool) (a : ExpObj α ε) (y : δ) : Res Bool :=
  if !a.hasValue then do
    let x ← a.errorC chk
    .ok (err x y)
  else .ok false

/-- An `Expected<T2, E2>` just made from a value or an error (Expected.h 72-81). -/
def ExpObj.fresh {α' ε' : Type} (x : α' ⊕ ε') : ExpObj α' ε' := ⟨some x, match x with | .inl _ => true | .inr _ => false⟩

/-- The effect of a statement. `hasValue` and `operator bool` (Expected.h 142-152) are the flag. `convert` is
`Unexpected<U>`'s conversion (Unexpected.h 64-83): copied from a variable, moved from a temporary. `ofUnexpected` copies or moves
the variable into the parameter of the constructor (Expected.h 77-81), whose payload is converted and moved into the union. -/
def expUse (s : ExpVars α ε υ) : ExpUse α ε υ β δ → Res (ExpVars α ε υ × List (Seen α ε υ))
  | .op o => do
    let e ← expStep ta te s.exp o
    .ok ({ s with exp := e }, [])
  | .hasValue v => do
    let o ← live s.exp.vars v
    .ok (s, [.flag o.hasValue])
  | .value v | .arrow v => do
    let o ← live s.exp.vars v
    let x ← o.valueC chk
    .ok (s, [.value x])
  | .error v => do
    let o ← live s.exp.vars v
    let x ← o.errorC chk
    .ok (s, [.error x])
  | .takeValue v => do
    let o ← live s.exp.vars v
    let x ← o.valueC chk
    .ok ({ s with exp := { s.exp with vars := s.exp.vars.set v (some { o with cell := some (.inl (ta.moved x)) }) } }, [.value x])
  | .takeError v => do
    let o ← live s.exp.vars v
    let x ← o.errorC chk
    .ok ({ s with exp := { s.exp with vars := s.exp.vars.set v (some { o with cell := some (.inr (te.moved x)) }) } }, [.error x])
  | .setValue v x => do
    let o ← live s.exp.vars v
    let _ ← o.valueC chk
    .ok ({ s with exp := { s.exp with vars := s.exp.vars.set v (some { o with cell := some (.inl x) }) } }, [])
  | .setError v x => do
    let o ← live s.exp.vars v
    let _ ← o.errorC chk
    .ok ({ s with exp := { s.exp with vars := s.exp.vars.set v (some { o with cell := some (.inr x) }) } }, [])
  | .equal v w => do
    let a ← live s.exp.vars v
    let b ← live s.exp.vars w
    let r ← a.equal chk cmp.val cmp.err b
    .ok (s, [.flag r])
  | .equalOther v x => do
    let a ← live s.exp.vars v
    let r ← a.equal chk cmp.valTo cmp.errTo (ExpObj.fresh x)
    .ok (s, [.flag r])
  | .equalTo v x => do
    let a ← live s.exp.vars v
    let r ← a.equalTo chk cmp.valTo x
    .ok (s, [.flag r])
  | .equalError v x => do
    let a ← live s.exp.vars v
    let r ← a.equalError chk cmp.errTo x
    .ok (s, [.flag r])
  | .makeUnexpected x => .ok ({ s with unex := s.unex ++ [x] }, [])
  | .payload i => do
    let x ← readAt s.unex i
    .ok (s, [.plain x])
  | .convert i f move => do
    let x ← readAt s.unex i
    .ok ({ s with unex := (if move then s.unex.set i (tu.moved x) else s.unex) ++ [f x] }, [])
  | .ofUnexpected i move => do
    let x ← readAt s.unex i
    let e ← expStep ta te s.exp (.ofError (conv x))
    .ok (⟨e, if move then s.unex.set i (tu.moved x) else s.unex⟩, [])

/-- The effect of a program and what it shows. -/
def expUses : ExpVars α ε υ → List (ExpUse α ε υ β δ) → Res (ExpVars α ε υ × List (Seen α ε υ)) :=
  useAll (expUse chk ta te tu conv cmp)

end

/-! ## `UniquePtr` -/

/-- A statement: one of `PtrOp` or a use of an accessor. -/
inductive PtrUse where
  | op (o : PtrOp)
  | get (v : Nat)
  | owns (v : Nat)
  | deref (v : Nat)
  | arrow (v : Nat)
  deriving DecidableEq, Repr

/-- What a statement shows: the pointer of `get`, the truth value of `operator bool`, or the object that was used. -/
inductive PtrSeen where
  | pointer (p : Option Nat)
  | flag (b : Bool)
  | object (i : Nat)
  deriving DecidableEq, Repr

/-- Using an object through a pointer. -/
def useObj (s : PtrState) : Option Nat → Res Nat
  | none => .ub .nullDeref
  | some i =>
    match s.objs[i]? with
    | some true => .ok i
    | _ => .ub .useAfterFree

/-- The effect of a statement (UniquePtr.h 29-63). Through `operator->` the object is used as through `operator*`. -/
def ptrUse (chk : Bool) (s : PtrState) : PtrUse → Res (PtrState × List PtrSeen)
  | .op o => do
    let s' ← ptrStep s o
    .ok (s', [])
  | .get v => do
    let p ← live s.vars v
    .ok (s, [.pointer p])
  | .owns v => do
    let p ← live s.vars v
    .ok (s, [.flag p.isSome])
  | .deref v | .arrow v => do
    let p ← live s.vars v
    guardThat chk (p.isSome = true)
    let i ← useObj s p
    .ok (s, [.object i])

/-- The effect of a program and what it shows. -/
def ptrUses (chk : Bool) : PtrState → List PtrUse → Res (PtrState × List PtrSeen) := useAll (ptrUse chk)

end Life
end Coil
