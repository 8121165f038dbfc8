import Verif.Model.Basic

/-!
# `Optional`, `Expected`, `UniquePtr`: who owns which object
(include/coil/detail/Optional.h, Expected.h, Unexpected.h, UniquePtr.h)

Programs with any number of variables of one of these types. The storage of a union holds a live object or nothing;
using or destroying an object that is not there is `deadObject`. Constructions and destructions of contained objects
are counted. Copying a contained object may throw: each statement that copies says whether the copy throws (`fail`).
Moving a contained object does not throw. A statement that throws ends with the state it leaves behind; the caller
is assumed to catch the exception.

The behaviour of the contained type is arbitrary: `moved x` is what is left of `x` after it was moved from, `selfMoved x`
what is left of `x` after `x = move(x)`, and `torn old new` is the value after an assignment `old = new` that threw.
-/

namespace Coil
namespace Life

/-- The behaviour of a contained type. -/
structure Ty (α : Type) where
  moved : α → α
  selfMoved : α → α
  torn : α → α → α

/-- Numbers of constructed and destroyed contained objects. -/
structure Counts where
  ctors : Nat
  dtors : Nat
  deriving DecidableEq, Repr

/-- A live variable. -/
def live {β : Type} (vars : List (Option β)) (v : Nat) : Res β :=
  match vars[v]? with
  | some (some o) => .ok o
  | _ => .ub .deadObject

/-! ## `Optional` -/

/-- The members of `Optional` (Optional.h 52-57): the flag and the object in the union, if there is one. -/
structure OptObj (α : Type) where
  hasValue : Bool
  cell : Option α
  deriving DecidableEq, Repr

/-- Variables of type `Optional<T>` and the counters. -/
structure OptState (α : Type) where
  vars : List (Option (OptObj α))
  counts : Counts
  deriving DecidableEq, Repr

/-- A statement of a program that uses `Optional`. -/
inductive OptOp (α : Type) where
  | create
  | ofValue (x : α) (fail : Bool)
  | copyNew (src : Nat) (fail : Bool)
  | moveNew (src : Nat)
  | copyAssign (dst src : Nat) (fail : Bool)
  | moveAssign (dst src : Nat)
  | write (v : Nat) (x : α) (fail : Bool)
  | destroy (v : Nat)
  deriving DecidableEq, Repr

section
variable {α : Type} (ty : Ty α)

/-- The object in the union. -/
def OptObj.value (o : OptObj α) : Res α :=
  match o.cell with
  | some x => .ok x
  | none => .ub .deadObject

/-- `construct` (Optional.h 203-215): placement new, then the flag. -/
def OptObj.construct (o : OptObj α) (x : α) (c : Counts) : OptObj α × Counts :=
  ({ o with cell := some x, hasValue := true }, { c with ctors := c.ctors + 1 })

/-- `destroy` (Optional.h 217-225). -/
def OptObj.destroy (o : OptObj α) (c : Counts) : Res (OptObj α × Counts) :=
  if o.hasValue then do
    let _ ← o.value
    .ok (⟨false, none⟩, { c with dtors := c.dtors + 1 })
  else .ok (⟨false, o.cell⟩, c)

/-- A default-constructed `Optional` (Optional.h 67-70). -/
def OptObj.empty : OptObj α := ⟨false, none⟩

/-- The effect of a statement (Optional.h 67-131). A constructor that throws runs the destructor of the delegated-to
`Optional()` and leaves no variable. `operator=` (107-131) assigns, destroys or constructs. -/
def optStep (s : OptState α) : OptOp α → Res (OptState α)
  | .create => .ok { s with vars := s.vars ++ [some OptObj.empty] }
  | .ofValue x fail =>
    if fail then do
      let (_, c) ← OptObj.empty.destroy (α := α) s.counts
      .ok { s with counts := c }
    else
      let (o, c) := OptObj.empty.construct x s.counts
      .ok ⟨s.vars ++ [some o], c⟩
  | .copyNew src fail => do
    let r ← live s.vars src
    if r.hasValue then do
      let x ← r.value
      if fail then do
        let (_, c) ← OptObj.empty.destroy (α := α) s.counts
        .ok { s with counts := c }
      else
        let (o, c) := OptObj.empty.construct x s.counts
        .ok ⟨s.vars ++ [some o], c⟩
    else .ok { s with vars := s.vars ++ [some OptObj.empty] }
  | .moveNew src => do
    let r ← live s.vars src
    if r.hasValue then do
      let x ← r.value
      let (o, c) := OptObj.empty.construct x s.counts
      .ok ⟨s.vars.set src (some { r with cell := some (ty.moved x) }) ++ [some o], c⟩
    else .ok { s with vars := s.vars ++ [some OptObj.empty] }
  | .copyAssign dst src fail => do
    let d ← live s.vars dst
    let r ← live s.vars src
    if d.hasValue && r.hasValue then do
      let x ← r.value
      let old ← d.value
      .ok { s with vars := s.vars.set dst (some { d with cell := some (if fail then ty.torn old x else x) }) }
    else if d.hasValue && !r.hasValue then do
      let (o, c) ← d.destroy s.counts
      .ok ⟨s.vars.set dst (some o), c⟩
    else if !d.hasValue && r.hasValue then do
      let x ← r.value
      if fail then .ok s
      else
        let (o, c) := d.construct x s.counts
        .ok ⟨s.vars.set dst (some o), c⟩
    else .ok s
  | .moveAssign dst src => do
    let d ← live s.vars dst
    let r ← live s.vars src
    if d.hasValue && r.hasValue then do
      let x ← r.value
      let _ ← d.value
      if dst = src then .ok { s with vars := s.vars.set dst (some { d with cell := some (ty.selfMoved x) }) }
      else
        .ok ⟨(s.vars.set src (some { r with cell := some (ty.moved x) })).set dst (some { d with cell := some x }), s.counts⟩
    else if d.hasValue && !r.hasValue then do
      let (o, c) ← d.destroy s.counts
      .ok ⟨s.vars.set dst (some o), c⟩
    else if !d.hasValue && r.hasValue then do
      let x ← r.value
      let (o, c) := d.construct x s.counts
      .ok ⟨(s.vars.set src (some { r with cell := some (ty.moved x) })).set dst (some o), c⟩
    else .ok s
  | .write v x fail => do
    let o ← live s.vars v
    let old ← o.value
    .ok { s with vars := s.vars.set v (some { o with cell := some (if fail then ty.torn old x else x) }) }
  | .destroy v => do
    let o ← live s.vars v
    let (_, c) ← o.destroy s.counts
    .ok ⟨s.vars.set v none, c⟩

/-- The effect of a program. -/
def optRun : OptState α → List (OptOp α) → Res (OptState α)
  | s, [] => .ok s
  | s, op :: ops => do
    let s' ← optStep ty s op
    optRun s' ops

/-- `operator==` (Optional.h 171-181), for values compared with `eq`. -/
def OptObj.equal (eq : α → α → Bool) (a b : OptObj α) : Res Bool :=
  if a.hasValue != b.hasValue then .ok false
  else if a.hasValue && b.hasValue then do
    let x ← a.value
    let y ← b.value
    .ok (eq x y)
  else .ok true

end

/-! ## `Expected` -/

/-- The members of `Expected<T, E>` (Expected.h 61-66): the object in the union, if there is one, and the flag. -/
structure ExpObj (α ε : Type) where
  cell : Option (α ⊕ ε)
  hasValue : Bool
  deriving DecidableEq, Repr

/-- Variables of type `Expected<T, E>` and the counters (of `T` and `Unexpected<E>` objects together). -/
structure ExpState (α ε : Type) where
  vars : List (Option (ExpObj α ε))
  counts : Counts
  deriving DecidableEq, Repr

/-- A statement of a program that uses `Expected`. -/
inductive ExpOp (α ε : Type) where
  | ofValue (x : α)
  | ofError (x : ε)
  | copyNew (src : Nat) (fail : Bool)
  | moveNew (src : Nat)
  | copyAssign (dst src : Nat) (fail : Bool)
  | moveAssign (dst src : Nat)
  | destroy (v : Nat)
  deriving DecidableEq, Repr

section
variable {α ε : Type} (ta : Ty α) (te : Ty ε)

/-- `m_expected`. -/
def ExpObj.value (o : ExpObj α ε) : Res α :=
  match o.cell with
  | some (.inl x) => .ok x
  | _ => .ub .deadObject

/-- `m_unexpected`. -/
def ExpObj.error (o : ExpObj α ε) : Res ε :=
  match o.cell with
  | some (.inr x) => .ok x
  | _ => .ub .deadObject

/-- `destruct` (Expected.h 275-282): the flag is left as it is. -/
def ExpObj.destruct (o : ExpObj α ε) (c : Counts) : Res (ExpObj α ε × Counts) :=
  if o.hasValue then do
    let _ ← o.value
    .ok ({ o with cell := none }, { c with dtors := c.dtors + 1 })
  else do
    let _ ← o.error
    .ok ({ o with cell := none }, { c with dtors := c.dtors + 1 })

/-- `constructFrom(Expected const&)` (Expected.h 255-263): the flag first, then placement new of a copy. -/
def ExpObj.constructCopy (o rhs : ExpObj α ε) (fail : Bool) (c : Counts) : Res (ExpObj α ε × Counts) :=
  if rhs.hasValue then do
    let x ← rhs.value
    if fail then .ok ({ o with hasValue := rhs.hasValue }, c)
    else .ok (⟨some (.inl x), rhs.hasValue⟩, { c with ctors := c.ctors + 1 })
  else do
    let x ← rhs.error
    if fail then .ok ({ o with hasValue := rhs.hasValue }, c)
    else .ok (⟨some (.inr x), rhs.hasValue⟩, { c with ctors := c.ctors + 1 })

/-- `constructFrom(Expected&&)` (Expected.h 265-273): the new object and what is left of `rhs`. -/
def ExpObj.constructMove (rhs : ExpObj α ε) (c : Counts) : Res (ExpObj α ε × ExpObj α ε × Counts) :=
  if rhs.hasValue then do
    let x ← rhs.value
    .ok (⟨some (.inl x), rhs.hasValue⟩, { rhs with cell := some (.inl (ta.moved x)) }, { c with ctors := c.ctors + 1 })
  else do
    let x ← rhs.error
    .ok (⟨some (.inr x), rhs.hasValue⟩, { rhs with cell := some (.inr (te.moved x)) }, { c with ctors := c.ctors + 1 })

/-- The effect of a statement (Expected.h 72-140). If the copy constructor throws, there is no object (the union has no
members to destroy). -/
def expStep (s : ExpState α ε) : ExpOp α ε → Res (ExpState α ε)
  | .ofValue x => .ok ⟨s.vars ++ [some ⟨some (.inl x), true⟩], { s.counts with ctors := s.counts.ctors + 1 }⟩
  | .ofError x => .ok ⟨s.vars ++ [some ⟨some (.inr x), false⟩], { s.counts with ctors := s.counts.ctors + 1 }⟩
  | .copyNew src fail => do
    let r ← live s.vars src
    let (o, c) ← ExpObj.constructCopy ⟨none, true⟩ r fail s.counts
    if fail then .ok { s with counts := c } else .ok ⟨s.vars ++ [some o], c⟩
  | .moveNew src => do
    let r ← live s.vars src
    let (o, r', c) ← r.constructMove ta te s.counts
    .ok ⟨s.vars.set src (some r') ++ [some o], c⟩
  | .copyAssign dst src fail => do
    let d ← live s.vars dst
    let r ← live s.vars src
    if d.hasValue && r.hasValue then do
      let x ← r.value
      let old ← d.value
      .ok { s with vars := s.vars.set dst (some { d with cell := some (.inl (if fail then ta.torn old x else x)) }) }
    else if !d.hasValue && !r.hasValue then do
      let x ← r.error
      let old ← d.error
      .ok { s with vars := s.vars.set dst (some { d with cell := some (.inr (if fail then te.torn old x else x)) }) }
    else do
      let (d1, c1) ← d.destruct s.counts
      let (d2, c2) ← d1.constructCopy r fail c1
      .ok ⟨s.vars.set dst (some d2), c2⟩
  | .moveAssign dst src => do
    let d ← live s.vars dst
    let r ← live s.vars src
    if d.hasValue && r.hasValue then do
      let x ← r.value
      let _ ← d.value
      if dst = src then .ok { s with vars := s.vars.set dst (some { d with cell := some (.inl (ta.selfMoved x)) }) }
      else
        .ok ⟨(s.vars.set src (some { r with cell := some (.inl (ta.moved x)) })).set dst (some { d with cell := some (.inl x) }), s.counts⟩
    else if !d.hasValue && !r.hasValue then do
      let x ← r.error
      let _ ← d.error
      if dst = src then .ok { s with vars := s.vars.set dst (some { d with cell := some (.inr (te.selfMoved x)) }) }
      else
        .ok ⟨(s.vars.set src (some { r with cell := some (.inr (te.moved x)) })).set dst (some { d with cell := some (.inr x) }), s.counts⟩
    else do
      let (_, c1) ← d.destruct s.counts
      let (d2, r', c2) ← r.constructMove ta te c1
      .ok ⟨(s.vars.set src (some r')).set dst (some d2), c2⟩
  | .destroy v => do
    let o ← live s.vars v
    let (_, c) ← o.destruct s.counts
    .ok ⟨s.vars.set v none, c⟩

/-- The effect of a program. -/
def expRun : ExpState α ε → List (ExpOp α ε) → Res (ExpState α ε)
  | s, [] => .ok s
  | s, op :: ops => do
    let s' ← expStep ta te s op
    expRun s' ops

end

/-! ## `UniquePtr` -/

/-- Objects made with `new` (by number: is it alive?), the log of deletions, and the `UniquePtr` variables with their `m_ptr`. -/
structure PtrState where
  objs : List Bool
  deleted : List Nat
  vars : List (Option (Option Nat))
  deriving DecidableEq, Repr

/-- A statement of a program that uses `UniquePtr`. -/
inductive PtrOp where
  | create
  | makeUnique
  | moveNew (src : Nat)
  | moveAssign (dst src : Nat)
  | convert (src : Nat)
  | destroy (v : Nat)
  deriving DecidableEq, Repr

/-- `delete` of an object. -/
def deleteObj (s : PtrState) (p : Nat) : Res PtrState :=
  match s.objs[p]? with
  | some true => .ok { s with objs := s.objs.set p false, deleted := s.deleted ++ [p] }
  | _ => .ub .useAfterFree

/-- The effect of a statement (UniquePtr.h 12-27, 65-81). Moves swap the pointers (Utility.h 25-31); the converting operator
takes the pointer and nulls the source. `UniquePtr(T*)` is used with fresh objects only, by `makeUnique`. -/
def ptrStep (s : PtrState) : PtrOp → Res PtrState
  | .create => .ok { s with vars := s.vars ++ [some none] }
  | .makeUnique => .ok { s with objs := s.objs ++ [true], vars := s.vars ++ [some (some s.objs.length)] }
  | .moveNew src => do
    let p ← live s.vars src
    .ok { s with vars := s.vars.set src (some none) ++ [some p] }
  | .moveAssign dst src => do
    let q ← live s.vars dst
    let p ← live s.vars src
    .ok { s with vars := (s.vars.set src (some q)).set dst (some p) }
  | .convert src => do
    let p ← live s.vars src
    .ok { s with vars := s.vars.set src (some none) ++ [some p] }
  | .destroy v => do
    let p ← live s.vars v
    match p with
    | none => .ok { s with vars := s.vars.set v none }
    | some i => do
      let s' ← deleteObj s i
      .ok { s' with vars := s'.vars.set v none }

/-- The effect of a program. -/
def ptrRun : PtrState → List PtrOp → Res PtrState
  | s, [] => .ok s
  | s, op :: ops => do
    let s' ← ptrStep s op
    ptrRun s' ops

end Life
end Coil
