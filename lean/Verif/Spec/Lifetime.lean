import Verif.Model.Lifetime

/-!
# Optionals, expecteds and owners as plain values

The specification of programs with these types: every variable is a plain value. Only the names of the statements and
the parameters of the contained type (`Life.Ty`) are taken from the model. `none` is the outcome of a statement that uses
a variable that is not alive.
-/

namespace Coil
namespace Spec
open Life

/-- The value of a live variable. -/
def valueOf {β : Type} (e : List (Option β)) (v : Nat) : Option β := (e[v]?).join

/-- The number of live variables that contain something. -/
def contained {β : Type} (full : β → Bool) (e : List (Option β)) : Nat :=
  (e.map (fun o => match o with | some x => if full x then 1 else 0 | none => 0)).sum

section
variable {α ε : Type}

/-- What an assignment does to an optional: afterwards it is as the source; if the copy throws, an empty target stays
empty and a value is in the state its own assignment left it in. -/
def optAssigned (ty : Ty α) (fail : Bool) (d r : Option α) : Option α :=
  match d, r with
  | _, none => none
  | none, some x => if fail then none else some x
  | some old, some x => some (if fail then ty.torn old x else x)

/-- Statements on optionals. -/
def optSpec (ty : Ty α) (e : List (Option (Option α))) : OptOp α → Option (List (Option (Option α)))
  | .create => some (e ++ [some none])
  | .ofValue x fail => some (if fail then e else e ++ [some (some x)])
  | .copyNew src fail => (valueOf e src).map (fun r => if fail && r.isSome then e else e ++ [some r])
  | .moveNew src => (valueOf e src).map (fun r => e.set src (some (r.map ty.moved)) ++ [some r])
  | .copyAssign dst src fail =>
    (valueOf e dst).bind (fun d => (valueOf e src).map (fun r => e.set dst (some (optAssigned ty fail d r))))
  | .moveAssign dst src =>
    (valueOf e dst).bind (fun d => (valueOf e src).map (fun r =>
      if dst = src then e.set dst (some (d.map ty.selfMoved))
      else (e.set src (some (r.map ty.moved))).set dst (some r)))
  | .write v x fail => (valueOf e v).bind (fun o => o.map (fun old => e.set v (some (some (if fail then ty.torn old x else x)))))
  | .destroy v => (valueOf e v).map (fun _ => e.set v none)

/-- Programs on optionals. -/
def optSpecRun (ty : Ty α) : List (Option (Option α)) → List (OptOp α) → Option (List (Option (Option α)))
  | e, [] => some e
  | e, op :: ops => (optSpec ty e op).bind (fun e' => optSpecRun ty e' ops)

/-- What an assignment does to an expected. If the copy throws, an assignment between different alternatives has no
effect. -/
def expAssigned (ta : Ty α) (te : Ty ε) (fail : Bool) (d r : α ⊕ ε) : α ⊕ ε :=
  match d, r with
  | .inl old, .inl x => .inl (if fail then ta.torn old x else x)
  | .inr old, .inr x => .inr (if fail then te.torn old x else x)
  | d, r => if fail then d else r

/-- What is left of a moved-from expected: the same alternative. -/
def expMoved (ta : Ty α) (te : Ty ε) : α ⊕ ε → α ⊕ ε
  | .inl x => .inl (ta.moved x)
  | .inr x => .inr (te.moved x)

/-- What is left of an expected that was moved to itself. -/
def expSelfMoved (ta : Ty α) (te : Ty ε) : α ⊕ ε → α ⊕ ε
  | .inl x => .inl (ta.selfMoved x)
  | .inr x => .inr (te.selfMoved x)

/-- Statements on expecteds. -/
def expSpec (ta : Ty α) (te : Ty ε) (e : List (Option (α ⊕ ε))) : ExpOp α ε → Option (List (Option (α ⊕ ε)))
  | .ofValue x => some (e ++ [some (.inl x)])
  | .ofError x => some (e ++ [some (.inr x)])
  | .copyNew src fail => (valueOf e src).map (fun r => if fail then e else e ++ [some r])
  | .moveNew src => (valueOf e src).map (fun r => e.set src (some (expMoved ta te r)) ++ [some r])
  | .copyAssign dst src fail =>
    (valueOf e dst).bind (fun d => (valueOf e src).map (fun r => e.set dst (some (expAssigned ta te fail d r))))
  | .moveAssign dst src =>
    (valueOf e dst).bind (fun d => (valueOf e src).map (fun r =>
      if dst = src then e.set dst (some (expSelfMoved ta te d))
      else (e.set src (some (expMoved ta te r))).set dst (some r)))
  | .destroy v => (valueOf e v).map (fun _ => e.set v none)

/-- Programs on expecteds. -/
def expSpecRun (ta : Ty α) (te : Ty ε) : List (Option (α ⊕ ε)) → List (ExpOp α ε) → Option (List (Option (α ⊕ ε)))
  | e, [] => some e
  | e, op :: ops => (expSpec ta te e op).bind (fun e' => expSpecRun ta te e' ops)

/-- A copy assignment between different alternatives that throws. -/
def MixedThrow (e : List (Option (α ⊕ ε))) : ExpOp α ε → Prop
  | .copyAssign dst src fail => fail = true ∧ ∃ d r, valueOf e dst = some d ∧ valueOf e src = some r ∧ d.isLeft ≠ r.isLeft
  | _ => False

/-- No statement of the program is such an assignment. -/
def NoMixedThrow (ta : Ty α) (te : Ty ε) : List (Option (α ⊕ ε)) → List (ExpOp α ε) → Prop
  | _, [] => True
  | e, op :: ops => ¬ MixedThrow e op ∧ ∀ e', expSpec ta te e op = some e' → NoMixedThrow ta te e' ops

end

/-- Who owns which object: the number of objects made so far and the object of each live owner. -/
structure Owners where
  made : Nat
  vars : List (Option (Option Nat))
  deriving DecidableEq, Repr

/-- Statements on owners. -/
def ptrSpec (e : Owners) : PtrOp → Option Owners
  | .create => some { e with vars := e.vars ++ [some none] }
  | .makeUnique => some ⟨e.made + 1, e.vars ++ [some (some e.made)]⟩
  | .moveNew src => (valueOf e.vars src).map (fun p => { e with vars := e.vars.set src (some none) ++ [some p] })
  | .moveAssign dst src =>
    (valueOf e.vars dst).bind (fun q => (valueOf e.vars src).map (fun p =>
      { e with vars := (e.vars.set src (some q)).set dst (some p) }))
  | .convert src => (valueOf e.vars src).map (fun p => { e with vars := e.vars.set src (some none) ++ [some p] })
  | .destroy v => (valueOf e.vars v).map (fun _ => { e with vars := e.vars.set v none })

/-- Programs on owners. -/
def ptrSpecRun : Owners → List PtrOp → Option Owners
  | e, [] => some e
  | e, op :: ops => (ptrSpec e op).bind (fun e' => ptrSpecRun e' ops)

end Spec
end Coil
