import Verif.Model.Functor
import Verif.Spec.Lifetime

/-!
# Functions and their holders

The specification of programs with function holders: there is a list of functions made so far; every live holder holds one of
them or nothing. A program that uses a dead variable or calls an empty holder has no meaning (`none`).
-/

namespace Coil
namespace Spec
open Fun

variable {C : Type}

/-- A function as given to the library. -/
structure Fn (C : Type) where
  code : C
  obj : Option Nat
  params : List Bytes
  ret : Bytes
  deriving DecidableEq, Repr

/-- Functions, holders of the two kinds, and the calls made. -/
structure Holders (C : Type) where
  fns : List (Fn C)
  wraps : List (Option (Option Nat))
  anys : List (Option (Option Nat))
  calls : List (C × Option Nat)
  deriving DecidableEq, Repr

/-- A call of the function in a holder. -/
def Holders.call (e : Holders C) (c : Option Nat) : Option (Holders C) :=
  c.bind (fun i => (e.fns[i]?).map (fun f => { e with calls := e.calls ++ [(f.code, f.obj)] }))

/-- Statements. -/
def funSpec (e : Holders C) : FunOp C → Option (Holders C)
  | .wrap code obj params ret =>
    some { e with fns := e.fns ++ [⟨code, obj, params, ret⟩], wraps := e.wraps ++ [some (some e.fns.length)] }
  | .moveWrap src => (valueOf e.wraps src).map (fun c => { e with wraps := e.wraps.set src (some none) ++ [some c] })
  | .dropWrap v => (valueOf e.wraps v).map (fun _ => { e with wraps := e.wraps.set v none })
  | .callWrap v => (valueOf e.wraps v).bind e.call
  | .toAny src =>
    (valueOf e.wraps src).map (fun c => { e with wraps := e.wraps.set src (some none), anys := e.anys ++ [some c] })
  | .moveAny src => (valueOf e.anys src).map (fun c => { e with anys := e.anys.set src (some none) ++ [some c] })
  | .dropAny v => (valueOf e.anys v).map (fun _ => { e with anys := e.anys.set v none })
  | .callAny v => (valueOf e.anys v).bind e.call

/-- Programs. -/
def funSpecRun : Holders C → List (FunOp C) → Option (Holders C)
  | e, [] => some e
  | e, op :: ops => (funSpec e op).bind (fun e' => funSpecRun e' ops)

/-- Before the program. -/
def Holders.init : Holders C := ⟨[], [], [], []⟩

/-- Some live variable holds the function. -/
def Holders.held (e : Holders C) (i : Nat) : Prop :=
  (∃ v, valueOf e.wraps v = some (some i)) ∨ ∃ v, valueOf e.anys v = some (some i)

end Spec
end Coil
