import Verif.Props.Lifetime
import Verif.Proofs.Accessors

/-!
# Reading `Optional`, `Expected`, `Unexpected` and `UniquePtr` (C79)

The verdict on a program (`Spec.runAll`) is computed on plain values: `proper` with everything the program should show, or
`wrong` if the first improper statement reads an alternative that is not there.
-/

namespace Coil
open Spec Life

variable {α ε υ β δ : Type}

/-- **C79 (optionals).** A program on optionals that reads only what is there shows exactly what the plain values say, with and without
assertions, and afterwards every optional holds what the plain values say. -/
theorem C79_optional (chk : Bool) (ty : Ty α) (eq : α → α → Bool) (eqTo : α → β → Bool) (us : List (OptUse α β))
    {e : List (Option (Option α))} {out : List (Seen α Unit Unit)}
    (hs : runAll (optUseSpec ty eq eqTo) [] us = .proper (e, out)) :
    ∃ s, optUses chk ty eq eqTo ⟨[], ⟨0, 0⟩⟩ us = .ok (s, out) ∧ ∀ v o, valueOf e v = some o → OptShows s v o := by
  have h := useAll_agrees (fun s e u => optUse_agrees chk ty eq eqTo u) (s := ⟨[], ⟨0, 0⟩⟩) (e := []) ⟨rfl, rfl⟩ us
  rw [hs] at h
  obtain ⟨s, h1, h2⟩ := h
  refine ⟨s, h1, fun v o hv => ⟨enc o, ?_, rfl, ?_⟩⟩
  · rw [h2.1]; exact live_map enc hv
  · rintro x rfl; rfl

/-- The parameters of the examples. -/
def Life.demoUses : List (OptUse Nat Nat) :=
  [.op (.ofValue 5 false), .op .create, .op (.copyNew 0 false), .equal 0 2, .notEqual 0 1, .equalTo 0 5, .equalTo 1 5, .take 2, .hasValue 2,
    .read 2, .op (.write 0 7 false), .arrow 0, .notEqualTo 0 5]

example : runAll (optUseSpec demoTy (· == ·) (· == ·)) [] demoUses = .proper ([some (some 7), some none, some (some 0)],
      [.flag true, .flag true, .flag true, .flag false, .value 5, .flag true, .value 0, .value 7, .flag true]) ∧
    optUses true demoTy (· == ·) (· == ·) ⟨[], ⟨0, 0⟩⟩ demoUses =
      .ok (⟨[some ⟨true, some 7⟩, some ⟨false, none⟩, some ⟨true, some 0⟩], ⟨2, 0⟩⟩,
        [.flag true, .flag true, .flag true, .flag false, .value 5, .flag true, .value 0, .value 7, .flag true]) := by
  refine ⟨?_, ?_⟩ <;> decide +kernel

/-- **C79 (expecteds).** A program on expecteds and `Unexpected`s that reads only what is there (and in which no copy between a value and an
error throws) shows exactly what the plain values say, with and without assertions; afterwards every expected holds what the
plain values say. -/
theorem C79_expected (chk : Bool) (ta : Ty α) (te : Ty ε) (tu : Ty υ) (conv : υ → ε) (cmp : Compare α ε β δ)
    (us : List (ExpUse α ε υ β δ)) {e : Plain α ε υ} {out : List (Seen α ε υ)}
    (hs : runAll (expUseSpec ta te tu conv cmp) ⟨[], []⟩ us = .proper (e, out)) :
    ∃ s, expUses chk ta te tu conv cmp ⟨⟨[], ⟨0, 0⟩⟩, []⟩ us = .ok (s, out) ∧ s.unex = e.unex ∧
      ∀ v x, valueOf e.exp v = some x → ExpShows s.exp v x := by
  have h := useAll_agrees (fun s e u => expUse_agrees chk ta te tu conv cmp u) (s := ⟨⟨[], ⟨0, 0⟩⟩, []⟩) (e := ⟨[], []⟩)
    ⟨⟨rfl, rfl⟩, rfl⟩ us
  rw [hs] at h
  obtain ⟨s, h1, h2⟩ := h
  refine ⟨s, h1, h2.2, fun v x hv => ⟨encE x, ?_, rfl, ?_, ?_⟩⟩
  · rw [h2.1.1]; exact live_map encE hv
  · rintro a rfl; rfl
  · rintro b rfl; rfl

/-- The parameters of the examples. -/
def Life.demoCmp : Compare Nat Nat Nat Nat := ⟨(· == ·), (· == ·), (· == ·), (· == ·)⟩

/-- A program for the examples. -/
def Life.demoExpUses : List (ExpUse Nat Nat Nat Nat Nat) :=
  [.op (.ofValue 5), .makeUnexpected 6, .ofUnexpected 0 false, .convert 0 (· + 10) true, .payload 0, .payload 1, .ofUnexpected 1 true,
    .payload 1, .equal 0 1, .equal 1 2, .equalOther 1 (.inr 16), .equalOther 1 (.inr 106), .equalTo 0 5, .equalTo 1 106, .equalError 1 106,
    .equalError 0 5, .takeError 1, .error 1, .value 0, .setValue 0 9, .arrow 0]

example : runAll (expUseSpec demoTy demoTy demoTy (· + 100) demoCmp) ⟨[], []⟩ demoExpUses =
      .proper (⟨[some (.inl 9), some (.inr 0), some (.inr 116)], [0, 0]⟩,
        [.plain 0, .plain 16, .plain 0, .flag false, .flag false, .flag false, .flag true, .flag true, .flag false, .flag true,
          .flag false, .error 106, .error 0, .value 5, .value 9]) := by
  decide +kernel

/-- **C79 (owners).** A program on owners that uses objects only through owners that have one shows exactly what the plain ownership says, with
and without assertions. -/
theorem C79_owner (chk : Bool) (us : List PtrUse) {e : Owners} {out : List PtrSeen}
    (hs : runAll ptrUseSpec ⟨0, []⟩ us = .proper (e, out)) :
    ∃ s, ptrUses chk ⟨[], [], []⟩ us = .ok (s, out) ∧ ∀ v, valueOf e.vars v = valueOf s.vars v := by
  have h := useAll_agrees (fun s e u => ptrUse_agrees chk u) PtrInv.init us
  rw [hs] at h
  obtain ⟨s, h1, h2⟩ := h
  exact ⟨s, h1, fun v => by rw [h2.vars]⟩

example : runAll ptrUseSpec ⟨0, []⟩ [.op .makeUnique, .op .makeUnique, .op (.moveAssign 0 1), .deref 0, .op (.moveNew 0), .owns 0, .get 2, .arrow 1] =
    .proper (⟨2, [some none, some (some 0), some (some 1)]⟩, [.object 1, .flag false, .pointer (some 1), .object 0]) := by
  decide +kernel

/-- **C79 (equality of expecteds).** After any program, `a == b` holds for two expecteds exactly if both have values that compare equal or both
have errors that compare equal; the comparison itself reads only what is there, in both builds. -/
theorem C79_expected_equality (chk : Bool) (ta : Ty α) (te : Ty ε) (tu : Ty υ) (conv : υ → ε) (cmp : Compare α ε β δ)
    (us : List (ExpUse α ε υ β δ)) {e : Plain α ε υ} {out : List (Seen α ε υ)}
    (hs : runAll (expUseSpec ta te tu conv cmp) ⟨[], []⟩ us = .proper (e, out)) {v w : Nat} {a b : α ⊕ ε}
    (hv : valueOf e.exp v = some a) (hw : valueOf e.exp w = some b) :
    ∃ s x y r, expUses chk ta te tu conv cmp ⟨⟨[], ⟨0, 0⟩⟩, []⟩ us = .ok (s, out) ∧ live s.exp.vars v = .ok x ∧ live s.exp.vars w = .ok y ∧
      x.equal chk cmp.val cmp.err y = .ok r ∧
      (r = true ↔ (∃ p q, a = .inl p ∧ b = .inl q ∧ cmp.val p q = true) ∨ ∃ p q, a = .inr p ∧ b = .inr q ∧ cmp.err p q = true) := by
  have h := useAll_agrees (fun s e u => expUse_agrees chk ta te tu conv cmp u) (s := ⟨⟨[], ⟨0, 0⟩⟩, []⟩) (e := ⟨[], []⟩)
    ⟨⟨rfl, rfl⟩, rfl⟩ us
  rw [hs] at h
  obtain ⟨s, h1, h2⟩ := h
  refine ⟨s, encE a, encE b, expSame cmp.val cmp.err a b, h1, ?_, ?_, expObj_equal chk _ _ a b, ?_⟩
  · rw [h2.1.1]; exact live_map encE hv
  · rw [h2.1.1]; exact live_map encE hw
  · cases a <;> cases b <;> simp [expSame]

/-- **C79 (optionals, partial).** A program whose first improper statement reads or writes an empty optional through `operator*` stops
at an assertion in a build with assertions, and is undefined behaviour without. Missing: `operator->`
(`C79_arrow_false`). -/
theorem C79_optional_stops_partial (ty : Ty α) (eq : α → α → Bool) (eqTo : α → β → Bool) (us : List (OptUse α β))
    (hs : runAll (optUseSpec ty eq eqTo) [] us = .wrong false) :
    optUses true ty eq eqTo ⟨[], ⟨0, 0⟩⟩ us = .ub .assertion ∧ optUses false ty eq eqTo ⟨[], ⟨0, 0⟩⟩ us = .ub .deadObject := by
  refine ⟨?_, ?_⟩
  · have h := useAll_agrees (fun s e u => optUse_agrees true ty eq eqTo u) (s := ⟨[], ⟨0, 0⟩⟩) (e := []) ⟨rfl, rfl⟩ us
    rw [hs] at h
    exact h
  · have h := useAll_agrees (fun s e u => optUse_agrees false ty eq eqTo u) (s := ⟨[], ⟨0, 0⟩⟩) (e := []) ⟨rfl, rfl⟩ us
    rw [hs] at h
    exact h

example : runAll (optUseSpec demoTy (· == ·) (fun (a b : Nat) => a == b)) []
    [.op (.ofValue 5 false), .op .create, .op (.copyAssign 0 1 false), .hasValue 0, .read 0] = .wrong false := by
  decide +kernel

/-- **C79 (disagreement).** `Optional::operator->` has no assertion: a program whose first improper statement reads an empty optional through
it has undefined behaviour also in a build with assertions. -/
theorem C79_arrow_false (chk : Bool) (ty : Ty α) (eq : α → α → Bool) (eqTo : α → β → Bool) (us : List (OptUse α β))
    (hs : runAll (optUseSpec ty eq eqTo) [] us = .wrong true) :
    optUses chk ty eq eqTo ⟨[], ⟨0, 0⟩⟩ us = .ub .deadObject := by
  have h := useAll_agrees (fun s e u => optUse_agrees chk ty eq eqTo u) (s := ⟨[], ⟨0, 0⟩⟩) (e := []) ⟨rfl, rfl⟩ us
  rw [hs] at h
  simpa [Agrees, optUses] using h

example : runAll (optUseSpec demoTy (· == ·) (fun (a b : Nat) => a == b)) [] [.op .create, .hasValue 0, .arrow 0] = .wrong true ∧
    optUses true demoTy (· == ·) (fun (a b : Nat) => a == b) ⟨[], ⟨0, 0⟩⟩ [.op .create, .hasValue 0, .arrow 0] = .ub .deadObject := by
  refine ⟨?_, ?_⟩ <;> decide +kernel

/-- **C79 (expecteds stop).** A program whose first improper statement reads or writes the wrong alternative of an expected, through any of
its accessors, stops at an assertion in a build with assertions, and is undefined behaviour without. -/
theorem C79_expected_stops (ta : Ty α) (te : Ty ε) (tu : Ty υ) (conv : υ → ε) (cmp : Compare α ε β δ) (us : List (ExpUse α ε υ β δ))
    {silent : Bool} (hs : runAll (expUseSpec ta te tu conv cmp) ⟨[], []⟩ us = .wrong silent) :
    expUses true ta te tu conv cmp ⟨⟨[], ⟨0, 0⟩⟩, []⟩ us = .ub .assertion ∧
      expUses false ta te tu conv cmp ⟨⟨[], ⟨0, 0⟩⟩, []⟩ us = .ub .deadObject := by
  have hn : silent = false := expRun_not_silent ta te tu conv cmp hs
  subst hn
  refine ⟨?_, ?_⟩
  · have h := useAll_agrees (fun s e u => expUse_agrees true ta te tu conv cmp u) (s := ⟨⟨[], ⟨0, 0⟩⟩, []⟩) (e := ⟨[], []⟩)
      ⟨⟨rfl, rfl⟩, rfl⟩ us
    rw [hs] at h
    exact h
  · have h := useAll_agrees (fun s e u => expUse_agrees false ta te tu conv cmp u) (s := ⟨⟨[], ⟨0, 0⟩⟩, []⟩) (e := ⟨[], []⟩)
      ⟨⟨rfl, rfl⟩, rfl⟩ us
    rw [hs] at h
    exact h

example : runAll (expUseSpec demoTy demoTy demoTy (· + 100) demoCmp) ⟨[], []⟩
      [.op (.ofValue 5), .op (.ofError 6), .value 0, .op (.copyAssign 0 1 false), .arrow 0] = .wrong false := by
  decide +kernel

/-- **C79 (owners stop).** A program whose first improper statement uses the object of an empty owner stops at an assertion in a build with
assertions, and dereferences a null pointer without. -/
theorem C79_owner_stops (us : List PtrUse) {silent : Bool} (hs : runAll ptrUseSpec ⟨0, []⟩ us = .wrong silent) :
    ptrUses true ⟨[], [], []⟩ us = .ub .assertion ∧ ptrUses false ⟨[], [], []⟩ us = .ub .nullDeref := by
  have hn : silent = false := ptrRun_not_silent hs
  subst hn
  refine ⟨?_, ?_⟩
  · have h := useAll_agrees (fun s e u => ptrUse_agrees true u) PtrInv.init us
    rw [hs] at h
    exact h
  · have h := useAll_agrees (fun s e u => ptrUse_agrees false u) PtrInv.init us
    rw [hs] at h
    exact h

example : runAll ptrUseSpec ⟨0, []⟩ [.op .makeUnique, .op (.moveNew 0), .deref 1, .arrow 0] = .wrong false := by
  decide +kernel

end Coil
