import Verif.Props.Exec

/-!
# More recursion never changes a result
-/

namespace Coil
open Spec

/-- `a` is the same as `b`, or has not ended. -/
def Res.Below {α : Type} (a b : Res α) : Prop := a = .diverge ∨ a = b

theorem Res.Below.refl {α : Type} (a : Res α) : Res.Below a a := .inr rfl

theorem Res.Below.bind {α β : Type} {a b : Res α} {f g : α → Res β} (h : Res.Below a b) (hf : ∀ x, Res.Below (f x) (g x)) :
    Res.Below (a >>= f) (b >>= g) := by
  rcases h with rfl | rfl
  · exact .inl rfl
  · cases a with
    | ok x => exact hf x
    | ub u => exact .inr rfl
    | diverge => exact .inl rfl

variable {S W C D : Type} {P : C → FunctorDef W C D} {ops : RegOps S C D} {catching : Bool}

/-- The `execute` functions of `a` give the same as those of `b` where they end. -/
def Nested.Below (a b : Nested S W C D) : Prop :=
  (∀ s t, Res.Below (a.line s t) (b.line s t)) ∧ ∀ s i, Res.Below (a.input s i) (b.input s i)

theorem run_below {a b : Nested S W C D} (h : a.Below b) (self : Inst C D) {R : Type} (p : Prog W C D R) :
    ∀ s c, Res.Below (p.run ops a self s c) (p.run ops b self s c) := by
  induction p with
  | ret r => exact fun s c => .inr rfl
  | throw e => exact fun s c => .inr rfl
  | ub w => exact fun s c => .inr rfl
  | diverge => exact fun s c => .inr rfl
  | log t k ih => exact fun s c => ih _ _
  | logline t k ih => exact fun s c => ih _ _
  | reportError t k ih => exact fun s c => ih _ _
  | hasErrors k ih => exact fun s c => ih _ _ _
  | named k ih => exact fun s c => ih _ _ _
  | setNamed i v k ih => exact fun s c => .bind (.refl _) fun c' => ih _ _
  | get k ih => exact fun s c => ih _ _ _
  | set w k ih => exact fun s c => ih _ _
  | captured k ih =>
    intro s c
    simp only [Prog.run]
    split
    · exact .refl _
    · exact ih _ _ _
  | add n fs k ih => exact fun s c => .bind (.refl _) fun s' => ih _ _
  | remove n k ih => exact fun s c => .bind (.refl _) fun s' => ih _ _
  | clear k ih => exact fun s c => ih _ _
  | execLine t k ih => exact fun s c => .bind (h.1 _ _) fun x => ih _ _ _
  | execInput i k ih => exact fun s c => .bind (h.2 _ _) fun x => ih _ _ _

theorem invokeFunctor_below {a b : Nested S W C D} (h : a.Below b) (depth : Nat) (f : Inst C D) (s : Sys S W C D) (c : CallCtx) :
    Res.Below (invokeFunctor P ops a depth f s c) (invokeFunctor P ops b depth f s c) := by
  unfold invokeFunctor
  split
  · exact .refl _
  · refine .bind (.refl _) fun es => ?_
    split
    · exact .refl _
    · exact .bind (.refl _) fun args => .bind (run_below h _ _ _ _) fun x => .refl _

theorem executeCtx_below {a b : Nested S W C D} (h : a.Below b) (depth : Nat) (s : Sys S W C D) (c : CallCtx) :
    Res.Below (executeCtx P ops catching a depth s c) (executeCtx P ops catching b depth s c) := by
  unfold executeCtx
  split
  · exact .refl _
  · refine .bind (.refl _) fun o => ?_
    cases o with
    | none => exact .refl _
    | some cmd =>
      simp only
      cases selectLoop P c.input.arguments.length cmd.functors with
      | none => exact .refl _
      | some f => exact .bind (invokeFunctor_below h _ _ _ _) fun x => .refl _

theorem executeInput_below {a b : Nested S W C D} (h : a.Below b) (depth : Nat) (s : Sys S W C D) (i : Input) :
    Res.Below (executeInput P ops catching a depth s i) (executeInput P ops catching b depth s i) := by
  unfold executeInput
  exact .bind (executeCtx_below h _ _ _) fun x => .refl _

theorem executeLine_below {a b : Nested S W C D} (h : a.Below b) (depth : Nat) (s : Sys S W C D) (t : Bytes) :
    Res.Below (executeLine P ops catching a depth s t) (executeLine P ops catching b depth s t) := by
  unfold executeLine
  cases s.lexer with
  | none => exact .refl _
  | some l =>
    refine .bind (.refl _) fun o => ?_
    cases o with
    | error e => exact .refl _
    | ok i => exact executeInput_below h _ _ _

theorem nested_below {n m : Nat} (h : n ≤ m) (depth : Nat) :
    (nested P ops catching n depth).Below (nested P ops catching m depth) := by
  induction n generalizing m depth with
  | zero => exact ⟨fun _ _ => .inl rfl, fun _ _ => .inl rfl⟩
  | succ n ih =>
    obtain ⟨m, rfl⟩ : ∃ k, m = k + 1 := ⟨m - 1, by omega⟩
    have := ih (m := m) (by omega) (depth + 1)
    exact ⟨fun s t => executeLine_below this _ _ _, fun s i => executeInput_below this _ _ _⟩

theorem exec_below {n m : Nat} (h : n ≤ m) (depth : Nat) (s : Sys S W C D) (req : Request) :
    Res.Below ((nested P ops catching n depth).exec s req) ((nested P ops catching m depth).exec s req) := by
  cases req with
  | line t => exact (nested_below h depth).1 s t
  | input i => exact (nested_below h depth).2 s i

theorem run_nothing (a b : Nested S W C D) (self : Inst C D) {R : Type} (p : Prog W C D R) (hp : ExecutesNothing p) :
    ∀ s c, p.run ops a self s c = p.run ops b self s c := by
  induction p with
  | ret r => exact fun s c => rfl
  | throw e => exact fun s c => rfl
  | ub w => exact fun s c => rfl
  | diverge => exact fun s c => rfl
  | log t k ih => exact fun s c => ih hp _ _
  | logline t k ih => exact fun s c => ih hp _ _
  | reportError t k ih => exact fun s c => ih hp _ _
  | hasErrors k ih => exact fun s c => ih _ (hp _) _ _
  | named k ih => exact fun s c => ih _ (hp _) _ _
  | setNamed i v k ih =>
    intro s c
    simp only [Prog.run]
    cases c.setNamed i v with
    | ok c' => exact ih hp _ _
    | ub u => rfl
    | diverge => rfl
  | get k ih => exact fun s c => ih _ (hp _) _ _
  | set w k ih => exact fun s c => ih hp _ _
  | captured k ih =>
    intro s c
    simp only [Prog.run]
    split
    · rfl
    · exact ih _ (hp _) _ _
  | add n fs k ih =>
    intro s c
    simp only [Prog.run]
    cases bindingsAdd ops s n fs with
    | ok s' => exact ih hp _ _
    | ub u => rfl
    | diverge => rfl
  | remove n k ih =>
    intro s c
    simp only [Prog.run]
    cases bindingsRemove ops s n with
    | ok s' => exact ih hp _ _
    | ub u => rfl
    | diverge => rfl
  | clear k ih => exact fun s c => ih hp _ _
  | execLine t k ih => exact hp.elim
  | execInput i k ih => exact hp.elim

end Coil
