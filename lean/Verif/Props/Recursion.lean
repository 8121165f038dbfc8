import Verif.Proofs.Fuel

/-!
# Recursion (C56)

`fuel` bounds how deep `execute` may call itself through user functions. The bound belongs to the model: these theorems show what it
means.
-/

namespace Coil
open Spec

variable {S W C D : Type} {P : C → FunctorDef W C D} {ops : RegOps S C D} {catching : Bool} {fuel depth : Nat}
  {s s' : Sys S W C D} {req : Request} {input : Input} {out : ExecOut} {cmd : Command C D} {f : Inst C D}

/-! ## C56 -/

/-- **C56.** An execution that ends (with a result or in undefined behaviour) within some depth gives the same with every greater
bound. -/
theorem C56_bound_independent {fuel' : Nat} (hle : fuel ≤ fuel')
    (h : (nested P ops catching fuel depth).exec s req ≠ .diverge) :
    (nested P ops catching fuel' depth).exec s req = (nested P ops catching fuel depth).exec s req := by
  rcases exec_below (P := P) (ops := ops) (catching := catching) hle depth s req with h' | h'
  · exact absurd h' h
  · exact h'.symm

/-- **C56.** Executing is deterministic: two results of the same execution agree, whatever the bounds. -/
theorem C56_deterministic {fuel' : Nat} {x y : Sys S W C D × ExecOut}
    (h : (nested P ops catching fuel depth).exec s req = .ok x) (h' : (nested P ops catching fuel' depth).exec s req = .ok y) :
    x = y := by
  rcases Nat.le_total fuel fuel' with hle | hle
  · rw [C56_bound_independent hle (by simp [h]), h] at h'
    simpa using h'
  · rw [C56_bound_independent hle (by simp [h']), h'] at h
    simpa using h.symm

/-- **C56.** A function that executes no commands needs one level only: the result is the same for all bounds but 0. -/
theorem C56_flat (hm : Means s.lexer req input) (hn : input.name ≠ [])
    (hf : ops.find s.reg input.name = .ok (some cmd)) (hs : FirstOfArity P input.arguments.length cmd.functors f)
    (hb : ∀ xs, ExecutesNothing ((P f.code).body xs)) (fuel' : Nat) :
    (nested P ops catching (fuel + 1) depth).exec s req = (nested P ops catching (fuel' + 1) depth).exec s req := by
  rw [exec_means hm, exec_means hm, executeInput_selected hn hf hs, executeInput_selected hn hf hs]
  have : invokeFunctor P ops (nested P ops catching fuel (depth + 1)) depth f s ⟨input, ExecResult.empty⟩ =
      invokeFunctor P ops (nested P ops catching fuel' (depth + 1)) depth f s ⟨input, ExecResult.empty⟩ := by
    unfold invokeFunctor
    split
    · rfl
    · dsimp only
      congr 1
      funext es
      split
      · rfl
      · congr 1
        funext args
        rw [run_nothing _ (nested P ops catching fuel' (depth + 1)) f _ (hb args)]
  rw [this]

/-- **C56.** Nothing in the library stops a command that executes itself: such an execution never ends, whatever the
registry contains. (In the program: the stack overflows.) -/
theorem C56_self_execution (hn : input.name ≠ []) (hf : ops.find s.reg input.name = .ok (some cmd))
    (hs : FirstOfArity P input.arguments.length cmd.functors f) (hd : f.id ∉ s.freed) {xs : Args (P f.code).params}
    (hx : ConvertTo (P f.code).params input.arguments xs) {k : ExecOut → Prog W C D (P f.code).R}
    (hb : (P f.code).body xs = .execInput input k) (fuel : Nat) :
    (nested P ops catching fuel depth).exec s (.input input) = .diverge := by
  induction fuel generalizing s depth with
  | zero => rfl
  | succ fuel ih =>
    rw [exec_means (input := input) (req := .input input) rfl, executeInput_selected hn hf hs, invoke_accepted hd hx, hb]
    have := ih (depth := depth + 1) (s := { s with calls := s.calls ++ [(depth, f.id)] }) hf hd
    simp only [Nested.exec] at this
    simp only [Prog.run, this]
    rfl

/-- `calls` executes two other commands; `add` and `two` execute nothing. -/
example : ExecutesNothing ((Demo.P 1).body ((5 : Int), ())) := fun _ => trivial
example : ¬ ExecutesNothing ((Demo.P 6).body ()) := fun h => h

end Coil
