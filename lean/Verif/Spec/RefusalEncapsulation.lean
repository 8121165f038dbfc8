import Verif.Spec.Encapsulation
import Verif.Spec.Refusal

/-!
# All answers of the program of examples/encapsulation
-/

namespace Coil.Spec

/-- The commands that there are at a stage, with the kinds of their parameters. -/
def Stage.signatures (σ : Stage) : Signatures :=
  [(lit "create_subsystem", [[]]), (lit "destroy_subsystem", [[]])] ++
    if σ.usable then
      [(lit "subsystem.time", [[], [.float]]), (lit "subsystem.counter", [[], [.int]]), (lit "subsystem.data", [[], [.text]]),
        (lit "subsystem.do_some_work", [[.text, .int]])]
    else []

/-- The answer to a command: what it returns if it is carried out, and the errors if it is refused. -/
inductive SubAnswer (pl : Platform) (tiny : Nat → Nat → Bool) (size : Bytes) (σ : Stage) (i : Input) : Stage → ExecOut → Prop
  | done {σ' v} : Accepted pl tiny σ i σ' v → SubAnswer pl tiny size σ i σ' (.ok ⟨i, [], v, []⟩)
  | refused {es} : Declined pl tiny size σ.signatures i es → SubAnswer pl tiny size σ i σ (.ok ⟨i, es, none, []⟩)

/-- `SubTale d pl tiny size σ reqs outs σ'`: from the stage `σ` the requests `reqs` are answered by `outs` and lead to the stage `σ'`. -/
inductive SubTale (d : Delims) (pl : Platform) (tiny : Nat → Nat → Bool) (size : Bytes) : Stage → List Request → List ExecOut → Stage → Prop
  | nil {σ} : SubTale d pl tiny size σ [] [] σ
  | wrong {σ t m rest outs σ'} : Rejects d t m → SubTale d pl tiny size σ rest outs σ' →
      SubTale d pl tiny size σ (.line t :: rest) (.ok ⟨⟨[], [], []⟩, [lit "Syntax error: " ++ m], none, []⟩ :: outs) σ'
  | line {σ t i σ1 out rest outs σ'} : Accepts d t i → SubAnswer pl tiny size σ i σ1 out → SubTale d pl tiny size σ1 rest outs σ' →
      SubTale d pl tiny size σ (.line t :: rest) (out :: outs) σ'
  | input {σ i σ1 out rest outs σ'} : SubAnswer pl tiny size σ i σ1 out → SubTale d pl tiny size σ1 rest outs σ' →
      SubTale d pl tiny size σ (.input i :: rest) (out :: outs) σ'

end Coil.Spec
