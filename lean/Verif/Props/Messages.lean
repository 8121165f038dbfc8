import Verif.Props.Access
import Verif.Props.Registry

/-!
# Names and keys in error messages (C43)

The conversion part of C43 is in `Props/Conv.lean`.
-/

namespace Coil
open Spec

section

variable {S W C D : Type} {P : C → FunctorDef W C D} {ops : RegOps S C D} {ne : Nested S W C D} {catching : Bool}
  {fuel depth : Nat} {s s' : Sys S W C D} {req : Request} {input : Input} {self : Inst C D} {l : List Named}
  {past : List CtxEvent}

/-- **C43, partial.** Missing: names with NUL bytes. The errors about an unknown name and about a wrong number of arguments
quote the whole name. -/
theorem C43_command_partial (hm : Means s.lexer req input) (hn : input.name ≠ []) (hnul : NulFree input.name) :
    (ops.find s.reg input.name = .ok none →
      (nested P ops catching (fuel + 1) depth).exec s req =
        .ok (s, .ok ⟨input, [lit "No function '" ++ input.name ++ lit "' is registered"], none, []⟩)) ∧
    (∀ cmd, ops.find s.reg input.name = .ok (some cmd) →
      (∀ g ∈ cmd.functors, (P g.code).params.length ≠ input.arguments.length) →
      ∃ tail, (nested P ops catching (fuel + 1) depth).exec s req =
        .ok (s, .ok ⟨input, [lit "Wrong number of arguments to '" ++ input.name ++ tail], none, []⟩)) := by
  refine ⟨C30_unknown hm hn hnul, fun cmd hf hno => ⟨lit "': expected " ++
        (countsInWords (cmd.functors.map (fun g => (P g.code).params.length)) ++ (lit ", got " ++
        natDec input.arguments.length)), ?_⟩⟩
  rw [C27_wrong_count hm hn hnul hf hno]
  simp only [List.append_assoc]

/-- **C43, partial.** Missing: keys with NUL bytes. The error about a missing named argument quotes the whole key. -/
theorem C43_key_partial {key : Bytes} (hnul : NulFree key) (h : NotNamed key (namedAfter l past)) {es : List CtxEvent}
    {e : End (Except NamedError Value)} (hr : Runs ops ne self l past (namedGet key) s es e s') :
    e = .ret (.error (.missingKey (lit "Missing named argument '" ++ key ++ lit "'"))) := by
  have := ((C37_missing h).1 hr).2.1
  rwa [cstr_of_nulFree hnul] at this

end

/-- **C43, negation.** Executing an unknown name that contains a NUL byte: the error leaves out the rest of the name. -/
theorem C43_command_false :
    (do let s ← Demo.after false []
        let (_, o) ← execute Demo.P Demo.ops true 5 s (.input ⟨[97, 0, 98], [], []⟩)
        Res.ok o) = .ok (.ok ⟨⟨[97, 0, 98], [], []⟩, [lit "No function 'a' is registered"], none, []⟩) := by
  decide +kernel

/-- **C43, negation.** A missing key that contains a NUL byte. -/
theorem C43_key_false : ∃ key : Bytes, ∀ (s : Sys Demo.Reg Int Nat Nat) (ne : Nested Demo.Reg Int Nat Nat) self,
    Runs Demo.ops ne self [] [] (namedGet key) s [] (.ret (.error (.missingKey (lit "Missing named argument 'a'")))) s ∧
      ¬ (key <:+: lit "Missing named argument 'a'") := by
  refine ⟨[97, 0, 98], fun s ne self => ⟨(C37_missing (by simp [NotNamed, namedAfter])).2 ⟨rfl, ?_, rfl⟩, ?_⟩⟩
  · rw [show cstr [97, 0, 98] = lit "a" by decide +kernel]
    rfl
  · intro h
    have h0 : (0 : UInt8) ∈ lit "Missing named argument 'a'" := h.subset (by simp)
    revert h0
    decide +kernel

example :
    (Demo.thenExec [] "nope").map (fun x => x.2) =
      .ok (.ok (Demo.result "nope" [] ["No function 'nope' is registered"] none "")) := by decide +kernel

end Coil
