import Verif.Proofs.Access
import Verif.Proofs.Typed

/-!
# Commands with one function object
-/

namespace Coil
open Spec

variable {S W C D : Type} {P : C → FunctorDef W C D} {ops : RegOps S C D} {catching : Bool} {fuel depth : Nat}
  {s s' : Sys S W C D} {req : Request} {name : Bytes} {d : FunctorDef W C D} {f : Inst C D} {args : List Value} {named : List Named}

/-- A command with one function object. -/
structure OneForm (P : C → FunctorDef W C D) (ops : RegOps S C D) (s : Sys S W C D) (name : Bytes)
    (d : FunctorDef W C D) (f : Inst C D) : Prop where
  ne_nil : name ≠ []
  found : ops.find s.reg name = .ok (some ⟨name, [f]⟩)
  code : P f.code = d
  live : f.id ∉ s.freed

theorem OneForm.first (h : OneForm P ops s name d f) {n : Nat} (hn : d.params.length = n) : FirstOfArity P n [f] f :=
  ⟨[], [], rfl, by rw [h.code, hn], by simp⟩

theorem convertTo_length : ∀ {ps : List Param} {as : List Value} {xs : Args ps}, ConvertTo ps as xs → ps.length = as.length :=
  fun h => conversionsDefined_length (convertTo_defined h).1

/-- A call that ends. -/
theorem OneForm.returns (h : OneForm P ops s name d f) (hm : Means s.lexer req ⟨name, args, named⟩)
    {xs : Args d.params} (hx : ConvertTo d.params args xs) {es : List CtxEvent} {e : End d.R}
    (hr : Runs ops (nested P ops catching fuel (depth + 1)) f named [] (d.body xs)
      { s with calls := s.calls ++ [(depth, f.id)] } es e s') :
    (nested P ops catching (fuel + 1) depth).exec s req = .ok (s', endResult catching ⟨name, args, named⟩ d.print es e) := by
  rw [exec_means hm]
  exact (executeInput_called_def h.ne_nil h.found (h.first (convertTo_length hx)) h.live h.code hx).2 ⟨es, e, hr, rfl⟩

/-- A call whose body has undefined behaviour. -/
theorem OneForm.undefined (h : OneForm P ops s name d f) (hm : Means s.lexer req ⟨name, args, named⟩)
    {xs : Args d.params} (hx : ConvertTo d.params args xs) {w : UB}
    (hr : (d.body xs).run ops (nested P ops catching fuel (depth + 1)) f { s with calls := s.calls ++ [(depth, f.id)] }
      ⟨⟨name, args, named⟩, ExecResult.empty⟩ = .ub w) :
    (nested P ops catching (fuel + 1) depth).exec s req = .ub w := by
  obtain ⟨h1, h2, rfl, h4⟩ := h
  rw [exec_means hm, executeInput_selected h1 h2 (OneForm.first ⟨h1, h2, rfl, h4⟩ (convertTo_length hx)), invoke_accepted h4 hx, hr]
  rfl

/-- A call whose arguments do not convert. -/
theorem OneForm.rejected (h : OneForm P ops s name d f) (hm : Means s.lexer req ⟨name, args, named⟩)
    (hd : ConversionsDefined d.params args) (he : conversionErrors d.params args ≠ []) :
    (nested P ops catching (fuel + 1) depth).exec s req =
      .ok (s, .ok ⟨⟨name, args, named⟩, conversionErrors d.params args, none, []⟩) := by
  obtain ⟨h1, h2, rfl, h4⟩ := h
  rw [exec_means hm]
  exact executeInput_rejected (P := P) h1 h2 (OneForm.first ⟨h1, h2, rfl, h4⟩ (conversionsDefined_length hd)) h4 hd he

/-- The second form of a command, with a body that has undefined behaviour. -/
theorem TwoForms.undefined {d0 d1 : FunctorDef W C D} {g t : Inst C D} (h : TwoForms P ops s name d0 d1 g t) (a0 : d0.params = [])
    (hm : Means s.lexer req ⟨name, args, named⟩) (ha : args.length = 1) {xs : Args d1.params} (hx : ConvertTo d1.params args xs) {w : UB}
    (hr : (d1.body xs).run ops (nested P ops catching fuel (depth + 1)) t { s with calls := s.calls ++ [(depth, t.id)] }
      ⟨⟨name, args, named⟩, ExecResult.empty⟩ = .ub w) :
    (nested P ops catching (fuel + 1) depth).exec s req = .ub w := by
  have hf := h.first1 a0 ((convertTo_length hx).trans ha)
  obtain ⟨h1, h2, _, rfl, _, h6⟩ := h
  rw [exec_means hm, executeInput_selected h1 h2 (by rw [ha]; exact hf), invoke_accepted h6 hx, hr]
  rfl

end Coil
