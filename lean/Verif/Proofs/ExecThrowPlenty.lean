import Verif.Spec.ExecThrow
import Verif.Proofs.Exec

/-! # Executing while there is memory -/

namespace Coil
namespace Oom
open Spec

variable {S W C D : Type} {P : C → TDef W C D} {T : TOps S C D} {catching : Bool}

/-- The program with enough memory. -/
def rich (s : Sys S W C D) : TSys S W C D := ⟨s, fun _ => true⟩

/-- Inserting does not throw while there is memory. -/
def Calm (T : TOps S C D) : Prop := ∀ m n c, T.put m n c ⟨false, false⟩ = (T.ops.put m n c).bind (fun m' => .ok (m', false))

theorem rich_there (s : Sys S W C D) : (rich s).there = true := rfl
theorem rich_next (s : Sys S W C D) : (rich s).next = rich s := rfl
theorem rich_on (s s' : Sys S W C D) : (rich s).on s' = rich s' := rfl
theorem rich_sys (s : Sys S W C D) : (rich s).sys = s := rfl

theorem add_rich (hT : Calm T) (s : Sys S W C D) (n : Bytes) (fs : List (C × D)) :
    bindingsAddT T (rich s) n fs = (bindingsAdd T.ops s n fs).bind (fun s' => .ok (rich s', false)) := by
  simp only [bindingsAddT, bindingsAdd, rich_there, rich_next, rich_sys, rich_on, if_true, Bool.not_true]
  cases T.ops.find s.reg n with
  | ub u => rfl
  | diverge => rfl
  | ok old =>
    simp only [Res.bind_ok]
    rw [hT s.reg n ⟨n, allocate s.next fs⟩]
    cases T.ops.put s.reg n ⟨n, allocate s.next fs⟩ <;> rfl

theorem remove_rich (s : Sys S W C D) (n : Bytes) :
    bindingsRemoveT T (rich s) n = (bindingsRemove T.ops s n).bind (fun s' => .ok (rich s')) := rfl

/-- The nested `execute` functions agree. -/
def RichNested (a : TNested S W C D) (b : Nested S W C D) : Prop :=
  (∀ s t, a.line (rich s) t = (b.line s t).bind (fun x => .ok (rich x.1, x.2))) ∧
  ∀ s i, a.input (rich s) i = (b.input s i).bind (fun x => .ok (rich x.1, x.2))

theorem run_rich (hT : Calm T) {a : TNested S W C D} {b : Nested S W C D} (hne : RichNested a b) (self : Inst C D) {R : Type} (p : TProg W C D R) :
    ∀ s c, p.run T a self (rich s) c = ((calmProg p).run T.ops b self s c).bind (fun x => .ok (rich x.1, x.2)) := by
  induction p with
  | ret r => exact fun s c => rfl
  | throw e => exact fun s c => rfl
  | ub w => exact fun s c => rfl
  | diverge => exact fun s c => rfl
  | alloc k ih => exact fun s c => ih _ _ _
  | log t k ih => exact fun s c => ih _ _ _
  | logline t k ih => exact fun s c => ih _ _ _
  | reportError t k ih => exact fun s c => ih _ _ _
  | hasErrors k ih => exact fun s c => ih _ _ _
  | named k ih => exact fun s c => ih _ _ _
  | setNamed i v k ih =>
    intro s c
    simp only [TProg.run, calmProg, Prog.run]
    cases c.setNamed i v with
    | ok c' => exact ih _ _
    | ub u => rfl
    | diverge => rfl
  | get k ih => exact fun s c => ih _ _ _
  | set w k ih => exact fun s c => ih _ _
  | captured k ih =>
    intro s c
    simp only [TProg.run, calmProg, Prog.run]
    by_cases h : self.id ∈ s.freed
    · have h' : self.id ∈ (rich s).sys.freed := h
      rw [if_pos h, if_pos h']; rfl
    · have h' : self.id ∉ (rich s).sys.freed := h
      rw [if_neg h, if_neg h']; exact ih _ _ _
  | add n fs k ih =>
    intro s c
    simp only [TProg.run, calmProg, Prog.run, add_rich hT]
    cases bindingsAdd T.ops s n fs with
    | ok s' => exact ih _ _ _
    | ub u => rfl
    | diverge => rfl
  | remove n k ih =>
    intro s c
    simp only [TProg.run, calmProg, Prog.run, remove_rich]
    cases bindingsRemove T.ops s n with
    | ok s' => exact ih _ _
    | ub u => rfl
    | diverge => rfl
  | clear k ih => exact fun s c => ih _ _
  | execLine t k ih =>
    intro s c
    simp only [TProg.run, calmProg, Prog.run, hne.1]
    cases b.line s t with
    | ok x => exact ih _ _ _
    | ub u => rfl
    | diverge => rfl
  | execInput i k ih =>
    intro s c
    simp only [TProg.run, calmProg, Prog.run, hne.2]
    cases b.input s i with
    | ok x => exact ih _ _ _
    | ub u => rfl
    | diverge => rfl

theorem convert_rich (args : List Value) (ps : List Param) (i : Nat) (s : Sys S W C D) :
    convertT args ps i (rich s) = (convertArgs args ps i).bind (fun es => .ok (rich s, some es)) := by
  induction ps generalizing i with
  | nil => rfl
  | cons p ps ih =>
    simp only [convertT, convertArgs, rich_there, rich_next, if_true, ih]
    cases readAt args i with
    | ub u => rfl
    | diverge => rfl
    | ok a =>
      simp only [Res.bind_ok]
      cases p.conv.fromString a with
      | ub u => rfl
      | diverge => rfl
      | ok e =>
        simp only [Res.bind_ok]
        cases convertArgs args ps (i + 1) <;> rfl

theorem report_rich (ps : List Param) (es : Expecteds ps) (s : Sys S W C D) (c : CallCtx) :
    reportT ps es (rich s) c = (rich s, reportAll ps es c, false) := by
  induction ps generalizing c with
  | nil => rfl
  | cons p ps ih =>
    obtain ⟨e, rest⟩ := es
    cases e with
    | ok x => exact ih rest c
    | error m => exact ih rest (c.reportError m)

theorem store_rich (d : TDef W C D) (s : Sys S W C D) (c : CallCtx) (e : End d.R) :
    storeT d (rich s) c e = (rich s, storeReturn (calmDef d) c e) := by
  cases e with
  | exn x => rfl
  | ret r =>
    cases hp : d.print with
    | none =>
      simp only [storeT, storeReturn, hp, textOf, calmDef]
      split <;> rfl
    | some f =>
      simp only [storeT, storeReturn, hp, textOf, calmDef, rich_there, if_true, rich_next]
      split <;> rfl

theorem invoke_rich (hT : Calm T) {a : TNested S W C D} {b : Nested S W C D} (hne : RichNested a b) (depth : Nat) (f : Inst C D) (s : Sys S W C D)
    (c : CallCtx) : invokeT P T a depth f (rich s) c =
      (invokeFunctor (fun k => calmDef (P k)) T.ops b depth f s c).bind (fun x => .ok (rich x.1, x.2)) := by
  unfold invokeT invokeFunctor
  rw [rich_sys]
  split
  · rfl
  · show (convertT c.input.arguments (P f.code).params 0 (rich s)).bind _ =
      ((convertArgs c.input.arguments (P f.code).params 0).bind _).bind _
    rw [convert_rich]
    cases convertArgs c.input.arguments (P f.code).params 0 with
    | ub u => rfl
    | diverge => rfl
    | ok es =>
      show (if anyMissing (P f.code).params es then _ else _) = (if anyMissing (P f.code).params es then _ else _ : Res _).bind _
      split
      · rw [report_rich]; rfl
      · show (takeValues (P f.code).params es).bind _ = ((takeValues (P f.code).params es).bind _).bind _
        cases takeValues (P f.code).params es with
        | ub u => rfl
        | diverge => rfl
        | ok xs =>
          show (((P f.code).body xs).run T a f (rich _) c).bind _ = (((calmProg ((P f.code).body xs)).run T.ops b f _ c).bind _).bind _
          rw [run_rich hT hne]
          show ((Prog.run T.ops b f (calmProg ((P f.code).body xs)) { s with calls := s.calls ++ [(depth, f.id)] } c).bind _).bind _ = _
          cases (calmProg ((P f.code).body xs)).run T.ops b f { s with calls := s.calls ++ [(depth, f.id)] } c with
          | ub u => rfl
          | diverge => rfl
          | ok x =>
            obtain ⟨s', c', r⟩ := x
            exact congrArg Res.ok (store_rich (P f.code) s' c' r)

theorem handle_rich (s : Sys S W C D) (c : CallCtx) (e : Option Exn) : handleT catching (rich s) c e = (rich s, handle catching c e) := by
  cases e with
  | none => rfl
  | some x =>
    cases x <;> simp only [handleT, handle] <;> split <;> rfl

theorem select_calm (n : Nat) (fs : List (Inst C D)) : selectLoop (fun k => calmDef (P k)) n fs = selectT P n fs := by
  induction fs with
  | nil => rfl
  | cons f fs ih =>
    simp only [selectLoop, selectT, ih]
    rfl

theorem executeCtx_rich (hT : Calm T) {a : TNested S W C D} {b : Nested S W C D} (hne : RichNested a b) (depth : Nat) (s : Sys S W C D)
    (c : CallCtx) : executeCtxT P T catching a depth (rich s) c =
      (executeCtx (fun k => calmDef (P k)) T.ops catching b depth s c).bind (fun x => .ok (rich x.1, x.2)) := by
  unfold executeCtxT executeCtx
  split
  · rfl
  · rw [rich_sys]
    cases T.ops.find s.reg c.input.name with
    | ub u => rfl
    | diverge => rfl
    | ok o =>
      cases o with
      | none => rfl
      | some cmd =>
        simp only [Res.bind_ok, select_calm]
        cases selectT P c.input.arguments.length cmd.functors with
        | none => rfl
        | some f =>
          simp only [invoke_rich hT hne]
          cases invokeFunctor (fun k => calmDef (P k)) T.ops b depth f s c with
          | ub u => rfl
          | diverge => rfl
          | ok x => exact congrArg Res.ok (handle_rich x.1 x.2.1 x.2.2)

theorem executeInput_rich (hT : Calm T) {a : TNested S W C D} {b : Nested S W C D} (hne : RichNested a b) (depth : Nat) (s : Sys S W C D)
    (i : Input) : executeInputT P T catching a depth (rich s) i =
      (executeInput (fun k => calmDef (P k)) T.ops catching b depth s i).bind (fun x => .ok (rich x.1, x.2)) := by
  unfold executeInputT executeInput
  rw [executeCtx_rich hT hne]
  cases executeCtx (fun k => calmDef (P k)) T.ops catching b depth s ⟨i, ExecResult.empty⟩ with
  | ub u => rfl
  | diverge => rfl
  | ok x =>
    obtain ⟨s', c, e⟩ := x
    cases e <;> rfl

theorem executeLine_rich (hT : Calm T) {a : TNested S W C D} {b : Nested S W C D} (hne : RichNested a b) (depth : Nat) (s : Sys S W C D)
    (t : Bytes) : executeLineT P T catching a depth (rich s) t =
      (executeLine (fun k => calmDef (P k)) T.ops catching b depth s t).bind (fun x => .ok (rich x.1, x.2)) := by
  unfold executeLineT executeLine
  rw [rich_sys]
  cases s.lexer with
  | none => rfl
  | some l =>
    simp only [rich_there, if_true, rich_next]
    cases l t with
    | ub u => rfl
    | diverge => rfl
    | ok o =>
      cases o with
      | error e => rfl
      | ok i => exact executeInput_rich hT hne depth s i

theorem nested_rich (hT : Calm T) (fuel depth : Nat) :
    RichNested (nestedT P T catching fuel depth) (nested (fun k => calmDef (P k)) T.ops catching fuel depth) := by
  induction fuel generalizing depth with
  | zero => exact ⟨fun _ _ => rfl, fun _ _ => rfl⟩
  | succ fuel ih => exact ⟨executeLine_rich hT (ih _) _, executeInput_rich hT (ih _) _⟩

end Oom
end Coil
