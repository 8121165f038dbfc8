import Verif.Spec.Exec
import Verif.Proofs.Conv

/-! # Execution: helper lemmas -/

namespace Coil
open Spec

variable {S W C D R : Type}

/-! ## Running a body -/

/-- The context after some calls. -/
def after (c : CallCtx) (es : List CtxEvent) : CallCtx :=
  ⟨{ c.input with namedArguments := namedAfter c.input.namedArguments es },
    { c.result with errors := c.result.errors ++ errorsOf es, output := c.result.output ++ outputOf es }⟩

theorem after_nil (c : CallCtx) : after c [] = c := by
  simp [after, namedAfter, errorsOf, outputOf]

theorem namedAfter_append (l : List Named) (es es' : List CtxEvent) :
    namedAfter l (es ++ es') = namedAfter (namedAfter l es) es' := by
  induction es generalizing l with
  | nil => rfl
  | cons x es ih => cases x <;> simp [namedAfter, ih]

theorem errorsOf_append (es es' : List CtxEvent) : errorsOf (es ++ es') = errorsOf es ++ errorsOf es' := by
  induction es with
  | nil => rfl
  | cons x es ih => cases x <;> simp [errorsOf, ih]

theorem outputOf_append (es es' : List CtxEvent) : outputOf (es ++ es') = outputOf es ++ outputOf es' := by
  simp [outputOf]

theorem after_append (c : CallCtx) (es es' : List CtxEvent) : after c (es ++ es') = after (after c es) es' := by
  simp [after, namedAfter_append, errorsOf_append, outputOf_append]

theorem namedAfter_length (l : List Named) (es : List CtxEvent) : (namedAfter l es).length = l.length := by
  induction es generalizing l with
  | nil => rfl
  | cons x es ih => cases x <;> simp [namedAfter, ih]

theorem after_log (c : CallCtx) (es : List CtxEvent) (t : Bytes) : (after c es).log t = after c (es ++ [.log t]) := by
  simp [after, CallCtx.log, namedAfter_append, errorsOf_append, outputOf_append, namedAfter, errorsOf]
  simp [outputOf, CtxEvent.text]

theorem after_logline (c : CallCtx) (es : List CtxEvent) (t : Bytes) :
    (after c es).logline t = after c (es ++ [.logline t]) := by
  simp [after, CallCtx.logline, namedAfter_append, errorsOf_append, outputOf_append, namedAfter, errorsOf]
  simp [outputOf, CtxEvent.text]
  rfl

theorem after_reportError (c : CallCtx) (es : List CtxEvent) (t : Bytes) :
    (after c es).reportError t = after c (es ++ [.error t]) := by
  simp [after, CallCtx.reportError, namedAfter_append, errorsOf_append, outputOf_append, namedAfter, errorsOf]
  simp [outputOf, CtxEvent.text]

theorem after_setNamed (c : CallCtx) (es : List CtxEvent) (i : Nat) (v : Named) :
    (after c es).setNamed i v =
      if i < c.input.namedArguments.length then .ok (after c (es ++ [.setNamed i v])) else .ub .oobWrite := by
  simp only [CallCtx.setNamed, after, writeAt, namedAfter_length]
  split
  · simp [namedAfter_append, errorsOf_append, outputOf_append, namedAfter, errorsOf]
    simp [outputOf, CtxEvent.text]
  · rfl

theorem run_iff (ops : RegOps S C D) (ne : Nested S W C D) (self : Inst C D) (c0 : CallCtx) (h0 : c0.result.errors = [])
    (p : Prog W C D R) (past : List CtxEvent) (s s' : Sys S W C D) (c' : CallCtx) (e : End R) :
    p.run ops ne self s (after c0 past) = .ok (s', c', e) ↔
      ∃ es, Runs ops ne self c0.input.namedArguments past p s es e s' ∧ c' = after c0 (past ++ es) := by
  have herr : (after c0 past).hasErrors = decide (errorsOf past ≠ []) := by simp [after, CallCtx.hasErrors, h0]
  induction p generalizing past s with
  | ret r =>
    simp only [Prog.run, Res.ok.injEq, Prod.mk.injEq]
    constructor
    · rintro ⟨rfl, rfl, rfl⟩
      exact ⟨[], .ret, by simp⟩
    · rintro ⟨es, h, rfl⟩
      cases h
      simp
  | throw x =>
    simp only [Prog.run, Res.ok.injEq, Prod.mk.injEq]
    constructor
    · rintro ⟨rfl, rfl, rfl⟩
      exact ⟨[], .throw, by simp⟩
    · rintro ⟨es, h, rfl⟩
      cases h
      simp
  | ub w =>
    constructor
    · intro h
      cases h
    · rintro ⟨es, h, rfl⟩
      cases h
  | diverge =>
    constructor
    · intro h
      cases h
    · rintro ⟨es, h, rfl⟩
      cases h
  | log t k ih =>
    have h1 := ih (past ++ [.log t]) s (by simp [after, CallCtx.hasErrors, h0])
    rw [Prog.run, after_log]
    refine (h1).trans ?_
    constructor
    · rintro ⟨es, h, rfl⟩
      exact ⟨_, .log h, by simp⟩
    · rintro ⟨es, h, rfl⟩
      cases h with
      | log h => exact ⟨_, h, by simp⟩
  | logline t k ih =>
    have h1 := ih (past ++ [.logline t]) s (by simp [after, CallCtx.hasErrors, h0])
    rw [Prog.run, after_logline]
    refine (h1).trans ?_
    constructor
    · rintro ⟨es, h, rfl⟩
      exact ⟨_, .logline h, by simp⟩
    · rintro ⟨es, h, rfl⟩
      cases h with
      | logline h => exact ⟨_, h, by simp⟩
  | reportError t k ih =>
    have h1 := ih (past ++ [.error t]) s (by simp [after, CallCtx.hasErrors, h0])
    rw [Prog.run, after_reportError]
    refine (h1).trans ?_
    constructor
    · rintro ⟨es, h, rfl⟩
      exact ⟨_, .reportError h, by simp⟩
    · rintro ⟨es, h, rfl⟩
      cases h with
      | reportError h => exact ⟨_, h, by simp⟩
  | hasErrors k ih =>
    rw [Prog.run, herr]
    refine (ih _ past s herr).trans ?_
    constructor
    · rintro ⟨es, h, rfl⟩
      exact ⟨_, .hasErrors h, rfl⟩
    · rintro ⟨es, h, rfl⟩
      cases h with
      | hasErrors h => exact ⟨_, h, rfl⟩
  | named k ih =>
    rw [Prog.run]
    refine (ih _ past s herr).trans ?_
    constructor
    · rintro ⟨es, h, rfl⟩
      exact ⟨_, .named h, rfl⟩
    · rintro ⟨es, h, rfl⟩
      cases h with
      | named h => exact ⟨_, h, rfl⟩
  | setNamed i v k ih =>
    rw [Prog.run, after_setNamed]
    split
    · rename_i hi
      have h1 := ih (past ++ [.setNamed i v]) s (by simp [after, CallCtx.hasErrors, h0])
      rw [Res.bind_ok]
      refine (h1).trans ?_
      constructor
      · rintro ⟨es, h, rfl⟩
        exact ⟨_, .setNamed hi h, by simp⟩
      · rintro ⟨es, h, rfl⟩
        cases h with
        | setNamed _ h => exact ⟨_, h, by simp⟩
    · rename_i hi
      constructor
      · intro h
        cases h
      · rintro ⟨es, h, rfl⟩
        cases h with
        | setNamed hi' _ => exact absurd hi' hi
  | get k ih =>
    rw [Prog.run]
    refine (ih _ past s herr).trans ?_
    constructor
    · rintro ⟨es, h, rfl⟩
      exact ⟨_, .get h, rfl⟩
    · rintro ⟨es, h, rfl⟩
      cases h with
      | get h => exact ⟨_, h, rfl⟩
  | set w k ih =>
    rw [Prog.run]
    refine (ih past _ herr).trans ?_
    constructor
    · rintro ⟨es, h, rfl⟩
      exact ⟨_, .set h, rfl⟩
    · rintro ⟨es, h, rfl⟩
      cases h with
      | set h => exact ⟨_, h, rfl⟩
  | captured k ih =>
    rw [Prog.run]
    split
    · rename_i hf
      constructor
      · intro h
        cases h
      · rintro ⟨es, h, rfl⟩
        cases h with
        | captured hf' _ => exact absurd hf hf'
    · rename_i hf
      refine (ih _ past s herr).trans ?_
      constructor
      · rintro ⟨es, h, rfl⟩
        exact ⟨_, .captured hf h, rfl⟩
      · rintro ⟨es, h, rfl⟩
        cases h with
        | captured _ h => exact ⟨_, h, rfl⟩
  | add n fs k ih =>
    rw [Prog.run, Res.bind_eq_ok]
    constructor
    · rintro ⟨s1, h1, h2⟩
      obtain ⟨es, h, rfl⟩ := (ih past s1 herr).1 h2
      exact ⟨_, .add h1 h, rfl⟩
    · rintro ⟨es, h, rfl⟩
      cases h with
      | add h1 h => exact ⟨_, h1, (ih past _ herr).2 ⟨_, h, rfl⟩⟩
  | remove n k ih =>
    rw [Prog.run, Res.bind_eq_ok]
    constructor
    · rintro ⟨s1, h1, h2⟩
      obtain ⟨es, h, rfl⟩ := (ih past s1 herr).1 h2
      exact ⟨_, .remove h1 h, rfl⟩
    · rintro ⟨es, h, rfl⟩
      cases h with
      | remove h1 h => exact ⟨_, h1, (ih past _ herr).2 ⟨_, h, rfl⟩⟩
  | clear k ih =>
    rw [Prog.run]
    refine (ih past _ herr).trans ?_
    constructor
    · rintro ⟨es, h, rfl⟩
      exact ⟨_, .clear h, rfl⟩
    · rintro ⟨es, h, rfl⟩
      cases h with
      | clear h => exact ⟨_, h, rfl⟩
  | execLine t k ih =>
    rw [Prog.run, Res.bind_eq_ok]
    constructor
    · rintro ⟨⟨s1, o⟩, h1, h2⟩
      obtain ⟨es, h, rfl⟩ := (ih o past s1 herr).1 h2
      exact ⟨_, .execLine h1 h, rfl⟩
    · rintro ⟨es, h, rfl⟩
      cases h with
      | execLine h1 h => exact ⟨_, h1, (ih _ past _ herr).2 ⟨_, h, rfl⟩⟩
  | execInput i k ih =>
    rw [Prog.run, Res.bind_eq_ok]
    constructor
    · rintro ⟨⟨s1, o⟩, h1, h2⟩
      obtain ⟨es, h, rfl⟩ := (ih o past s1 herr).1 h2
      exact ⟨_, .execInput h1 h, rfl⟩
    · rintro ⟨es, h, rfl⟩
      cases h with
      | execInput h1 h => exact ⟨_, h1, (ih _ past _ herr).2 ⟨_, h, rfl⟩⟩

/-- A body started in a new context. -/
theorem run_new (ops : RegOps S C D) (ne : Nested S W C D) (self : Inst C D) (input : Input)
    (p : Prog W C D R) (s s' : Sys S W C D) (c' : CallCtx) (e : End R) :
    p.run ops ne self s ⟨input, ExecResult.empty⟩ = .ok (s', c', e) ↔
      ∃ es, Runs ops ne self input.namedArguments [] p s es e s' ∧ c' = after ⟨input, ExecResult.empty⟩ es := by
  have h := run_iff ops ne self ⟨input, ExecResult.empty⟩ rfl p [] s s' c' e
  rw [after_nil] at h
  exact h

/-- The effects of a user function are determined. -/
theorem Runs.det {ops : RegOps S C D} {ne : Nested S W C D} {self : Inst C D} {l : List Named} {past : List CtxEvent}
    {p : Prog W C D R} {s s1 s2 : Sys S W C D} {es1 es2 : List CtxEvent} {e1 e2 : End R}
    (h1 : Runs ops ne self l past p s es1 e1 s1) (h2 : Runs ops ne self l past p s es2 e2 s2) :
    es1 = es2 ∧ e1 = e2 ∧ s1 = s2 := by
  induction h1 generalizing es2 with
  | ret => cases h2; exact ⟨rfl, rfl, rfl⟩
  | throw => cases h2; exact ⟨rfl, rfl, rfl⟩
  | log _ ih => cases h2 with | log h => obtain ⟨a, b, c⟩ := ih h; exact ⟨by rw [a], b, c⟩
  | logline _ ih => cases h2 with | logline h => obtain ⟨a, b, c⟩ := ih h; exact ⟨by rw [a], b, c⟩
  | reportError _ ih => cases h2 with | reportError h => obtain ⟨a, b, c⟩ := ih h; exact ⟨by rw [a], b, c⟩
  | hasErrors _ ih => cases h2 with | hasErrors h => exact ih h
  | named _ ih => cases h2 with | named h => exact ih h
  | setNamed _ _ ih => cases h2 with | setNamed _ h => obtain ⟨a, b, c⟩ := ih h; exact ⟨by rw [a], b, c⟩
  | get _ ih => cases h2 with | get h => exact ih h
  | set _ ih => cases h2 with | set h => exact ih h
  | captured _ _ ih => cases h2 with | captured _ h => exact ih h
  | add h0 _ ih => cases h2 with | add h0' h => rw [h0] at h0'; cases h0'; exact ih h
  | remove h0 _ ih => cases h2 with | remove h0' h => rw [h0] at h0'; cases h0'; exact ih h
  | clear _ ih => cases h2 with | clear h => exact ih h
  | execLine h0 _ ih => cases h2 with | execLine h0' h => rw [h0] at h0'; cases h0'; exact ih h
  | execInput h0 _ ih => cases h2 with | execInput h0' h => rw [h0] at h0'; cases h0'; exact ih h

theorem namedAfter_no_set {l : List Named} {es : List CtxEvent} (h : ∀ i v, CtxEvent.setNamed i v ∉ es) :
    namedAfter l es = l := by
  induction es with
  | nil => rfl
  | cons e es ih =>
    have ih := ih (fun i v hm => h i v (List.mem_cons_of_mem _ hm))
    cases e with
    | setNamed i v => exact absurd (List.mem_cons_self ..) (h i v)
    | log t => exact ih
    | logline t => exact ih
    | error t => exact ih

/-! ## Converting arguments -/

theorem conversionsDefined_length {ps : List Param} {as : List Value} (h : ConversionsDefined ps as) :
    ps.length = as.length := by
  induction ps generalizing as with
  | nil => cases as <;> simp_all [ConversionsDefined]
  | cons p ps ih =>
    cases as with
    | nil => simp [ConversionsDefined] at h
    | cons a as => simp [ih h.2]

theorem convertTo_defined {ps : List Param} {as : List Value} {xs : Args ps} (h : ConvertTo ps as xs) :
    ConversionsDefined ps as ∧ conversionErrors ps as = [] := by
  induction ps generalizing as with
  | nil => cases as <;> simp_all [ConvertTo, ConversionsDefined, conversionErrors]
  | cons p ps ih =>
    cases as with
    | nil => simp [ConvertTo] at h
    | cons a as =>
      obtain ⟨x, xs⟩ := xs
      obtain ⟨h1, h2⟩ := h
      obtain ⟨g1, g2⟩ := ih h2
      exact ⟨⟨⟨_, h1⟩, g1⟩, by simp [conversionErrors, h1, g2]⟩

/-- What `convertArgs` and its consumers give. -/
theorem convert_spec (ps : List Param) (as : List Value) (hd : ConversionsDefined ps as) (i : Nat) (all : List Value)
    (hall : all.drop i = as) :
    ∃ es, convertArgs all ps i = .ok es ∧ (anyMissing ps es = true ↔ conversionErrors ps as ≠ []) ∧
      (∀ c : CallCtx, reportAll ps es c =
        { c with result := { c.result with errors := c.result.errors ++ conversionErrors ps as } }) ∧
      (∀ xs, ConvertTo ps as xs → takeValues ps es = .ok xs) ∧
      (conversionErrors ps as = [] → ∃ xs, ConvertTo ps as xs) := by
  induction ps generalizing as i with
  | nil =>
    cases as with
    | nil =>
      refine ⟨(), rfl, by simp [anyMissing, conversionErrors], ?_, ?_, fun _ => ⟨(), trivial⟩⟩
      · intro c
        simp [reportAll, conversionErrors]
      · intro xs _
        rfl
    | cons a as => exact absurd hd id
  | cons p ps ih =>
    cases as with
    | nil => exact absurd hd id
    | cons a as =>
      obtain ⟨⟨r, hr⟩, hd⟩ := hd
      have hi : all[i]? = some a := by
        have := congrArg (·[0]?) hall
        simpa using this
      have hdrop : all.drop (i + 1) = as := by
        have := congrArg List.tail hall
        simpa using this
      obtain ⟨es, h1, h2, h3, h4, h5⟩ := ih as hd (i + 1) hdrop
      refine ⟨(r, es), by simp only [convertArgs, readAt, hi, Res.bind_ok, hr, h1], ?_, ?_, ?_, ?_⟩
      · cases r with
        | error m => simp [anyMissing, conversionErrors, hr]
        | ok x => simpa [anyMissing, conversionErrors, hr] using h2
      · intro c
        cases r with
        | error m => simp [reportAll, conversionErrors, hr, h3, CallCtx.reportError]
        | ok x => simp [reportAll, conversionErrors, hr, h3]
      · rintro ⟨x, xs⟩ ⟨g1, g2⟩
        rw [hr] at g1
        simp only [Res.ok.injEq] at g1
        subst g1
        simp only [takeValues, h4 xs g2, Res.bind_ok]
      · intro hne
        cases r with
        | error m => simp [conversionErrors, hr] at hne
        | ok x =>
          simp only [conversionErrors, hr] at hne
          obtain ⟨xs, g⟩ := h5 hne
          exact ⟨(x, xs), hr, g⟩

/-- Conversions that do not go through make the whole call undefined. -/
theorem convert_ok (ps : List Param) (all as : List Value) (i : Nat) (hall : all.drop i = as) (hl : ps.length = as.length)
    {es : Expecteds ps} (h : convertArgs all ps i = .ok es) : ConversionsDefined ps as := by
  induction ps generalizing as i with
  | nil =>
    cases as with
    | nil => trivial
    | cons a as => simp at hl
  | cons p ps ih =>
    cases as with
    | nil => simp at hl
    | cons a as =>
      have hi : all[i]? = some a := by
        have := congrArg (·[0]?) hall
        simpa using this
      have hdrop : all.drop (i + 1) = as := by
        have := congrArg List.tail hall
        simpa using this
      simp only [convertArgs, readAt, hi, Res.bind_ok, Res.bind_eq_ok] at h
      obtain ⟨r, h1, rest, h2, _⟩ := h
      exact ⟨⟨r, h1⟩, ih as (i + 1) hdrop (by simpa using hl) h2⟩

/-! ## Choosing an overload -/

theorem selectLoop_some {P : C → FunctorDef W C D} {n : Nat} {fs : List (Inst C D)} {f : Inst C D} :
    selectLoop P n fs = some f ↔ FirstOfArity P n fs f := by
  induction fs with
  | nil =>
    constructor
    · intro h; cases h
    · rintro ⟨pre, post, h, _⟩
      simp at h
  | cons g fs ih =>
    rw [selectLoop]
    split
    · rename_i hg
      constructor
      · intro h
        cases h
        exact ⟨[], fs, rfl, hg, by simp⟩
      · rintro ⟨pre, post, h, h1, h2⟩
        cases pre with
        | nil => simp at h; rw [h.1]
        | cons x pre =>
          simp at h
          exact absurd hg (by rw [h.1]; exact h2 x (by simp))
    · rename_i hg
      rw [ih]
      constructor
      · rintro ⟨pre, post, h, h1, h2⟩
        refine ⟨g :: pre, post, by simp [h], h1, ?_⟩
        intro y hy
        rcases List.mem_cons.1 hy with rfl | hy
        · exact hg
        · exact h2 y hy
      · rintro ⟨pre, post, h, h1, h2⟩
        cases pre with
        | nil => simp at h; exact absurd h1 (by rw [← h.1]; exact hg)
        | cons x pre =>
          simp at h
          exact ⟨pre, post, h.2, h1, fun y hy => h2 y (by simp [hy])⟩

theorem selectLoop_none {P : C → FunctorDef W C D} {n : Nat} {fs : List (Inst C D)} :
    selectLoop P n fs = none ↔ ∀ g ∈ fs, (P g.code).params.length ≠ n := by
  induction fs with
  | nil => simp [selectLoop]
  | cons g fs ih =>
    rw [selectLoop]
    split
    · rename_i hg
      simp only [reduceCtorEq, false_iff]
      intro h
      exact h g (by simp) hg
    · rename_i hg
      rw [ih]
      simp only [List.mem_cons, forall_eq_or_imp]
      exact ⟨fun h => ⟨hg, h⟩, fun h => h.2⟩

theorem countsLoop_spec (total : Nat) (l : List Nat) (i : Nat) (acc : Bytes) (hi : 0 < i) (ht : i + l.length = total) :
    countsLoop total l i acc = acc ++
      (match l with
        | [] => []
        | [a] => lit " or " ++ natDec a
        | l => lit ", " ++ countsInWords l) := by
  induction l generalizing i acc with
  | nil => simp [countsLoop]
  | cons a l ih =>
    rw [countsLoop, ih (i + 1) _ (by omega) (by simp at ht; omega)]
    cases l with
    | nil =>
      simp at ht
      have : i = total - 1 := by omega
      simp [← this, hi]
    | cons b l =>
      have h1 : i ≠ total - 1 := by simp at ht; omega
      cases l with
      | nil => simp [h1, hi, countsInWords]
      | cons c l => simp [h1, hi, countsInWords]

theorem counts_spec (l : List Nat) : countsLoop l.length l 0 [] = countsInWords l := by
  cases l with
  | nil => rfl
  | cons a l =>
    rw [countsLoop, countsLoop_spec _ l 1 _ (by omega) (by simp; omega)]
    cases l with
    | nil => simp [countsInWords]
    | cons b l =>
      cases l with
      | nil => simp [countsInWords]
      | cons c l => simp [countsInWords]

theorem countsInWords_nulFree (l : List Nat) : NulFree (countsInWords l) := by
  induction l with
  | nil => simp [countsInWords, NulFree]
  | cons a l ih =>
    cases l with
    | nil => simpa [countsInWords] using natDec_nulFree a
    | cons b l =>
      cases l with
      | nil =>
        rw [countsInWords, nulFree_append, nulFree_append]
        exact ⟨⟨natDec_nulFree a, by unfold NulFree; decide⟩, natDec_nulFree b⟩
      | cons c l =>
        rw [countsInWords, nulFree_append, nulFree_append]
        · exact ⟨⟨natDec_nulFree a, by unfold NulFree; decide⟩, ih⟩
        all_goals simp

/-! ## Executing -/

/-- The error for an exception, as printed with `%s`. -/
def caughtText : Exn → Bytes
  | .std what => lit "Exception caught during execution: " ++ cstr what
  | .other => lit "Exception caught during execution"

/-- What `execute` gives after a user function has made the calls `es` and ended. -/
def endResult (catching : Bool) (input : Input) (print : Option (R → Bytes)) (es : List CtxEvent) : End R → ExecOut
  | .ret r => .ok ⟨{ input with namedArguments := namedAfter input.namedArguments es }, errorsOf es,
      if errorsOf es = [] then print.map (fun f => f r) else none, outputOf es⟩
  | .exn x =>
    if catching then .ok ⟨{ input with namedArguments := namedAfter input.namedArguments es },
      errorsOf es ++ [caughtText x], none, outputOf es⟩
    else .error x

section Execute

variable {P : C → FunctorDef W C D} {ops : RegOps S C D} {catching : Bool} {ne : Nested S W C D} {depth : Nat}
  {s s' : Sys S W C D} {input : Input} {out : ExecOut}

theorem executeInput_empty (h : input.name = []) :
    executeInput P ops catching ne depth s input =
      .ok (s, .ok ⟨input, [lit "No function name is specified"], none, []⟩) := by
  simp [executeInput, executeCtx, h, CallCtx.reportError, ExecResult.empty]

theorem executeInput_unknown (h : input.name ≠ []) (hf : ops.find s.reg input.name = .ok none) :
    executeInput P ops catching ne depth s input =
      .ok (s, .ok ⟨input, [lit "No function '" ++ cstr input.name ++ lit "' is registered"], none, []⟩) := by
  simp [executeInput, executeCtx, h, hf, CallCtx.reportError, ExecResult.empty]

theorem executeInput_count {cmd : Command C D} (h : input.name ≠ []) (hf : ops.find s.reg input.name = .ok (some cmd))
    (hn : ∀ g ∈ cmd.functors, (P g.code).params.length ≠ input.arguments.length) :
    executeInput P ops catching ne depth s input =
      .ok (s, .ok ⟨input, [countError P input.name cmd.functors input.arguments.length], none, []⟩) := by
  simp [executeInput, executeCtx, h, hf, selectLoop_none.2 hn, CallCtx.reportError, ExecResult.empty]

theorem countError_eq (fs : List (Inst C D)) {name : Bytes} (hn : NulFree name) (n : Nat) :
    countError P name fs n = lit "Wrong number of arguments to '" ++ name ++ lit "': expected " ++
      countsInWords (fs.map (fun f => (P f.code).params.length)) ++ lit ", got " ++ natDec n := by
  have h : (fs.map (arity P)).length = (fs.map (fun f => (P f.code).params.length)).length := by simp
  have h' : fs.map (arity P) = fs.map (fun f => (P f.code).params.length) := rfl
  simp only [countError, h', counts_spec, cstr_of_nulFree hn, cstr_of_nulFree (countsInWords_nulFree _)]

theorem cstr_cut {s pre : Bytes} (h : NulFree pre) (hc : s = pre ∨ ∃ rest, s = pre ++ 0 :: rest) : cstr s = pre := by
  rcases hc with rfl | ⟨rest, rfl⟩
  · exact cstr_of_nulFree h
  · induction pre with
    | nil => simp [cstr]
    | cons a pre ih =>
      have h1 : a ≠ 0 := fun e => h (by simp [e])
      have h2 : NulFree pre := fun e => h (by simp [e])
      have := ih h2
      simp only [cstr, List.cons_append] at this ⊢
      rw [List.takeWhile_cons_of_pos (by simpa using h1), this]

theorem countError_cut (fs : List (Inst C D)) {name pre : Bytes} (hp : NulFree pre)
    (hc : name = pre ∨ ∃ rest, name = pre ++ 0 :: rest) (n : Nat) :
    countError P name fs n = lit "Wrong number of arguments to '" ++ pre ++ lit "': expected " ++
      countsInWords (fs.map (fun f => (P f.code).params.length)) ++ lit ", got " ++ natDec n := by
  have h' : fs.map (arity P) = fs.map (fun f => (P f.code).params.length) := rfl
  simp only [countError, h', counts_spec, cstr_cut hp hc, cstr_of_nulFree (countsInWords_nulFree _)]

theorem executeInput_selected {cmd : Command C D} {f : Inst C D} (h : input.name ≠ [])
    (hf : ops.find s.reg input.name = .ok (some cmd))
    (hs : FirstOfArity P input.arguments.length cmd.functors f) :
    executeInput P ops catching ne depth s input =
      (invokeFunctor P ops ne depth f s ⟨input, ExecResult.empty⟩ >>= fun x =>
        match (handle catching x.2.1 x.2.2).2 with
        | some e => .ok (x.1, .error e)
        | none => .ok (x.1, .ok { (handle catching x.2.1 x.2.2).1.result with
            input := (handle catching x.2.1 x.2.2).1.input })) := by
  simp only [executeInput, executeCtx, h, hf, selectLoop_some.2 hs, if_false, Res.bind_ok]
  cases hi : invokeFunctor P ops ne depth f s ⟨input, ExecResult.empty⟩ with
  | ok x => rfl
  | ub w => rfl
  | diverge => rfl

theorem invoke_rejected {f : Inst C D} {c : CallCtx} (hl : f.id ∉ s.freed)
    (hd : ConversionsDefined (P f.code).params c.input.arguments)
    (he : conversionErrors (P f.code).params c.input.arguments ≠ []) :
    invokeFunctor P ops ne depth f s c = .ok (s, { c with result := { c.result with
      errors := c.result.errors ++ conversionErrors (P f.code).params c.input.arguments } }, none) := by
  obtain ⟨es, h1, h2, h3, _, _⟩ := convert_spec _ _ hd 0 c.input.arguments (by simp)
  simp only [invokeFunctor, if_neg hl, h1, Res.bind_ok, h2.2 he, if_true, h3]

theorem invoke_accepted {f : Inst C D} {c : CallCtx} (hl : f.id ∉ s.freed) {xs : Args (P f.code).params}
    (hx : ConvertTo (P f.code).params c.input.arguments xs) :
    invokeFunctor P ops ne depth f s c =
      (((P f.code).body xs).run ops ne f { s with calls := s.calls ++ [(depth, f.id)] } c >>= fun x =>
        .ok (x.1, (storeReturn (P f.code) x.2.1 x.2.2).1, (storeReturn (P f.code) x.2.1 x.2.2).2)) := by
  obtain ⟨hd, he⟩ := convertTo_defined hx
  obtain ⟨es, h1, h2, _, h4, _⟩ := convert_spec _ _ hd 0 c.input.arguments (by simp)
  have hm : anyMissing (P f.code).params es = false := by
    cases hm : anyMissing (P f.code).params es with
    | false => rfl
    | true => exact absurd he (h2.1 hm)
  simp only [invokeFunctor, if_neg hl, h1, Res.bind_ok, hm, h4 xs hx]
  rfl

/-- An invocation that gives a result had a live function object and defined conversions. -/
theorem invoke_ok {f : Inst C D} {c : CallCtx} {x : Sys S W C D × CallCtx × Option Exn}
    (hl : (P f.code).params.length = c.input.arguments.length) (h : invokeFunctor P ops ne depth f s c = .ok x) :
    f.id ∉ s.freed ∧ ConversionsDefined (P f.code).params c.input.arguments := by
  by_cases hf : f.id ∈ s.freed
  · simp [invokeFunctor, hf] at h
  · refine ⟨hf, ?_⟩
    simp only [invokeFunctor, if_neg hf, Res.bind_eq_ok] at h
    obtain ⟨es, h1, _⟩ := h
    exact convert_ok _ _ _ 0 (by simp) hl h1

theorem executeInput_rejected {cmd : Command C D} {f : Inst C D} (h : input.name ≠ [])
    (hf : ops.find s.reg input.name = .ok (some cmd))
    (hs : FirstOfArity P input.arguments.length cmd.functors f) (hl : f.id ∉ s.freed)
    (hd : ConversionsDefined (P f.code).params input.arguments)
    (he : conversionErrors (P f.code).params input.arguments ≠ []) :
    executeInput P ops catching ne depth s input =
      .ok (s, .ok ⟨input, conversionErrors (P f.code).params input.arguments, none, []⟩) := by
  rw [executeInput_selected h hf hs, invoke_rejected hl hd he]
  simp [handle, ExecResult.empty]

theorem handle_end {d : FunctorDef W C D} (es : List CtxEvent) (e : End d.R) (s' : Sys S W C D) :
    (match (handle catching (storeReturn d (after ⟨input, ExecResult.empty⟩ es) e).1
          (storeReturn d (after ⟨input, ExecResult.empty⟩ es) e).2).2 with
      | some x => Res.ok (s', Except.error x)
      | none => .ok (s', .ok { (handle catching (storeReturn d (after ⟨input, ExecResult.empty⟩ es) e).1
            (storeReturn d (after ⟨input, ExecResult.empty⟩ es) e).2).1.result with
          input := (handle catching (storeReturn d (after ⟨input, ExecResult.empty⟩ es) e).1
            (storeReturn d (after ⟨input, ExecResult.empty⟩ es) e).2).1.input })) =
      .ok (s', endResult catching input d.print es e) := by
  cases e with
  | ret r =>
    by_cases he : errorsOf es = []
    · cases hp : d.print <;>
        simp [storeReturn, handle, endResult, after, CallCtx.hasErrors, ExecResult.empty, he, textOf, hp]
    · simp [storeReturn, handle, endResult, after, CallCtx.hasErrors, ExecResult.empty, he]
  | exn x =>
    cases x <;> cases catching <;>
      simp [storeReturn, handle, endResult, after, ExecResult.empty, caughtText, CallCtx.reportError]

/-- A call that takes place. -/
theorem executeInput_called {cmd : Command C D} {f : Inst C D} (h : input.name ≠ [])
    (hf : ops.find s.reg input.name = .ok (some cmd))
    (hs : FirstOfArity P input.arguments.length cmd.functors f) (hl : f.id ∉ s.freed)
    {xs : Args (P f.code).params} (hx : ConvertTo (P f.code).params input.arguments xs) :
    executeInput P ops catching ne depth s input = .ok (s', out) ↔
      ∃ es e, Runs ops ne f input.namedArguments [] ((P f.code).body xs)
          { s with calls := s.calls ++ [(depth, f.id)] } es e s' ∧
        out = endResult catching input (P f.code).print es e := by
  rw [executeInput_selected h hf hs, invoke_accepted hl hx, Res.bind_eq_ok]
  constructor
  · rintro ⟨x, h1, h2⟩
    obtain ⟨⟨s1, c1, e⟩, h3, h4⟩ := Res.bind_eq_ok.1 h1
    obtain ⟨es, h5, rfl⟩ := (run_new ..).1 h3
    simp only [Res.ok.injEq] at h4
    subst h4
    have h6 := handle_end (catching := catching) (input := input) (d := P f.code) es e s1
    rw [h6] at h2
    simp only [Res.ok.injEq, Prod.mk.injEq] at h2
    obtain ⟨rfl, rfl⟩ := h2
    exact ⟨es, e, h5, rfl⟩
  · rintro ⟨es, e, h1, rfl⟩
    refine ⟨(s', (storeReturn (P f.code) (after ⟨input, ExecResult.empty⟩ es) e).1,
      (storeReturn (P f.code) (after ⟨input, ExecResult.empty⟩ es) e).2), ?_, ?_⟩
    · rw [(run_new ..).2 ⟨es, h1, rfl⟩]
      rfl
    · exact handle_end es e s'

/-- All the ways in which executing a command can give a result. -/
theorem executeInput_cases (h : executeInput P ops catching ne depth s input = .ok (s', out)) :
    (input.name = [] ∧ s' = s ∧ out = .ok ⟨input, [lit "No function name is specified"], none, []⟩) ∨
    (input.name ≠ [] ∧ ops.find s.reg input.name = .ok none ∧ s' = s ∧
      out = .ok ⟨input, [lit "No function '" ++ cstr input.name ++ lit "' is registered"], none, []⟩) ∨
    (input.name ≠ [] ∧ ∃ cmd, ops.find s.reg input.name = .ok (some cmd) ∧
      (∀ g ∈ cmd.functors, (P g.code).params.length ≠ input.arguments.length) ∧ s' = s ∧
      out = .ok ⟨input, [countError P input.name cmd.functors input.arguments.length], none, []⟩) ∨
    (input.name ≠ [] ∧ ∃ cmd f, ops.find s.reg input.name = .ok (some cmd) ∧
      FirstOfArity P input.arguments.length cmd.functors f ∧ f.id ∉ s.freed ∧
      ConversionsDefined (P f.code).params input.arguments ∧
      conversionErrors (P f.code).params input.arguments ≠ [] ∧ s' = s ∧
      out = .ok ⟨input, conversionErrors (P f.code).params input.arguments, none, []⟩) ∨
    (input.name ≠ [] ∧ ∃ cmd f xs es e, ops.find s.reg input.name = .ok (some cmd) ∧
      FirstOfArity P input.arguments.length cmd.functors f ∧ f.id ∉ s.freed ∧
      ConvertTo (P f.code).params input.arguments xs ∧
      Runs ops ne f input.namedArguments [] ((P f.code).body xs)
          { s with calls := s.calls ++ [(depth, f.id)] } es e s' ∧
      out = endResult catching input (P f.code).print es e) := by
  by_cases hn : input.name = []
  · rw [executeInput_empty hn] at h
    simp only [Res.ok.injEq, Prod.mk.injEq] at h
    exact .inl ⟨hn, h.1.symm, h.2.symm⟩
  refine .inr ?_
  cases hf : ops.find s.reg input.name with
  | ub w => simp [executeInput, executeCtx, hn, hf] at h
  | diverge => simp [executeInput, executeCtx, hn, hf] at h
  | ok o =>
    cases o with
    | none =>
      rw [executeInput_unknown hn hf] at h
      simp only [Res.ok.injEq, Prod.mk.injEq] at h
      exact .inl ⟨hn, rfl, h.1.symm, h.2.symm⟩
    | some cmd =>
      refine .inr ?_
      cases hs : selectLoop P input.arguments.length cmd.functors with
      | none =>
        have hs := selectLoop_none.1 hs
        rw [executeInput_count hn hf hs] at h
        simp only [Res.ok.injEq, Prod.mk.injEq] at h
        exact .inl ⟨hn, cmd, rfl, hs, h.1.symm, h.2.symm⟩
      | some f =>
        refine .inr ?_
        have hs := selectLoop_some.1 hs
        have h0 := h
        rw [executeInput_selected hn hf hs] at h
        obtain ⟨x, h1, _⟩ := Res.bind_eq_ok.1 h
        obtain ⟨hl, hd⟩ := invoke_ok (by obtain ⟨_, _, _, h, _⟩ := hs; exact h) h1
        by_cases he : conversionErrors (P f.code).params input.arguments = []
        · obtain ⟨_, _, _, _, _, h5⟩ := convert_spec _ _ hd 0 input.arguments (by simp)
          obtain ⟨xs, hx⟩ := h5 he
          obtain ⟨es, e, h6, h7⟩ := (executeInput_called hn hf hs hl hx).1 h0
          exact .inr ⟨hn, cmd, f, xs, es, e, rfl, hs, hl, hx, h6, h7⟩
        · rw [executeInput_rejected hn hf hs hl hd he] at h0
          simp only [Res.ok.injEq, Prod.mk.injEq] at h0
          exact .inl ⟨hn, cmd, f, rfl, hs, hl, hd, he, h0.1.symm, h0.2.symm⟩

/-- All the ways in which executing a command line can give a result. -/
theorem executeLine_cases {t : Bytes} (h : executeLine P ops catching ne depth s t = .ok (s', out)) :
    ∃ l, s.lexer = some l ∧
      ((∃ m, l t = .ok (.error m) ∧ s' = s ∧
          out = .ok ⟨Input.empty, [lit "Syntax error: " ++ m], none, []⟩) ∨
        ∃ i, l t = .ok (.ok i) ∧ executeInput P ops catching ne depth s i = .ok (s', out)) := by
  unfold executeLine at h
  split at h
  · cases h
  · rename_i l hl
    refine ⟨l, hl, ?_⟩
    obtain ⟨r, h1, h2⟩ := Res.bind_eq_ok.1 h
    cases r with
    | error m =>
      simp only [Res.ok.injEq, Prod.mk.injEq] at h2
      exact .inl ⟨m, h1, h2.1.symm, h2.2.symm⟩
    | ok i => exact .inr ⟨i, h1, h2⟩

end Execute

section Nested

variable {P : C → FunctorDef W C D} {ops : RegOps S C D} {catching : Bool} {fuel depth : Nat}
  {s s' : Sys S W C D} {input : Input} {out : ExecOut} {req : Request}

theorem exec_means (h : Means s.lexer req input) :
    (nested P ops catching (fuel + 1) depth).exec s req =
      executeInput P ops catching (nested P ops catching fuel (depth + 1)) depth s input := by
  cases req with
  | line t =>
    obtain ⟨l, h1, h2⟩ := h
    simp only [Nested.exec, nested, executeLine, h1, h2, Res.bind_ok]
  | input i =>
    cases h
    rfl

/-- A result means that there was a level left, and that the request was rejected by the lexer or stands for a command. -/
theorem exec_ok (h : (nested P ops catching fuel depth).exec s req = .ok (s', out)) :
    ∃ fuel', fuel = fuel' + 1 ∧
      ((∃ t l m, req = .line t ∧ s.lexer = some l ∧ l t = .ok (.error m) ∧ s' = s ∧
          out = .ok ⟨Input.empty, [lit "Syntax error: " ++ m], none, []⟩) ∨
        ∃ i, Means s.lexer req i ∧
          executeInput P ops catching (nested P ops catching fuel' (depth + 1)) depth s i = .ok (s', out)) := by
  cases fuel with
  | zero => cases req <;> simp [nested, Nested.exec] at h
  | succ fuel =>
    refine ⟨fuel, rfl, ?_⟩
    cases req with
    | line t =>
      obtain ⟨l, h1, h2⟩ := executeLine_cases h
      rcases h2 with ⟨m, h2, h3⟩ | ⟨i, h2, h3⟩
      · exact .inl ⟨t, l, m, rfl, h1, h2, h3⟩
      · exact .inr ⟨i, ⟨l, h1, h2⟩, h3⟩
    | input i => exact .inr ⟨i, rfl, h⟩

/-! ## Calls made -/

/-- Only calls at the given depth or deeper were added. -/
def CallsFrom (depth : Nat) (s s' : Sys S W C D) : Prop :=
  ∃ new, s'.calls = s.calls ++ new ∧ ∀ c ∈ new, depth ≤ c.1

theorem CallsFrom.refl (depth : Nat) (s : Sys S W C D) : CallsFrom depth s s := ⟨[], by simp, by simp⟩

theorem CallsFrom.trans {s1 s2 s3 : Sys S W C D} (h1 : CallsFrom depth s1 s2) (h2 : CallsFrom depth s2 s3) :
    CallsFrom depth s1 s3 := by
  obtain ⟨n1, a1, b1⟩ := h1
  obtain ⟨n2, a2, b2⟩ := h2
  refine ⟨n1 ++ n2, by simp [a2, a1], ?_⟩
  intro c hc
  rcases List.mem_append.1 hc with hc | hc
  · exact b1 c hc
  · exact b2 c hc

theorem CallsFrom.of_eq {s1 s2 s3 : Sys S W C D} (he : s1.calls = s2.calls) (h : CallsFrom depth s2 s3) :
    CallsFrom depth s1 s3 := by
  obtain ⟨n, a, b⟩ := h
  exact ⟨n, by rw [a, he], b⟩

theorem bindingsAdd_calls {n : Bytes} {fs : List (C × D)} (h : bindingsAdd ops s n fs = .ok s') :
    s'.calls = s.calls := by
  simp only [bindingsAdd, Res.bind_eq_ok, Res.ok.injEq] at h
  obtain ⟨_, _, _, _, rfl⟩ := h
  rfl

theorem bindingsRemove_calls {n : Bytes} (h : bindingsRemove ops s n = .ok s') : s'.calls = s.calls := by
  simp only [bindingsRemove, Res.bind_eq_ok, Res.ok.injEq] at h
  obtain ⟨_, _, _, _, rfl⟩ := h
  rfl

theorem runs_calls {ne : Nested S W C D}
    (hne : ∀ s req s' out, ne.exec s req = .ok (s', out) → CallsFrom depth s s')
    {self : Inst C D} {l : List Named} {past es : List CtxEvent} {p : Prog W C D R} {e : End R}
    (h : Runs ops ne self l past p s es e s') : CallsFrom depth s s' := by
  induction h with
  | ret => exact .refl ..
  | throw => exact .refl ..
  | log _ ih => exact ih
  | logline _ ih => exact ih
  | reportError _ ih => exact ih
  | hasErrors _ ih => exact ih
  | named _ ih => exact ih
  | setNamed _ _ ih => exact ih
  | get _ ih => exact ih
  | set _ ih => exact .of_eq rfl ih
  | captured _ _ ih => exact ih
  | add h0 _ ih => exact .of_eq (bindingsAdd_calls h0).symm ih
  | remove h0 _ ih => exact .of_eq (bindingsRemove_calls h0).symm ih
  | clear _ ih => exact .of_eq rfl ih
  | execLine h0 _ ih => exact (hne _ (.line _) _ _ h0).trans ih
  | execInput h0 _ ih => exact (hne _ (.input _) _ _ h0).trans ih

theorem CallsFrom.weaken {d d' : Nat} (hd : d ≤ d') (h : CallsFrom d' s s') : CallsFrom d s s' := by
  obtain ⟨n, a, b⟩ := h
  exact ⟨n, a, fun c hc => Nat.le_trans hd (b c hc)⟩

theorem exec_calls (fuel : Nat) : ∀ (depth : Nat) (s : Sys S W C D) (req : Request) (s' : Sys S W C D) (out : ExecOut),
    (nested P ops catching fuel depth).exec s req = .ok (s', out) → CallsFrom depth s s' := by
  induction fuel with
  | zero =>
    intro depth s req s' out h
    obtain ⟨_, h, _⟩ := exec_ok h
    omega
  | succ fuel ih =>
    intro depth s req s' out h
    obtain ⟨f', hf, h⟩ := exec_ok h
    cases hf
    rcases h with ⟨_, _, _, _, _, _, rfl, _⟩ | ⟨i, _, h⟩
    · exact .refl ..
    · rcases executeInput_cases h with ⟨_, rfl, _⟩ | ⟨_, _, rfl, _⟩ | ⟨_, _, _, _, rfl, _⟩ |
        ⟨_, _, _, _, _, _, _, _, rfl, _⟩ | ⟨_, _, f, _, _, _, _, _, _, _, hr, _⟩
      · exact .refl ..
      · exact .refl ..
      · exact .refl ..
      · exact .refl ..
      · have := runs_calls (ih (depth + 1)) hr
        obtain ⟨n, a, b⟩ := this
        refine ⟨(depth, f.id) :: n, by simp [a], ?_⟩
        intro c hc
        rcases List.mem_cons.1 hc with rfl | hc
        · exact Nat.le_refl _
        · exact Nat.le_trans (Nat.le_succ _) (b c hc)

end Nested

end Coil
