import Verif.Proofs.Exec
import Verif.Spec.Access

/-!
# Lemmas for variables, properties and named arguments
-/

namespace Coil
open Spec

variable {S W C D R R' : Type} {ops : RegOps S C D} {ne : Nested S W C D} {self : Inst C D} {l : List Named}

theorem Spec.Runs.bind_ret {past es1 es2 : List CtxEvent} {p : Prog W C D R} {f : R → Prog W C D R'} {s s1 s2 : Sys S W C D}
    {r : R} {e : End R'} (h1 : Runs ops ne self l past p s es1 (.ret r) s1)
    (h2 : Runs ops ne self l (past ++ es1) (f r) s1 es2 e s2) :
    Runs ops ne self l past (p.bind f) s (es1 ++ es2) e s2 := by
  generalize he : End.ret r = er at h1
  induction h1 with
  | ret => cases he; simpa [Prog.bind] using h2
  | throw => cases he
  | log _ ih => exact .log (ih (by simpa using h2) he)
  | logline _ ih => exact .logline (ih (by simpa using h2) he)
  | reportError _ ih => exact .reportError (ih (by simpa using h2) he)
  | hasErrors _ ih => exact .hasErrors (ih h2 he)
  | named _ ih => exact .named (ih h2 he)
  | setNamed hi _ ih => exact .setNamed hi (ih (by simpa using h2) he)
  | get _ ih => exact .get (ih h2 he)
  | set _ ih => exact .set (ih h2 he)
  | captured hf _ ih => exact .captured hf (ih h2 he)
  | add h0 _ ih => exact .add h0 (ih h2 he)
  | remove h0 _ ih => exact .remove h0 (ih h2 he)
  | clear _ ih => exact .clear (ih h2 he)
  | execLine h0 _ ih => exact .execLine h0 (ih h2 he)
  | execInput h0 _ ih => exact .execInput h0 (ih h2 he)

theorem Spec.Runs.bind_exn {past es : List CtxEvent} {p : Prog W C D R} {f : R → Prog W C D R'} {s s' : Sys S W C D}
    {x : Exn} (h : Runs ops ne self l past p s es (.exn x) s') : Runs ops ne self l past (p.bind f) s es (.exn x) s' := by
  generalize he : End.exn x = er at h
  induction h with
  | ret => cases he
  | throw => cases he; exact .throw
  | log _ ih => exact .log (ih he)
  | logline _ ih => exact .logline (ih he)
  | reportError _ ih => exact .reportError (ih he)
  | hasErrors _ ih => exact .hasErrors (ih he)
  | named _ ih => exact .named (ih he)
  | setNamed hi _ ih => exact .setNamed hi (ih he)
  | get _ ih => exact .get (ih he)
  | set _ ih => exact .set (ih he)
  | captured hf _ ih => exact .captured hf (ih he)
  | add h0 _ ih => exact .add h0 (ih he)
  | remove h0 _ ih => exact .remove h0 (ih he)
  | clear _ ih => exact .clear (ih he)
  | execLine h0 _ ih => exact .execLine h0 (ih he)
  | execInput h0 _ ih => exact .execInput h0 (ih he)

/-- One statement after another: the first throws, or it returns and the second goes on. -/
theorem Spec.Runs.of_bind {past es : List CtxEvent} {p : Prog W C D R} {f : R → Prog W C D R'} {s s' : Sys S W C D}
    {e : End R'} (h : Runs ops ne self l past (p.bind f) s es e s') :
    (∃ x, e = .exn x ∧ Runs ops ne self l past p s es (.exn x) s') ∨
      ∃ r s1 es1 es2, Runs ops ne self l past p s es1 (.ret r) s1 ∧
        Runs ops ne self l (past ++ es1) (f r) s1 es2 e s' ∧ es = es1 ++ es2 := by
  induction p generalizing past s es with
  | ret r => exact .inr ⟨r, s, [], es, .ret, by simpa [Prog.bind] using h, rfl⟩
  | throw x =>
    cases h with
    | throw => exact .inl ⟨x, rfl, .throw⟩
  | ub w => cases h
  | diverge => cases h
  | log t k ih =>
    cases h with
    | log h =>
      rcases ih h with ⟨x, h1, h2⟩ | ⟨r, s1, es1, es2, h1, h2, rfl⟩
      · exact .inl ⟨x, h1, .log h2⟩
      · exact .inr ⟨r, s1, _, es2, .log h1, by simpa using h2, rfl⟩
  | logline t k ih =>
    cases h with
    | logline h =>
      rcases ih h with ⟨x, h1, h2⟩ | ⟨r, s1, es1, es2, h1, h2, rfl⟩
      · exact .inl ⟨x, h1, .logline h2⟩
      · exact .inr ⟨r, s1, _, es2, .logline h1, by simpa using h2, rfl⟩
  | reportError t k ih =>
    cases h with
    | reportError h =>
      rcases ih h with ⟨x, h1, h2⟩ | ⟨r, s1, es1, es2, h1, h2, rfl⟩
      · exact .inl ⟨x, h1, .reportError h2⟩
      · exact .inr ⟨r, s1, _, es2, .reportError h1, by simpa using h2, rfl⟩
  | hasErrors k ih =>
    cases h with
    | hasErrors h =>
      rcases ih _ h with ⟨x, h1, h2⟩ | ⟨r, s1, es1, es2, h1, h2, rfl⟩
      · exact .inl ⟨x, h1, .hasErrors h2⟩
      · exact .inr ⟨r, s1, _, es2, .hasErrors h1, h2, rfl⟩
  | named k ih =>
    cases h with
    | named h =>
      rcases ih _ h with ⟨x, h1, h2⟩ | ⟨r, s1, es1, es2, h1, h2, rfl⟩
      · exact .inl ⟨x, h1, .named h2⟩
      · exact .inr ⟨r, s1, _, es2, .named h1, h2, rfl⟩
  | setNamed i v k ih =>
    cases h with
    | setNamed hi h =>
      rcases ih h with ⟨x, h1, h2⟩ | ⟨r, s1, es1, es2, h1, h2, rfl⟩
      · exact .inl ⟨x, h1, .setNamed hi h2⟩
      · exact .inr ⟨r, s1, _, es2, .setNamed hi h1, by simpa using h2, rfl⟩
  | get k ih =>
    cases h with
    | get h =>
      rcases ih _ h with ⟨x, h1, h2⟩ | ⟨r, s1, es1, es2, h1, h2, rfl⟩
      · exact .inl ⟨x, h1, .get h2⟩
      · exact .inr ⟨r, s1, _, es2, .get h1, h2, rfl⟩
  | set w k ih =>
    cases h with
    | set h =>
      rcases ih h with ⟨x, h1, h2⟩ | ⟨r, s1, es1, es2, h1, h2, rfl⟩
      · exact .inl ⟨x, h1, .set h2⟩
      · exact .inr ⟨r, s1, _, es2, .set h1, h2, rfl⟩
  | captured k ih =>
    cases h with
    | captured hf h =>
      rcases ih _ h with ⟨x, h1, h2⟩ | ⟨r, s1, es1, es2, h1, h2, rfl⟩
      · exact .inl ⟨x, h1, .captured hf h2⟩
      · exact .inr ⟨r, s1, _, es2, .captured hf h1, h2, rfl⟩
  | add n fs k ih =>
    cases h with
    | add h0 h =>
      rcases ih h with ⟨x, h1, h2⟩ | ⟨r, s1, es1, es2, h1, h2, rfl⟩
      · exact .inl ⟨x, h1, .add h0 h2⟩
      · exact .inr ⟨r, s1, _, es2, .add h0 h1, h2, rfl⟩
  | remove n k ih =>
    cases h with
    | remove h0 h =>
      rcases ih h with ⟨x, h1, h2⟩ | ⟨r, s1, es1, es2, h1, h2, rfl⟩
      · exact .inl ⟨x, h1, .remove h0 h2⟩
      · exact .inr ⟨r, s1, _, es2, .remove h0 h1, h2, rfl⟩
  | clear k ih =>
    cases h with
    | clear h =>
      rcases ih h with ⟨x, h1, h2⟩ | ⟨r, s1, es1, es2, h1, h2, rfl⟩
      · exact .inl ⟨x, h1, .clear h2⟩
      · exact .inr ⟨r, s1, _, es2, .clear h1, h2, rfl⟩
  | execLine t k ih =>
    cases h with
    | execLine h0 h =>
      rcases ih _ h with ⟨x, h1, h2⟩ | ⟨r, s1, es1, es2, h1, h2, rfl⟩
      · exact .inl ⟨x, h1, .execLine h0 h2⟩
      · exact .inr ⟨r, s1, _, es2, .execLine h0 h1, h2, rfl⟩
  | execInput i k ih =>
    cases h with
    | execInput h0 h =>
      rcases ih _ h with ⟨x, h1, h2⟩ | ⟨r, s1, es1, es2, h1, h2, rfl⟩
      · exact .inl ⟨x, h1, .execInput h0 h2⟩
      · exact .inr ⟨r, s1, _, es2, .execInput h0 h1, h2, rfl⟩

/-! ## Named arguments -/

theorem namedFind_some {key : Bytes} {l : List Named} {nv : Named} (h : namedFind key l = some nv) :
    nv.key = key ∧ FirstNamed key l nv.value := by
  induction l with
  | nil => simp [namedFind] at h
  | cons a l ih =>
    rw [namedFind] at h
    split at h
    · rename_i hk
      simp only [Option.some.injEq] at h
      subst h
      exact ⟨hk, [], l, by subst hk; rfl, by simp⟩
    · rename_i hk
      obtain ⟨h1, pre, post, h2, h3⟩ := ih h
      refine ⟨h1, a :: pre, post, by simp [h2], ?_⟩
      intro nv hm
      rcases List.mem_cons.1 hm with rfl | hm
      · exact hk
      · exact h3 nv hm

theorem namedFind_none {key : Bytes} {l : List Named} : namedFind key l = none ↔ NotNamed key l := by
  induction l with
  | nil => simp [namedFind, NotNamed]
  | cons a l ih =>
    rw [namedFind]
    split
    · rename_i hk
      simp only [reduceCtorEq, false_iff]
      intro h
      exact h a (by simp) hk
    · rename_i hk
      rw [ih]
      simp only [NotNamed, List.mem_cons, forall_eq_or_imp]
      exact ⟨fun h => ⟨hk, h⟩, fun h => h.2⟩

theorem namedFind_first {key : Bytes} {l : List Named} {v : Value} (h : FirstNamed key l v) :
    namedFind key l = some ⟨key, v⟩ := by
  obtain ⟨pre, post, rfl, h⟩ := h
  induction pre with
  | nil => simp [namedFind]
  | cons a pre ih =>
    rw [List.cons_append, namedFind, if_neg (h a (by simp))]
    exact ih (fun nv hm => h nv (by simp [hm]))

/-! ## Calls of a known function -/

theorem executeInput_called_def {P : C → FunctorDef W C D} {catching : Bool} {depth : Nat} {s s' : Sys S W C D}
    {input : Input} {out : ExecOut} {cmd : Command C D} {f : Inst C D} (h : input.name ≠ [])
    (hf : ops.find s.reg input.name = .ok (some cmd))
    (hs : FirstOfArity P input.arguments.length cmd.functors f) (hl : f.id ∉ s.freed)
    {d : FunctorDef W C D} (hd : P f.code = d) {xs : Args d.params} (hx : ConvertTo d.params input.arguments xs) :
    executeInput P ops catching ne depth s input = .ok (s', out) ↔
      ∃ es e, Runs ops ne f input.namedArguments [] (d.body xs)
          { s with calls := s.calls ++ [(depth, f.id)] } es e s' ∧
        out = endResult catching input d.print es e := by
  subst hd
  exact executeInput_called h hf hs hl hx

/-- A command with two function objects. -/
structure TwoForms (P : C → FunctorDef W C D) (ops : RegOps S C D) (s : Sys S W C D) (name : Bytes)
    (d0 d1 : FunctorDef W C D) (g t : Inst C D) : Prop where
  ne_nil : name ≠ []
  found : ops.find s.reg name = .ok (some ⟨name, [g, t]⟩)
  def0 : P g.code = d0
  def1 : P t.code = d1
  live0 : g.id ∉ s.freed
  live1 : t.id ∉ s.freed

section TwoForms

variable {P : C → FunctorDef W C D} {catching : Bool} {depth : Nat} {s s' : Sys S W C D} {out : ExecOut}
  {name : Bytes} {d0 d1 : FunctorDef W C D} {g t : Inst C D}

theorem TwoForms.first0 (h : TwoForms P ops s name d0 d1 g t) (a0 : d0.params = []) : FirstOfArity P 0 [g, t] g :=
  ⟨[], [t], rfl, by rw [h.def0, a0]; rfl, by simp⟩

theorem TwoForms.first1 (h : TwoForms P ops s name d0 d1 g t) (a0 : d0.params = []) (a1 : d1.params.length = 1) : FirstOfArity P 1 [g, t] t := by
  refine ⟨[g], [], rfl, by rw [h.def1, a1], ?_⟩
  intro x hx
  simp at hx
  subst hx
  rw [h.def0, a0]
  simp

theorem TwoForms.count (h : TwoForms P ops s name d0 d1 g t) (a0 : d0.params = []) (a1 : d1.params.length = 1) {input : Input} (hn : input.name = name)
    (hnul : NulFree name) (hk : 2 ≤ input.arguments.length) :
    executeInput P ops catching ne depth s input = .ok (s, .ok ⟨input,
      [lit "Wrong number of arguments to '" ++ name ++ lit "': expected 0 or 1, got " ++
        natDec input.arguments.length], none, []⟩) := by
  subst hn
  rw [executeInput_count h.ne_nil h.found, countError_eq _ hnul]
  · simp only [List.map_cons, List.map_nil, h.def0, h.def1, a0, a1, countsInWords]
    have : lit "': expected 0 or 1, got " = lit "': expected " ++ (natDec 0 ++ lit " or " ++ natDec 1) ++ lit ", got " := by
      decide +kernel
    rw [this]
    simp
  · intro x hx
    simp at hx
    rcases hx with rfl | rfl
    · rw [h.def0, a0]; simp; omega
    · rw [h.def1, a1]; omega

end TwoForms

end Coil
