import Verif.Proofs.Utf8

/-!
# UTF-8 and executing commands
-/

namespace Coil
namespace Utf
open Spec

variable {S W C D : Type} {I : W → Prop}

/-- What is known of a call context. -/
structure CtxOk (c : CallCtx) : Prop where
  input : Utf8Input c.input
  result : Utf8Result c.result

/-- What is known of the end of a user function. -/
def EndOk {R : Type} (G : R → Prop) : End R → Prop
  | .ret r => G r
  | .exn e => Utf8Exn e

/-- What is known of the `execute` functions a user function calls. -/
def NestedOk (I : W → Prop) (ne : Nested S W C D) : Prop :=
  ∀ s r s' o, Utf8Sys I s → Utf8Request r → ne.exec s r = .ok (s', o) → Utf8Sys I s' ∧ Utf8Out o

theorem ctx_report {c : CallCtx} (h : CtxOk c) {e : Bytes} (he : Utf8 e) : CtxOk (c.reportError e) := by
  refine ⟨h.input, h.result.input, ?_, h.result.value, h.result.output⟩
  intro x hx
  simp [CallCtx.reportError] at hx
  rcases hx with hx | rfl
  · exact h.result.errors x hx
  · exact he

theorem ctx_log {c : CallCtx} (h : CtxOk c) {t : Bytes} (ht : Utf8 t) : CtxOk (c.log t) :=
  ⟨h.input, h.result.input, h.result.errors, h.result.value, append h.result.output ht⟩

theorem ctx_logline {c : CallCtx} (h : CtxOk c) {t : Bytes} (ht : Utf8 t) : CtxOk (c.logline t) :=
  ⟨h.input, h.result.input, h.result.errors, h.result.value, append (append h.result.output ht) (.one (by decide) .nil)⟩

theorem ctx_setNamed {c c' : CallCtx} (h : CtxOk c) {i : Nat} {v : Named} (hv : Utf8Named v) (hc : c.setNamed i v = .ok c') :
    CtxOk c' := by
  obtain ⟨l, hl, hc⟩ := Res.bind_eq_ok.1 hc
  simp at hc
  subst hc
  unfold writeAt at hl
  split at hl
  · simp at hl
    subst hl
    refine ⟨⟨h.input.name, h.input.arguments, ?_⟩, h.result⟩
    intro a ha
    rcases List.mem_or_eq_of_mem_set ha with ha | rfl
    · exact h.input.named a ha
    · exact hv
  · simp at hl

theorem sys_add {ops : RegOps S C D} {s s' : Sys S W C D} (h : Utf8Sys I s) {n : Bytes} {fs : List (C × D)}
    (hs : bindingsAdd ops s n fs = .ok s') : Utf8Sys I s' := by
  obtain ⟨_, _, hs⟩ := Res.bind_eq_ok.1 hs
  obtain ⟨_, _, hs⟩ := Res.bind_eq_ok.1 hs
  simp at hs
  subst hs
  exact ⟨h.lexer, h.state⟩

theorem sys_remove {ops : RegOps S C D} {s s' : Sys S W C D} (h : Utf8Sys I s) {n : Bytes}
    (hs : bindingsRemove ops s n = .ok s') : Utf8Sys I s' := by
  obtain ⟨_, _, hs⟩ := Res.bind_eq_ok.1 hs
  obtain ⟨_, _, hs⟩ := Res.bind_eq_ok.1 hs
  simp at hs
  subst hs
  exact ⟨h.lexer, h.state⟩

theorem run_utf8 {ops : RegOps S C D} {ne : Nested S W C D} (hne : NestedOk I ne) {self : Inst C D} {R : Type} {G : R → Prop}
    (p : Prog W C D R) : ∀ {s s' : Sys S W C D} {c c' : CallCtx} {e : End R}, Speaks I G p → Utf8Sys I s → CtxOk c →
    p.run ops ne self s c = .ok (s', c', e) → Utf8Sys I s' ∧ CtxOk c' ∧ EndOk G e := by
  induction p with
  | ret r => intro s s' c c' e hp hs hc h; simp [Prog.run] at h; obtain ⟨rfl, rfl, rfl⟩ := h; exact ⟨hs, hc, hp⟩
  | throw r => intro s s' c c' e hp hs hc h; simp [Prog.run] at h; obtain ⟨rfl, rfl, rfl⟩ := h; exact ⟨hs, hc, hp⟩
  | ub _ => intro s s' c c' e hp hs hc h; simp [Prog.run] at h
  | diverge => intro s s' c c' e hp hs hc h; simp [Prog.run] at h
  | log t k ih => intro s s' c c' e hp hs hc h; exact ih hp.2 hs (ctx_log hc hp.1) h
  | logline t k ih => intro s s' c c' e hp hs hc h; exact ih hp.2 hs (ctx_logline hc hp.1) h
  | reportError t k ih => intro s s' c c' e hp hs hc h; exact ih hp.2 hs (ctx_report hc hp.1) h
  | hasErrors k ih => intro s s' c c' e hp hs hc h; exact ih _ (hp _) hs hc h
  | named k ih => intro s s' c c' e hp hs hc h; exact ih _ (hp _ hc.input.named) hs hc h
  | setNamed i v k ih =>
    intro s s' c c' e hp hs hc h
    obtain ⟨c1, h1, h2⟩ := Res.bind_eq_ok.1 h
    exact ih hp.2 hs (ctx_setNamed hc hp.1 h1) h2
  | get k ih => intro s s' c c' e hp hs hc h; exact ih _ (hp _ hs.state) hs hc h
  | set w k ih => intro s s' c c' e hp hs hc h; exact ih hp.2 (s := { s with user := w }) ⟨hs.lexer, hp.1⟩ hc h
  | captured k ih =>
    intro s s' c c' e hp hs hc h
    unfold Prog.run at h
    split at h
    · simp at h
    · exact ih _ (hp _) hs hc h
  | add n fs k ih =>
    intro s s' c c' e hp hs hc h
    obtain ⟨s1, h1, h2⟩ := Res.bind_eq_ok.1 h
    exact ih hp (sys_add hs h1) hc h2
  | remove n k ih =>
    intro s s' c c' e hp hs hc h
    obtain ⟨s1, h1, h2⟩ := Res.bind_eq_ok.1 h
    exact ih hp (sys_remove hs h1) hc h2
  | clear k ih => intro s s' c c' e hp hs hc h; exact ih hp (s := bindingsClear ops s) ⟨hs.lexer, hs.state⟩ hc h
  | execLine t k ih =>
    intro s s' c c' e hp hs hc h
    obtain ⟨⟨s1, o⟩, h1, h2⟩ := Res.bind_eq_ok.1 h
    obtain ⟨g1, g2⟩ := hne s (.line t) s1 o hs hp.1 h1
    exact ih o (hp.2 o g2) g1 hc h2
  | execInput t k ih =>
    intro s s' c c' e hp hs hc h
    obtain ⟨⟨s1, o⟩, h1, h2⟩ := Res.bind_eq_ok.1 h
    obtain ⟨g1, g2⟩ := hne s (.input t) s1 o hs hp.1 h1
    exact ih o (hp.2 o g2) g1 hc h2

/-- What is known of converted arguments. -/
def ExpOk : (ps : List Param) → Conditions ps → Expecteds ps → Prop
  | [], _, _ => True
  | _ :: ps, (g, gs), (e, es) =>
    (match e with
      | .ok x => g x
      | .error m => Utf8 m) ∧ ExpOk ps gs es

theorem convert_utf8 {args : List Value} (ha : ∀ v ∈ args, Utf8Value v) (ps : List Param) : ∀ {i : Nat} {g : Conditions ps}
    {es : Expecteds ps}, Conditions.Read ps g → convertArgs args ps i = .ok es → ExpOk ps g es := by
  induction ps with
  | nil => intros; trivial
  | cons p ps ih =>
    intro i ⟨g, gs⟩ es hg h
    obtain ⟨a, h1, h⟩ := Res.bind_eq_ok.1 h
    obtain ⟨e, h2, h⟩ := Res.bind_eq_ok.1 h
    obtain ⟨r, h3, h⟩ := Res.bind_eq_ok.1 h
    cases h
    have hv : Utf8Value a := by
      unfold readAt at h1
      split at h1
      · rename_i x hx
        simp at h1
        subst h1
        exact ha x (List.mem_of_getElem? hx)
      · simp at h1
    refine ⟨?_, ih hg.2 h3⟩
    cases e with
    | ok x => exact hg.1.reads _ hv _ h2
    | error m => exact hg.1.fails _ hv _ h2

theorem report_utf8 (ps : List Param) : ∀ {g : Conditions ps} {es : Expecteds ps} {c : CallCtx}, ExpOk ps g es → CtxOk c →
    CtxOk (reportAll ps es c) := by
  induction ps with
  | nil => intro _ _ c _ h; exact h
  | cons p ps ih =>
    intro ⟨g, gs⟩ ⟨e, es⟩ c he hc
    cases e with
    | ok x => exact ih he.2 hc
    | error m => exact ih he.2 (ctx_report hc he.1)

theorem take_utf8 (ps : List Param) : ∀ {g : Conditions ps} {es : Expecteds ps} {a : Args ps}, ExpOk ps g es →
    takeValues ps es = .ok a → Conditions.Hold ps g a := by
  induction ps with
  | nil => intros; trivial
  | cons p ps ih =>
    intro ⟨g, gs⟩ ⟨e, es⟩ a he h
    cases e with
    | error m => simp [takeValues] at h
    | ok x =>
      obtain ⟨xs, h1, h⟩ := Res.bind_eq_ok.1 h
      cases h
      exact ⟨he.1, ih he.2 h1⟩

theorem store_utf8 {d : FunctorDef W C D} {G : d.R → Prop} (hG : ∀ f, d.print = some f → ∀ r, G r → Utf8 (f r)) {c : CallCtx}
    (hc : CtxOk c) {e : End d.R} (he : EndOk G e) :
    CtxOk (storeReturn d c e).1 ∧ ∀ x, (storeReturn d c e).2 = some x → Utf8Exn x := by
  cases e with
  | exn x => exact ⟨hc, by intro y hy; simp [storeReturn] at hy; subst hy; exact he⟩
  | ret r =>
    simp only [storeReturn]
    split
    · refine ⟨⟨hc.input, hc.result.input, hc.result.errors, ?_, hc.result.output⟩, by simp⟩
      intro v hv
      simp only [textOf] at hv
      split at hv
      · simp at hv
      · rename_i f hf
        simp at hv
        subst hv
        exact hG f hf r he
    · exact ⟨hc, by simp⟩

theorem invoke_utf8 {P : C → FunctorDef W C D} (hP : ∀ c, Utf8Function I (P c)) {ops : RegOps S C D} {ne : Nested S W C D}
    (hne : NestedOk I ne) {depth : Nat} {f : Inst C D} {s s' : Sys S W C D} {c c' : CallCtx} {x : Option Exn} (hs : Utf8Sys I s)
    (hc : CtxOk c) (h : invokeFunctor P ops ne depth f s c = .ok (s', c', x)) :
    Utf8Sys I s' ∧ CtxOk c' ∧ ∀ e, x = some e → Utf8Exn e := by
  unfold invokeFunctor at h
  split at h
  · simp at h
  · obtain ⟨g, G, hg, hG, hb⟩ := hP f.code
    obtain ⟨es, h1, h⟩ := Res.bind_eq_ok.1 h
    have he := convert_utf8 hc.input.arguments _ hg h1
    split at h
    · simp at h
      obtain ⟨rfl, rfl, rfl⟩ := h
      exact ⟨hs, report_utf8 _ he hc, by simp⟩
    · obtain ⟨a, h2, h⟩ := Res.bind_eq_ok.1 h
      obtain ⟨⟨s1, c1, r⟩, h3, h⟩ := Res.bind_eq_ok.1 h
      obtain ⟨k1, k2, k3⟩ := run_utf8 hne _ (hb a (take_utf8 _ he h2))
        (s := { s with calls := s.calls ++ [(depth, f.id)] }) ⟨hs.lexer, hs.state⟩ hc h3
      obtain ⟨m1, m2⟩ := store_utf8 hG k2 k3
      simp at h
      obtain ⟨rfl, rfl, rfl⟩ := h
      exact ⟨k1, m1, m2⟩

theorem counts_utf8 (total : Nat) (l : List Nat) : ∀ i acc, Utf8 acc → Utf8 (countsLoop total l i acc) := by
  induction l with
  | nil => intro _ _ h; exact h
  | cons a l ih =>
    intro i acc h
    refine ih _ _ (append ?_ (natDec_utf8 _))
    have h1 : Utf8 (if i > 0 ∧ i ≠ total - 1 then acc ++ lit ", " else acc) := by
      split
      · exact append h (ascii (by decide +kernel))
      · exact h
    split
    · exact append h1 (ascii (by decide +kernel))
    · exact h1

theorem handle_utf8 {catching : Bool} {c : CallCtx} (hc : CtxOk c) {x : Option Exn} (hx : ∀ e, x = some e → Utf8Exn e) :
    CtxOk (handle catching c x).1 ∧ ∀ e, (handle catching c x).2 = some e → Utf8Exn e := by
  match x with
  | none => exact ⟨hc, by simp [handle]⟩
  | some (.std w) =>
    simp only [handle]
    split
    · exact ⟨ctx_report hc (append (ascii (by decide +kernel)) (cstr_utf8 (hx _ rfl))), by simp⟩
    · exact ⟨hc, by intro e he; exact hx e (by simpa using he)⟩
  | some .other =>
    simp only [handle]
    split
    · exact ⟨ctx_report hc (ascii (by decide +kernel)), by simp⟩
    · exact ⟨hc, by intro e he; exact hx e (by simpa using he)⟩

theorem ctx_utf8 {P : C → FunctorDef W C D} (hP : ∀ c, Utf8Function I (P c)) {ops : RegOps S C D} {catching : Bool}
    {ne : Nested S W C D} (hne : NestedOk I ne) {depth : Nat} {s s' : Sys S W C D} {c c' : CallCtx} {x : Option Exn}
    (hs : Utf8Sys I s) (hc : CtxOk c) (h : executeCtx P ops catching ne depth s c = .ok (s', c', x)) :
    Utf8Sys I s' ∧ CtxOk c' ∧ ∀ e, x = some e → Utf8Exn e := by
  have hname : Utf8 (cstr c.input.name) := cstr_utf8 hc.input.name
  unfold executeCtx at h
  split at h
  · simp at h
    obtain ⟨rfl, rfl, rfl⟩ := h
    exact ⟨hs, ctx_report hc (ascii (by decide +kernel)), by simp⟩
  · obtain ⟨o, _, h⟩ := Res.bind_eq_ok.1 h
    split at h
    · simp at h
      obtain ⟨rfl, rfl, rfl⟩ := h
      refine ⟨hs, ctx_report hc ?_, by simp⟩
      exact append (ascii (by decide +kernel)) (append hname (ascii (by decide +kernel)))
    · split at h
      · obtain ⟨⟨s1, c1, r⟩, h3, h⟩ := Res.bind_eq_ok.1 h
        obtain ⟨k1, k2, k3⟩ := invoke_utf8 hP hne hs hc h3
        obtain ⟨m1, m2⟩ := handle_utf8 (catching := catching) k2 k3
        simp at h
        obtain ⟨rfl, rfl, rfl⟩ := h
        exact ⟨k1, m1, m2⟩
      · simp at h
        obtain ⟨rfl, rfl, rfl⟩ := h
        refine ⟨hs, ctx_report hc ?_, by simp⟩
        unfold countError
        exact append (append (append (append (append (ascii (by decide +kernel)) hname) (ascii (by decide +kernel)))
          (cstr_utf8 (counts_utf8 _ _ _ _ .nil))) (ascii (by decide +kernel))) (natDec_utf8 _)

theorem empty_utf8 : Utf8Result ExecResult.empty :=
  ⟨⟨.nil, by simp [ExecResult.empty, Input.empty], by simp [ExecResult.empty, Input.empty]⟩, by simp [ExecResult.empty],
    by simp [ExecResult.empty], .nil⟩

theorem input_utf8 {P : C → FunctorDef W C D} (hP : ∀ c, Utf8Function I (P c)) {ops : RegOps S C D} {catching : Bool}
    {ne : Nested S W C D} (hne : NestedOk I ne) {depth : Nat} {s s' : Sys S W C D} {i : Input} {o : ExecOut}
    (hs : Utf8Sys I s) (hi : Utf8Input i) (h : executeInput P ops catching ne depth s i = .ok (s', o)) :
    Utf8Sys I s' ∧ Utf8Out o := by
  obtain ⟨⟨s1, c, x⟩, h1, h⟩ := Res.bind_eq_ok.1 h
  obtain ⟨k1, k2, k3⟩ := ctx_utf8 hP hne hs ⟨hi, empty_utf8⟩ h1
  simp only at h
  split at h
  · simp at h
    obtain ⟨rfl, rfl⟩ := h
    exact ⟨k1, k3 _ rfl⟩
  · simp at h
    obtain ⟨rfl, rfl⟩ := h
    exact ⟨k1, k2.input, k2.result.errors, k2.result.value, k2.result.output⟩

theorem line_utf8 {P : C → FunctorDef W C D} (hP : ∀ c, Utf8Function I (P c)) {ops : RegOps S C D} {catching : Bool}
    {ne : Nested S W C D} (hne : NestedOk I ne) {depth : Nat} {s s' : Sys S W C D} {t : Bytes} {o : ExecOut}
    (hs : Utf8Sys I s) (ht : Utf8Line t) (h : executeLine P ops catching ne depth s t = .ok (s', o)) :
    Utf8Sys I s' ∧ Utf8Out o := by
  unfold executeLine at h
  split at h
  · simp at h
  · rename_i l hl
    obtain ⟨r, hr, h⟩ := Res.bind_eq_ok.1 h
    obtain ⟨g1, g2⟩ := hs.lexer l hl t ht
    split at h
    · simp at h
      obtain ⟨rfl, rfl⟩ := h
      refine ⟨hs, empty_utf8.input, ?_, empty_utf8.value, empty_utf8.output⟩
      intro e he
      simp at he
      subst he
      exact append (ascii (by decide +kernel)) (g2 _ hr)
    · exact input_utf8 hP hne hs (g1 _ hr) h

theorem nested_utf8 {P : C → FunctorDef W C D} (hP : ∀ c, Utf8Function I (P c)) {ops : RegOps S C D} {catching : Bool}
    (fuel : Nat) : ∀ depth, NestedOk I (nested P ops catching fuel depth) := by
  induction fuel with
  | zero => intro depth s r s' o _ _ h; cases r <;> simp [nested, Nested.exec] at h
  | succ n ih =>
    intro depth s r s' o hs hr h
    cases r with
    | line t => exact line_utf8 hP (ih _) hs hr h
    | input i => exact input_utf8 hP (ih _) hs hr h

/-! ## Composing user functions -/

theorem speaks_bind {R R' : Type} {G : R → Prop} {G' : R' → Prop} (p : Prog W C D R) {f : R → Prog W C D R'} :
    Speaks I G p → (∀ r, G r → Speaks I G' (f r)) → Speaks I G' (p.bind f) := by
  induction p with
  | ret r => intro hp hf; exact hf r hp
  | throw e => intro hp _; exact hp
  | ub _ => intros; trivial
  | diverge => intros; trivial
  | log t k ih => intro hp hf; exact ⟨hp.1, ih hp.2 hf⟩
  | logline t k ih => intro hp hf; exact ⟨hp.1, ih hp.2 hf⟩
  | reportError t k ih => intro hp hf; exact ⟨hp.1, ih hp.2 hf⟩
  | hasErrors k ih => intro hp hf b; exact ih b (hp b) hf
  | named k ih => intro hp hf l hl; exact ih l (hp l hl) hf
  | setNamed i v k ih => intro hp hf; exact ⟨hp.1, ih hp.2 hf⟩
  | get k ih => intro hp hf w hw; exact ih w (hp w hw) hf
  | set w k ih => intro hp hf; exact ⟨hp.1, ih hp.2 hf⟩
  | captured k ih => intro hp hf d; exact ih d (hp d) hf
  | add n fs k ih => intro hp hf; exact ih hp hf
  | remove n k ih => intro hp hf; exact ih hp hf
  | clear k ih => intro hp hf; exact ih hp hf
  | execLine t k ih => intro hp hf; exact ⟨hp.1, fun o ho => ih o (hp.2 o ho) hf⟩
  | execInput i k ih => intro hp hf; exact ⟨hp.1, fun o ho => ih o (hp.2 o ho) hf⟩

theorem find_utf8 {key : Bytes} {l : List Named} (h : ∀ a ∈ l, Utf8Named a) {a : Named} (ha : namedFind key l = some a) :
    Utf8Named a := by
  induction l with
  | nil => simp [namedFind] at ha
  | cons x l ih =>
    unfold namedFind at ha
    split at ha
    · simp at ha; subst ha; exact h x (by simp)
    · exact ih (fun b hb => h b (by simp [hb])) ha

theorem namedGet_utf8 {key : Bytes} (hk : Utf8 key) : Speaks (C := C) (D := D) I
    (fun r => match r with
      | .ok v => Utf8Value v
      | .error e => Utf8 e.message) (namedGet key) := by
  intro l hl
  simp only
  split
  · exact append (append (ascii (by decide +kernel)) (cstr_utf8 hk)) (ascii (by decide +kernel))
  · rename_i a ha
    exact (find_utf8 hl ha).2

theorem namedGetT_utf8 {T : Type} {conv : Conv T} {G : T → Prop} (hc : Utf8Conv conv G) {key : Bytes} (hk : Utf8 key) :
    Speaks (C := C) (D := D) I
    (fun r => match r with
      | .ok v => G v
      | .error e => Utf8 e.message) (namedGetT conv key) := by
  refine speaks_bind _ (namedGet_utf8 hk) ?_
  intro r hr
  cases r with
  | error e => exact hr
  | ok v =>
    refine speaks_bind (G := fun o => match o with
      | .ok x => G x
      | .error m => Utf8 m) _ ?_ ?_
    · unfold Prog.ofRes
      split
      · rename_i a ha
        cases a with
        | ok x => exact hc.reads v hr x ha
        | error m => exact hc.fails v hr m ha
      · trivial
      · trivial
    · intro o ho
      cases o with
      | ok x => exact ho
      | error m => exact ho

end Utf
end Coil
