import Verif.Proofs.ExecThrow

/-! # Executing when memory runs out: from the semantics to the model -/

namespace Coil
namespace Oom
open Spec

variable {S W C D : Type} {P : C → TDef W C D} {T : TOps S C D} {catching : Bool}
  {Safe : List (RegEvent C D) → Prop} {I : List (RegEvent C D) → S → Prop}

/-- These answers first, then those of `f`. -/
def feed : List Bool → (Nat → Bool) → Nat → Bool
  | [], f => f
  | b :: bs, f => fun
    | 0 => b
    | n + 1 => feed bs f n

theorem feed_append (a b : List Bool) (f : Nat → Bool) : feed (a ++ b) f = feed a (feed b f) := by
  induction a with
  | nil => rfl
  | cons x a ih =>
    funext n
    cases n with
    | zero => rfl
    | succ n => exact congrFun ih n

/-- The program with these answers. -/
def fed (s : Sys S W C D) (bs : List Bool) (f : Nat → Bool) : TSys S W C D := ⟨s, feed bs f⟩

theorem there_cons (s : Sys S W C D) (b : Bool) (bs : List Bool) (f : Nat → Bool) : (fed s (b :: bs) f).there = b := rfl

theorem next_cons (s : Sys S W C D) (b : Bool) (bs : List Bool) (f : Nat → Bool) : (fed s (b :: bs) f).next = fed s bs f := rfl

theorem fed_append (s : Sys S W C D) (a b : List Bool) (f : Nat → Bool) : fed s (a ++ b) f = fed s a (feed b f) := by
  simp only [fed, feed_append]

theorem fed_nil (s : Sys S W C D) (f : Nat → Bool) : fed s [] f = ⟨s, f⟩ := rfl

/-! ## Histories grow -/

mutual

theorem does_grows : ∀ {R : Type} {self : Inst C D} {l : List Named} {past : List CtxEvent} {p : TProg W C D R} {σ : Scene W C D}
    {es : List CtxEvent} {e : End R} {σ' : Scene W C D}, DoesT P catching self l past p σ es e σ' → σ.changes <+: σ'.changes
  | _, _, _, _, _, _, _, _, _, .ret => List.prefix_rfl
  | _, _, _, _, _, _, _, _, _, .throw => List.prefix_rfl
  | _, _, _, _, _, _, _, _, _, .alloc _ h => does_grows h
  | _, _, _, _, _, _, _, _, _, .log h => does_grows h
  | _, _, _, _, _, _, _, _, _, .logThrew h => does_grows h
  | _, _, _, _, _, _, _, _, _, .logline h => does_grows h
  | _, _, _, _, _, _, _, _, _, .loglineThrew h => does_grows h
  | _, _, _, _, _, _, _, _, _, .reportError h => does_grows h
  | _, _, _, _, _, _, _, _, _, .reportErrorThrew h => does_grows h
  | _, _, _, _, _, _, _, _, _, .hasErrors h => does_grows h
  | _, _, _, _, _, _, _, _, _, .named h => does_grows h
  | _, _, _, _, _, _, _, _, _, .setNamed _ h => does_grows h
  | _, _, _, _, _, _, _, _, _, .get h => does_grows h
  | _, _, _, _, _, _, _, _, _, .set h => by
    have := does_grows h; exact this
  | _, _, _, _, _, _, _, _, _, .captured _ h => does_grows h
  | _, _, _, _, _, _, _, _, _, .add h => (List.prefix_append _ _).trans (does_grows h)
  | _, _, _, _, _, _, _, _, _, .addThrew h => by
    have := does_grows h; exact this
  | _, _, _, _, _, _, _, _, _, .remove h => (List.prefix_append _ _).trans (does_grows h)
  | _, _, _, _, _, _, _, _, _, .clear h => (List.prefix_append _ _).trans (does_grows h)
  | _, _, _, _, _, _, _, _, _, .execLine h1 h2 => (performs_grows h1).trans (does_grows h2)
  | _, _, _, _, _, _, _, _, _, .execInput h1 h2 => (performs_grows h1).trans (does_grows h2)

theorem performs_grows : ∀ {σ : Scene W C D} {req : Request} {σ' : Scene W C D} {out : ExecOut},
    PerformsT P catching σ req σ' out → σ.changes <+: σ'.changes
  | _, _, _, _, .wrong _ => List.prefix_rfl
  | _, _, _, _, .unread _ => List.prefix_rfl
  | _, _, _, _, .line _ h => performs_grows h
  | _, _, _, _, .refused _ => List.prefix_rfl
  | _, _, _, _, .untold _ => List.prefix_rfl
  | _, _, _, _, .unconverted _ _ _ _ => List.prefix_rfl
  | _, _, _, _, .mismatch _ _ _ => List.prefix_rfl
  | _, _, _, _, .unreported _ _ _ _ => List.prefix_rfl
  | _, _, _, _, .returned _ _ h => does_grows h
  | _, _, _, _, .unprinted _ _ h _ _ => does_grows h
  | _, _, _, _, .threw _ _ h _ => does_grows h

end

theorem course_grows {σ σ' : Scene W C D} {main : TMain W C D} {outs : List (Option ExecOut)} (h : CourseT P catching σ main outs σ') :
    σ.changes <+: σ'.changes := by
  induction h with
  | stop => exact List.prefix_rfl
  | add _ ih => exact (List.prefix_append _ _).trans ih
  | addThrew _ ih => exact ih
  | remove _ ih => exact (List.prefix_append _ _).trans ih
  | clear _ ih => exact (List.prefix_append _ _).trans ih
  | setLexer _ ih => exact ih
  | exec h _ ih => exact (performs_grows h).trans ih
  | setUser _ ih => exact ih

/-! ## Changes of the commands -/

theorem add_back (m : ImplementsT Safe T I) {s : Sys S W C D} {σ : Scene W C D} (p : SeenAs I s σ) (n : Bytes) (fs : List (C × D))
    (hs : Safe σ.changes) : ∃ s', SeenAs I s' (σ.add n fs) ∧ Later σ (σ.add n fs) ∧
      ∀ bs f, bindingsAddT T (fed s (true :: true :: true :: bs) f) n fs = .ok (fed s' bs f, false) := by
  rw [← p.changes] at hs
  obtain ⟨m', t, g1, g2, g3⟩ := m.put n (allocate s.next fs) ⟨false, false⟩ p.reg hs
  cases t with
  | true => exact absurd rfl (g3 rfl).2
  | false =>
    obtain ⟨h1, h2⟩ := p.added n fs (g2 rfl)
    refine ⟨_, h1, h2, fun bs f => ?_⟩
    have hf := m.find p.reg hs n
    unfold bindingsAddT
    simp only [there_cons, next_cons, if_true, Bool.not_true]
    show (T.ops.find s.reg n).bind _ = _
    rw [hf]
    show (T.put s.reg n ⟨n, allocate s.next fs⟩ ⟨false, false⟩).bind _ = _
    rw [g1]
    rfl

theorem addThrew_back {s : Sys S W C D} {σ : Scene W C D} (p : SeenAs I s σ) (n : Bytes) (fs : List (C × D)) :
    ∃ s', SeenAs I s' (σ.waste fs.length) ∧ Later σ (σ.waste fs.length) ∧
      ∀ bs f, bindingsAddT T (fed s (false :: bs) f) n fs = .ok (fed s' bs f, true) :=
  ⟨_, p.discarded fs p.reg, .waste σ _, fun _ _ => rfl⟩

theorem remove_back (m : ImplementsT Safe T I) (hpre : ∀ a b, Safe (a ++ b) → Safe a) {s : Sys S W C D} {σ : Scene W C D} (p : SeenAs I s σ)
    (n : Bytes) (hs : Safe (σ.remove n).changes) : ∃ s', SeenAs I s' (σ.remove n) ∧ Later σ (σ.remove n) ∧
      ∀ bs f, bindingsRemoveT T (fed s bs f) n = .ok (fed s' bs f) := by
  replace hs : Safe (s.history ++ [.removed n]) := by rw [p.changes]; exact hs
  obtain ⟨m', g1, g2⟩ := m.erase n p.reg hs
  have hf := m.find p.reg (hpre _ _ hs) n
  have h1 : ∃ s1, bindingsRemove T.ops s n = .ok s1 ∧ s1.history = s.history ++ [.removed n] := by
    unfold bindingsRemove
    simp only [hf, Res.bind_ok, g1]
    exact ⟨_, rfl, rfl⟩
  obtain ⟨s1, h1, h2⟩ := h1
  have h3 : bindingsRemoveT T (fed s [] (fun _ => true)) n = .ok (fed s1 [] fun _ => true) := by
    simp only [bindingsRemoveT, fed, h1, Res.bind_ok]
    rfl
  obtain ⟨_, h4⟩ := remove_sound m h3
  obtain ⟨h5, h6⟩ := h4 (by rw [show (fed s1 [] fun _ => true).sys.history = _ from h2]; exact hs) hpre p
  refine ⟨s1, h5, h6, fun bs f => ?_⟩
  simp only [bindingsRemoveT, fed, h1, Res.bind_ok]
  rfl

theorem clear_back (m : ImplementsT Safe T I) (hpre : ∀ a b, Safe (a ++ b) → Safe a) {s : Sys S W C D} {σ : Scene W C D} (p : SeenAs I s σ)
    (hs : Safe σ.clear.changes) : SeenAs I (bindingsClear T.ops s) σ.clear ∧ Later σ σ.clear :=
  clear_sound m (by rw [p.changes]; exact hs) hpre p

/-! ## Running a body -/

/-- For some answers, and all of a greater depth of recursion, the body runs like this. -/
def RanT (Safe : List (RegEvent C D) → Prop) (I : List (RegEvent C D) → S → Prop) (P : C → TDef W C D) (T : TOps S C D) (catching : Bool)
    {R : Type} (self : Inst C D) (l : List Named) (past : List CtxEvent) (p : TProg W C D R) (σ : Scene W C D) (es : List CtxEvent) (e : End R)
    (σ' : Scene W C D) : Prop :=
  ∀ s depth, SeenAs I s σ → Known σ self → Safe σ'.changes → ∃ F bs s', (SeenAs I s' σ' ∧ Later σ σ') ∧
    ∀ fuel, F ≤ fuel → ∀ (f : Nat → Bool) (c0 : CallCtx), c0.result.errors = [] → c0.input.namedArguments = l →
      p.run T (nestedT P T catching fuel depth) self (fed s bs f) (after c0 past) = .ok (fed s' [] f, after c0 (past ++ es), e)

/-- The same for a command. -/
def ExecutedT (Safe : List (RegEvent C D) → Prop) (I : List (RegEvent C D) → S → Prop) (P : C → TDef W C D) (T : TOps S C D) (catching : Bool)
    (σ : Scene W C D) (req : Request) (σ' : Scene W C D) (out : ExecOut) : Prop :=
  ∀ s depth, SeenAs I s σ → Safe σ'.changes → ∃ F bs s', (SeenAs I s' σ' ∧ Later σ σ') ∧
    ∀ fuel, F ≤ fuel → ∀ f, (nestedT P T catching fuel depth).exec (fed s bs f) req = .ok (fed s' [] f, out)

variable {R : Type} {self : Inst C D} {l : List Named} {past : List CtxEvent} {σ σ' : Scene W C D} {es : List CtxEvent} {e : End R}

/-- A step that is asked for memory. -/
theorem ranT_asked {p q : TProg W C D R} {ev : List CtxEvent} (b : Bool) (h : RanT Safe I P T catching self l (past ++ ev) q σ es e σ')
    (step : ∀ ne s bs f c0, c0.result.errors = [] → c0.input.namedArguments = l →
      p.run T ne self (fed s (b :: bs) f) (after c0 past) = q.run T ne self (fed s bs f) (after c0 (past ++ ev))) :
    RanT Safe I P T catching self l past p σ (ev ++ es) e σ' := by
  intro s depth pc k hs
  obtain ⟨F, bs, s', h1, h2⟩ := h s depth pc k hs
  refine ⟨F, b :: bs, s', h1, fun fuel hf f c0 h0 hl => ?_⟩
  rw [step _ _ _ _ _ h0 hl, h2 fuel hf f c0 h0 hl, List.append_assoc]

/-- A step that is not. -/
theorem ranT_step {p q : TProg W C D R} {ev : List CtxEvent} (h : RanT Safe I P T catching self l (past ++ ev) q σ es e σ')
    (step : ∀ ne s bs f c0, SeenAs I s σ → Known σ self → c0.result.errors = [] → c0.input.namedArguments = l →
      p.run T ne self (fed s bs f) (after c0 past) = q.run T ne self (fed s bs f) (after c0 (past ++ ev))) :
    RanT Safe I P T catching self l past p σ (ev ++ es) e σ' := by
  intro s depth pc k hs
  obtain ⟨F, bs, s', h1, h2⟩ := h s depth pc k hs
  refine ⟨F, bs, s', h1, fun fuel hf f c0 h0 hl => ?_⟩
  rw [step _ _ _ _ _ pc k h0 hl, h2 fuel hf f c0 h0 hl, List.append_assoc]

/-- A step that changes the program. -/
theorem ranT_change {p q : TProg W C D R} {σ1 : Scene W C D} (hgrow : σ1.changes <+: σ'.changes)
    (hpre : ∀ a b, Safe (a ++ b) → Safe a) (h : RanT Safe I P T catching self l past q σ1 es e σ')
    (step : ∀ s, SeenAs I s σ → Safe σ1.changes → ∃ b0 s1, SeenAs I s1 σ1 ∧ Later σ σ1 ∧
      ∀ ne bs f c, p.run T ne self (fed s (b0 ++ bs) f) c = q.run T ne self (fed s1 bs f) c) :
    RanT Safe I P T catching self l past p σ es e σ' := by
  intro s depth pc k hs
  obtain ⟨b0, s1, g1, g2, g3⟩ := step s pc (safe_before hpre hgrow hs)
  obtain ⟨F, bs, s', h1, h2⟩ := h s1 depth g1 (k.later g2) hs
  refine ⟨F, b0 ++ bs, s', ⟨h1.1, g2.trans h1.2⟩, fun fuel hf f c0 h0 hl => ?_⟩
  rw [g3, h2 fuel hf f c0 h0 hl]

/-- A nested command. -/
theorem ranT_exec {p q : TProg W C D R} {σ1 : Scene W C D} {req : Request} {o : ExecOut} (hgrow : σ1.changes <+: σ'.changes)
    (hpre : ∀ a b, Safe (a ++ b) → Safe a) (h1 : ExecutedT Safe I P T catching σ req σ1 o) (h2 : RanT Safe I P T catching self l past q σ1 es e σ')
    (step : ∀ (ne : TNested S W C D) s s1 c, ne.exec s req = .ok (s1, o) → p.run T ne self s c = q.run T ne self s1 c) : RanT Safe I P T catching self l past p σ es e σ' := by
  intro s depth pc k hs
  obtain ⟨F1, b1, s1, ⟨a1, a2⟩, a3⟩ := h1 s depth pc (safe_before hpre hgrow hs)
  obtain ⟨F2, b2, s2, ⟨c1, c2⟩, c3⟩ := h2 s1 depth a1 (k.later a2) hs
  refine ⟨max F1 F2, b1 ++ b2, s2, ⟨c1, a2.trans c2⟩, fun fuel hf f c0 h0 hl => ?_⟩
  rw [fed_append, step _ _ _ _ (a3 fuel (Nat.le_trans (Nat.le_max_left ..) hf) _)]
  exact c3 fuel (Nat.le_trans (Nat.le_max_right ..) hf) f c0 h0 hl

/-! ## Calling -/

theorem convertT_all (all : List Value) (ps : List Param) (as : List Value) (i : Nat) (hall : all.drop i = as)
    {es : Expecteds ps} (hl : ps.length = as.length) (h : convertArgs all ps i = .ok es) (s : Sys S W C D) (f : Nat → Bool) :
    convertT all ps i (fed s (List.replicate ps.length true) f) = .ok (fed s [] f, some es) := by
  induction ps generalizing as i with
  | nil => cases h; rfl
  | cons p ps ih =>
    cases as with
    | nil => simp at hl
    | cons a as =>
      have hi : all[i]? = some a := by
        have := congrArg (·[0]?) hall
        simpa using this
      have hdrop : all.drop (i + 1) = as := by
        have := congrArg List.tail hall
        simpa using this
      simp only [convertArgs, readAt, hi, Res.bind_ok] at h
      obtain ⟨r, h1, h⟩ := Res.bind_eq_ok.1 h
      obtain ⟨rest, h2, h⟩ := Res.bind_eq_ok.1 h
      cases h
      simp only [convertT, readAt, hi, Res.bind_ok, h1, List.length_cons, List.replicate_succ, there_cons, next_cons, if_true,
        ih as (i + 1) hdrop (by simpa using hl) h2]

theorem convertT_stop (all : List Value) (ps : List Param) (as : List Value) (i : Nat) (hall : all.drop i = as)
    (hl : ps.length = as.length) {n : Nat} (hn : n < as.length) (hd : ConversionsDefined (ps.take (n + 1)) (as.take (n + 1)))
    (s : Sys S W C D) (f : Nat → Bool) :
    convertT all ps i (fed s (List.replicate n true ++ [false]) f) = .ok (fed s [] f, none) := by
  induction ps generalizing as i n with
  | nil =>
    cases as with
    | nil => simp at hn
    | cons a as => simp at hl
  | cons p ps ih =>
    cases as with
    | nil => simp at hl
    | cons a as =>
      have hi : all[i]? = some a := by
        have := congrArg (·[0]?) hall
        simpa using this
      have hdrop : all.drop (i + 1) = as := by
        have := congrArg List.tail hall
        simpa using this
      obtain ⟨⟨r, h1⟩, hd⟩ := hd
      cases n with
      | zero =>
        simp only [convertT, readAt, hi, Res.bind_ok, h1, List.replicate_zero, List.nil_append, there_cons, next_cons, Bool.false_eq_true, if_false]
      | succ n =>
        simp only [convertT, readAt, hi, Res.bind_ok, h1, List.replicate_succ, List.cons_append, there_cons, next_cons, if_true,
          ih as (i + 1) hdrop (by simpa using hl) (by simpa using hn) hd]

theorem reportT_all (all : List Value) (ps : List Param) (as : List Value) (i : Nat) (hall : all.drop i = as)
    {es : Expecteds ps} (hl : ps.length = as.length) (h : convertArgs all ps i = .ok es) (s : Sys S W C D) (f : Nat → Bool) (c : CallCtx) :
    reportT ps es (fed s (List.replicate (conversionErrors ps as).length true) f) c =
      (fed s [] f, withErrors c (conversionErrors ps as), false) := by
  induction ps generalizing as i c with
  | nil =>
    cases as with
    | nil => simp [reportT, conversionErrors, withErrors]
    | cons a as => simp at hl
  | cons p ps ih =>
    cases as with
    | nil => simp at hl
    | cons a as =>
      have hi : all[i]? = some a := by
        have := congrArg (·[0]?) hall
        simpa using this
      have hdrop : all.drop (i + 1) = as := by
        have := congrArg List.tail hall
        simpa using this
      simp only [convertArgs, readAt, hi, Res.bind_ok] at h
      obtain ⟨r, h1, h⟩ := Res.bind_eq_ok.1 h
      obtain ⟨rest, h2, h⟩ := Res.bind_eq_ok.1 h
      cases h
      cases r with
      | ok x =>
        have := ih as (i + 1) hdrop (by simpa using hl) h2 c
        simpa only [reportT, conversionErrors, h1] using this
      | error m =>
        have := ih as (i + 1) hdrop (by simpa using hl) h2 (c.reportError m)
        simp only [reportT, conversionErrors, h1, List.length_cons, List.replicate_succ, there_cons, next_cons, if_true, this]
        simp [withErrors, CallCtx.reportError]

theorem reportT_stop (all : List Value) (ps : List Param) (as : List Value) (i : Nat) (hall : all.drop i = as)
    {es : Expecteds ps} (hl : ps.length = as.length) (h : convertArgs all ps i = .ok es) (s : Sys S W C D) (f : Nat → Bool) (c : CallCtx)
    {n : Nat} (hn : n < (conversionErrors ps as).length) :
    reportT ps es (fed s (List.replicate n true ++ [false]) f) c =
      (fed s [] f, withErrors c ((conversionErrors ps as).take n), true) := by
  induction ps generalizing as i c n with
  | nil =>
    cases as with
    | nil => simp [conversionErrors] at hn
    | cons a as => simp at hl
  | cons p ps ih =>
    cases as with
    | nil => simp at hl
    | cons a as =>
      have hi : all[i]? = some a := by
        have := congrArg (·[0]?) hall
        simpa using this
      have hdrop : all.drop (i + 1) = as := by
        have := congrArg List.tail hall
        simpa using this
      simp only [convertArgs, readAt, hi, Res.bind_ok] at h
      obtain ⟨r, h1, h⟩ := Res.bind_eq_ok.1 h
      obtain ⟨rest, h2, h⟩ := Res.bind_eq_ok.1 h
      cases h
      cases r with
      | ok x =>
        simp only [conversionErrors, h1] at hn ⊢
        exact ih as (i + 1) hdrop (by simpa using hl) h2 c hn
      | error m =>
        simp only [conversionErrors, h1] at hn ⊢
        cases n with
        | zero => simp [reportT, there_cons, next_cons, withErrors]
        | succ n =>
          have := ih as (i + 1) hdrop (by simpa using hl) h2 (c.reportError m) (n := n) (by simpa using hn)
          simp only [reportT, List.replicate_succ, List.cons_append, there_cons, next_cons, if_true, this]
          simp [withErrors, CallCtx.reportError]

theorem handleT_back {x : Exn} {r : ExecResult} {out : ExecOut} (h : Raised catching x r out) :
    ∃ bs, ∀ (s : Sys S W C D) (f : Nat → Bool) (c : CallCtx), { c.result with input := c.input } = r →
      (handleT catching (fed s bs f) c (some x)).1 = fed s [] f ∧
        outOf (handleT catching (fed s bs f) c (some x)).2.1 (handleT catching (fed s bs f) c (some x)).2.2 = out := by
  cases h with
  | caught hc =>
    refine ⟨[true], fun s f c hr => ?_⟩
    subst hr
    cases x <;> simp [handleT, hc, tellT, there_cons, next_cons, outOf, CallCtx.reportError, exceptionError, cstr, upToNul]
  | lost hc =>
    refine ⟨[false], fun s f c hr => ?_⟩
    subst hr
    cases x <;> simp [handleT, hc, tellT, there_cons, next_cons, outOf, badAlloc, outOfMemory]
  | passed hc =>
    refine ⟨[], fun s f c hr => ?_⟩
    subst hr
    cases x <;> simp [handleT, hc, outOf]

theorem calls_back (m : ImplementsT Safe T I) {s : Sys S W C D} {i : Input} {f : Inst C D} (p : SeenAs I s σ) (hs : Safe σ.changes)
    (hc : Calls P σ i f) : (P f.code).params.length = i.arguments.length ∧ σ.Has f ∧ f.id ∉ s.freed ∧
      ∀ ne depth st c, st.sys = s → c.input = i → executeCtxT P T catching ne depth st c =
        (invokeT P T ne depth f st c).bind (fun x => .ok (handleT catching x.1 x.2.1 x.2.2)) := by
  obtain ⟨hn, fs, h1, h2⟩ := hc
  have hh : σ.Has f := by
    obtain ⟨pre, post, e, _⟩ := h2
    exact ⟨_, _, h1, by rw [e]; simp⟩
  refine ⟨?_, hh, (p.alive (p.known hh)).2 hh, fun ne depth st c hst hci => ?_⟩
  · obtain ⟨_, _, _, h, _⟩ := h2
    exact h
  · subst hst hci
    rw [← p.changes] at hs
    unfold executeCtxT
    rw [if_neg hn, p.find m hs, h1]
    simp only [Option.map_some, Res.bind_ok, selectT_some.2 h2]
    rfl

/-- A call that raises an exception, or none. -/
theorem call_back {bs bs' : List Bool} {s s' : Sys S W C D} {i : Input} {f : Inst C D} {x : Option Exn} {out : ExecOut} {c' : CallCtx}
    {F depth : Nat}
    (hexec : ∀ ne depth st c, st.sys = s → c.input = i → executeCtxT P T catching ne depth st c =
        (invokeT P T ne depth f st c).bind (fun x => .ok (handleT catching x.1 x.2.1 x.2.2)))
    (h1 : ∀ fuel, F ≤ fuel → ∀ g, invokeT P T (nestedT P T catching fuel (depth + 1)) depth f (fed s bs g) ⟨i, ExecResult.empty⟩ =
      .ok (fed s' [] g, c', x))
    (h2 : ∀ g, (handleT catching (fed s' bs' g) c' x).1 = fed s' [] g ∧
        outOf (handleT catching (fed s' bs' g) c' x).2.1 (handleT catching (fed s' bs' g) c' x).2.2 = out) :
    ∀ fuel, F + 1 ≤ fuel → ∀ g, (nestedT P T catching fuel depth).exec (fed s (bs ++ bs') g) (.input i) = .ok (fed s' [] g, out) := by
  intro fuel hf g
  obtain ⟨fuel, rfl⟩ : ∃ k, fuel = k + 1 := ⟨fuel - 1, by omega⟩
  show executeInputT P T catching (nestedT P T catching fuel (depth + 1)) depth _ i = _
  obtain ⟨g1, g2⟩ := h2 g
  rw [executeInputT_eq, hexec _ _ _ _ rfl rfl, fed_append, h1 fuel (by omega)]
  show Res.ok ((handleT catching (fed s' bs' g) c' x).1, outOf (handleT catching (fed s' bs' g) c' x).2.1
    (handleT catching (fed s' bs' g) c' x).2.2) = _
  rw [g1, g2]

theorem invokeT_eq {ne : TNested S W C D} {depth : Nat} {f : Inst C D} {s : TSys S W C D} {c : CallCtx} (hf : f.id ∉ s.sys.freed) :
    invokeT P T ne depth f s c = (convertT c.input.arguments (P f.code).params 0 s).bind (fun x =>
      match x.2 with
      | none => .ok (x.1, c, some badAlloc)
      | some es =>
        if anyMissing (P f.code).params es then
          .ok ((reportT (P f.code).params es x.1 c).1, (reportT (P f.code).params es x.1 c).2.1,
            thrown (reportT (P f.code).params es x.1 c).2.2)
        else (takeValues (P f.code).params es).bind (fun args =>
          (((P f.code).body args).run T ne f (x.1.on { x.1.sys with calls := x.1.sys.calls ++ [(depth, f.id)] }) c).bind (fun y =>
            .ok (storeT (P f.code) y.1 y.2.1 y.2.2)))) := by
  unfold invokeT
  rw [if_neg hf]
  show (convertT c.input.arguments (P f.code).params 0 s).bind _ = _
  cases convertT c.input.arguments (P f.code).params 0 s with
  | ub u => rfl
  | diverge => rfl
  | ok x =>
    obtain ⟨s1, o⟩ := x
    cases o <;> rfl

theorem refused_back (m : ImplementsT Safe T I) {s : Sys S W C D} {i : Input} {e : Bytes} (p : SeenAs I s σ) (hs : Safe σ.changes)
    (h : Refused P σ i e) (ne : TNested S W C D) (depth : Nat) (st : TSys S W C D) (hst : st.sys = s) :
    executeCtxT P T catching ne depth st ⟨i, ExecResult.empty⟩ = .ok (tellT st ⟨i, ExecResult.empty⟩ e) := by
  subst hst
  rw [← p.changes] at hs
  unfold executeCtxT
  cases h with
  | noName hn => rw [if_pos hn]
  | unknown hn hc =>
    rw [if_neg hn, p.find m hs, hc]
    simp [cstr, upToNul]
  | count hn hc hno =>
    rw [if_neg hn, p.find m hs, hc]
    simp only [Option.map_some, Res.bind_ok, selectT_none.2 hno, countErrorT_eq]

/-- A call of the function. -/
theorem body_back (m : ImplementsT Safe T I) (hpre : ∀ a b, Safe (a ++ b) → Safe a) {i : Input} {f : Inst C D} {xs : Args (P f.code).params} {es : List CtxEvent}
    {e : End (P f.code).R} (hc : Calls P σ i f) (hx : ConvertTo (P f.code).params i.arguments xs) (hgrow : σ.changes <+: σ'.changes)
    (hb : RanT Safe I P T catching f i.namedArguments [] ((P f.code).body xs) σ es e σ') {bs1 bs2 : List Bool} {c' : CallCtx} {x : Option Exn}
    {out : ExecOut}
    (h1 : ∀ (s : Sys S W C D) g, storeT (P f.code) (fed s bs1 g) (after ⟨i, ExecResult.empty⟩ es) e = (fed s [] g, c', x))
    (h2 : ∀ (s : Sys S W C D) g, (handleT catching (fed s bs2 g) c' x).1 = fed s [] g ∧
        outOf (handleT catching (fed s bs2 g) c' x).2.1 (handleT catching (fed s bs2 g) c' x).2.2 = out) :
    ExecutedT Safe I P T catching σ (.input i) σ' out := by
  intro s depth p hs
  obtain ⟨hlen, hh, hfr, hex⟩ := calls_back (catching := catching) m p (safe_before hpre hgrow hs) hc
  obtain ⟨F, bs, s', ⟨g1, g2⟩, g3⟩ := hb { s with calls := s.calls ++ [(depth, f.id)] } (depth + 1) (p.withCalls _) (p.known hh) hs
  obtain ⟨hd, hce⟩ := convertTo_defined hx
  obtain ⟨es', q1, q2, _, q4, _⟩ := convert_spec _ _ hd 0 i.arguments (by simp)
  refine ⟨F + 1, (List.replicate (P f.code).params.length true ++ (bs ++ bs1)) ++ bs2, s', ⟨g1, g2⟩, ?_⟩
  refine call_back (c' := c') (x := x) hex (fun fuel hF g => ?_) (h2 s')
  rw [invokeT_eq hfr, fed_append]
  show (convertT i.arguments (P f.code).params 0 _).bind _ = _
  rw [convertT_all i.arguments _ i.arguments 0 (by simp) hlen q1]
  have hm : ¬ anyMissing (P f.code).params es' = true := by
    intro hm
    exact q2.1 hm hce
  have ht : takeValues (P f.code).params es' = .ok xs := q4 xs hx
  simp only [Res.bind, hm, if_false, ht, Bool.false_eq_true]
  have := g3 fuel hF (feed bs1 g) ⟨i, ExecResult.empty⟩ rfl rfl
  rw [after_nil] at this
  have e1 : (fed s [] (feed (bs ++ bs1) g)).on { (fed s [] (feed (bs ++ bs1) g)).sys with
      calls := (fed s [] (feed (bs ++ bs1) g)).sys.calls ++ [(depth, f.id)] } =
      fed { s with calls := s.calls ++ [(depth, f.id)] } bs (feed bs1 g) := by
    rw [feed_append]; rfl
  rw [e1, this]
  have := h1 s' g
  simp only [List.nil_append]
  exact congrArg Res.ok this

/-- A call that does not get to the function. -/
theorem early_back (m : ImplementsT Safe T I) {i : Input} {f : Inst C D} (hc : Calls P σ i f) {bs1 bs2 : List Bool} {c' : CallCtx}
    {x : Option Exn} {out : ExecOut}
    (h1 : (P f.code).params.length = i.arguments.length → ∀ (s : Sys S W C D), f.id ∉ s.freed → ∀ ne depth g,
      invokeT P T ne depth f (fed s bs1 g) ⟨i, ExecResult.empty⟩ = .ok (fed s [] g, c', x))
    (h2 : ∀ (s : Sys S W C D) g, (handleT catching (fed s bs2 g) c' x).1 = fed s [] g ∧
        outOf (handleT catching (fed s bs2 g) c' x).2.1 (handleT catching (fed s bs2 g) c' x).2.2 = out) :
    ExecutedT Safe I P T catching σ (.input i) σ out := by
  intro s depth p hs
  obtain ⟨hlen, hh, hfr, hex⟩ := calls_back (catching := catching) m p hs hc
  exact ⟨1, bs1 ++ bs2, s, ⟨p, .refl σ⟩, call_back (F := 0) hex (fun fuel _ g => h1 hlen s hfr _ _ g) (h2 s)⟩

theorem exec_line {s : Sys S W C D} {t : Bytes} {r : Except Bytes Input} (h : ReadsWith s.lexer t r) (fuel depth : Nat) (bs : List Bool)
    (f : Nat → Bool) :
    (nestedT P T catching (fuel + 1) depth).exec (fed s (true :: bs) f) (.line t) =
      match r with
      | .ok i => (nestedT P T catching (fuel + 1) depth).exec (fed s bs f) (.input i)
      | .error e => if (fed s bs f).there then .ok ((fed s bs f).next, .ok ⟨⟨[], [], []⟩, [lit "Syntax error: " ++ e], none, []⟩)
        else .ok ((fed s bs f).next, .error badAlloc) := by
  obtain ⟨l, h1, h2⟩ := h
  show executeLineT P T catching (nestedT P T catching fuel (depth + 1)) depth (fed s (true :: bs) f) t = _
  unfold executeLineT
  rw [show (fed s (true :: bs) f).sys.lexer = some l from h1]
  simp only [h2, Res.bind_ok, there_cons, next_cons, if_true]
  cases r <;> rfl

section
variable (m : ImplementsT Safe T I) (hpre : ∀ a b, Safe (a ++ b) → Safe a)
include m hpre

mutual

theorem does_back : ∀ {R : Type} {self : Inst C D} {l : List Named} {past : List CtxEvent} {p : TProg W C D R} {σ : Scene W C D}
    {es : List CtxEvent} {e : End R} {σ' : Scene W C D}, DoesT P catching self l past p σ es e σ' →
      RanT Safe I P T catching self l past p σ es e σ'
  | _, _, _, _, _, σ, _, _, _, .ret => fun s _ pc _ _ =>
    ⟨0, [], s, ⟨pc, .refl σ⟩, fun _ _ _ _ _ _ => by simp [TProg.run]⟩
  | _, _, _, _, _, σ, _, _, _, .throw => fun s _ pc _ _ =>
    ⟨0, [], s, ⟨pc, .refl σ⟩, fun _ _ _ _ _ _ => by simp [TProg.run]⟩
  | _, _, _, _, _, _, _, _, _, .alloc t h => by
    have := does_back h
    exact ranT_asked (ev := []) (!t) (by rw [List.append_nil]; exact this) (fun _ _ _ _ _ _ _ => by
      simp only [TProg.run, there_cons, next_cons, Bool.not_not, List.append_nil])
  | _, _, _, _, _, _, _, _, _, .log h => ranT_asked (ev := [_]) true (does_back h) (fun _ _ _ _ _ _ _ => by
      simp only [TProg.run, there_cons, next_cons, if_true, after_log])
  | _, _, _, _, _, _, _, _, _, .logThrew h => by
    have := does_back h
    exact ranT_asked (ev := []) false (by rw [List.append_nil]; exact this) (fun _ _ _ _ _ _ _ => by
      simp only [TProg.run, there_cons, next_cons, Bool.false_eq_true, if_false, List.append_nil])
  | _, _, _, _, _, _, _, _, _, .logline h => ranT_asked (ev := [_]) true (does_back h) (fun _ _ _ _ _ _ _ => by
      simp only [TProg.run, there_cons, next_cons, if_true, after_logline])
  | _, _, _, _, _, _, _, _, _, .loglineThrew h => by
    have := does_back h
    exact ranT_asked (ev := []) false (by rw [List.append_nil]; exact this) (fun _ _ _ _ _ _ _ => by
      simp only [TProg.run, there_cons, next_cons, Bool.false_eq_true, if_false, List.append_nil])
  | _, _, _, _, _, _, _, _, _, .reportError h => ranT_asked (ev := [_]) true (does_back h) (fun _ _ _ _ _ _ _ => by
      simp only [TProg.run, there_cons, next_cons, if_true, after_reportError])
  | _, _, _, _, _, _, _, _, _, .reportErrorThrew h => by
    have := does_back h
    exact ranT_asked (ev := []) false (by rw [List.append_nil]; exact this) (fun _ _ _ _ _ _ _ => by
      simp only [TProg.run, there_cons, next_cons, Bool.false_eq_true, if_false, List.append_nil])
  | _, _, _, past, _, _, _, _, _, .hasErrors h => by
    have := does_back h
    exact ranT_step (ev := []) (by rw [List.append_nil]; exact this) (fun _ _ _ _ c0 _ _ h0 _ => by
      have : (after c0 past).hasErrors = decide (errorsOf past ≠ []) := by simp [after, CallCtx.hasErrors, h0]
      rw [TProg.run, this, List.append_nil])
  | _, _, l, past, _, _, _, _, _, .named h => by
    have := does_back h
    exact ranT_step (ev := []) (by rw [List.append_nil]; exact this) (fun _ _ _ _ c0 _ _ _ hl => by
      have : (after c0 past).input.namedArguments = namedAfter l past := by rw [← hl]; rfl
      rw [TProg.run, this, List.append_nil])
  | _, _, _, past, _, _, _, _, _, .setNamed hi h => ranT_step (ev := [_]) (does_back h) (fun _ _ _ _ c0 _ _ _ hl => by
      subst hl
      simp only [TProg.run, after_setNamed, hi, if_true, Res.bind_ok])
  | _, _, _, _, _, _, _, _, _, .get h => by
    have := does_back h
    exact ranT_step (ev := []) (by rw [List.append_nil]; exact this) (fun _ s _ _ _ pc _ _ _ => by
      simp only [TProg.run, fed, pc.user, List.append_nil])
  | _, _, _, _, _, σ, _, _, _, .set (w := w) h =>
    ranT_change (σ1 := { σ with user := w }) (does_grows h) hpre (does_back h) (fun s pc _ =>
      ⟨[], _, pc.withUser w, ⟨Nat.le_refl _, fun _ h _ => h⟩, fun _ _ _ _ => rfl⟩)
  | _, self, _, _, _, _, _, _, _, .captured hh h => by
    have := does_back h
    exact ranT_step (ev := []) (by rw [List.append_nil]; exact this) (fun _ s bs f _ pc k _ _ => by
      have : self.id ∉ (fed s bs f).sys.freed := (pc.alive k).2 hh
      simp only [TProg.run, this, if_false, List.append_nil])
  | _, _, _, _, _, σ, _, _, _, .add (n := n) (fs := fs) h =>
    ranT_change (does_grows h) hpre (does_back h) (fun s pc hs => by
      obtain ⟨s1, g1, g2, g3⟩ := add_back m pc n fs (hpre _ _ hs)
      refine ⟨[true, true, true], s1, g1, g2, fun ne bs f c => ?_⟩
      show (bindingsAddT T (fed s (true :: true :: true :: bs) f) n fs).bind _ = _
      rw [g3]
      rfl)
  | _, _, _, _, _, σ, _, _, _, .addThrew (n := n) (fs := fs) h =>
    ranT_change (does_grows h) hpre (does_back h) (fun s pc hs => by
      obtain ⟨s1, g1, g2, g3⟩ := addThrew_back (T := T) pc n fs
      refine ⟨[false], s1, g1, g2, fun ne bs f c => ?_⟩
      rw [show [false] ++ bs = false :: bs from rfl]
      simp only [TProg.run, g3, Res.bind_ok])
  | _, _, _, _, _, σ, _, _, _, .remove (n := n) h =>
    ranT_change (does_grows h) hpre (does_back h) (fun s pc hs => by
      obtain ⟨s1, g1, g2, g3⟩ := remove_back m hpre pc n hs
      refine ⟨[], s1, g1, g2, fun ne bs f c => ?_⟩
      show (bindingsRemoveT T (fed s bs f) n).bind _ = _
      rw [g3]
      rfl)
  | _, _, _, _, _, σ, _, _, _, .clear h =>
    ranT_change (does_grows h) hpre (does_back h) (fun s pc hs => by
      obtain ⟨g1, g2⟩ := clear_back m hpre pc hs
      exact ⟨[], _, g1, g2, fun ne bs f c => rfl⟩)
  | _, _, _, _, _, _, _, _, _, .execLine h1 h2 =>
    ranT_exec (does_grows h2) hpre (performs_back h1) (does_back h2) (fun ne s s1 c h => by
      replace h : ne.line s _ = _ := h
      simp only [TProg.run, h, Res.bind_ok])
  | _, _, _, _, _, _, _, _, _, .execInput h1 h2 =>
    ranT_exec (does_grows h2) hpre (performs_back h1) (does_back h2) (fun ne s s1 c h => by
      replace h : ne.input s _ = _ := h
      simp only [TProg.run, h, Res.bind_ok])

theorem performs_back : ∀ {σ : Scene W C D} {req : Request} {σ' : Scene W C D} {out : ExecOut},
    PerformsT P catching σ req σ' out → ExecutedT Safe I P T catching σ req σ' out
  | σ, _, _, _, .wrong h => fun s depth p _ =>
    ⟨1, [true, true], s, ⟨p, .refl σ⟩, fun fuel hf f => by
      obtain ⟨fuel, rfl⟩ : ∃ k, fuel = k + 1 := ⟨fuel - 1, by omega⟩
      rw [exec_line ((p.reads _ _).1 h)]
      simp only [there_cons, next_cons, if_true]⟩
  | σ, _, _, _, .unread h => fun s depth p _ =>
    ⟨1, [false], s, ⟨p, .refl σ⟩, fun fuel hf f => by
      obtain ⟨fuel, rfl⟩ : ∃ k, fuel = k + 1 := ⟨fuel - 1, by omega⟩
      obtain ⟨l, h1, h2⟩ := (p.reads _ _).1 h
      show executeLineT P T catching (nestedT P T catching fuel (depth + 1)) depth (fed s [false] f) _ = _
      unfold executeLineT
      rw [show (fed s [false] f).sys.lexer = some l from h1]
      simp only [h2, Res.bind_ok, there_cons, next_cons, Bool.false_eq_true, if_false]
      rfl⟩
  | _, _, _, _, .line h hp => fun s depth p hs => by
    obtain ⟨F, bs, s', h1, h2⟩ := performs_back hp s depth p hs
    refine ⟨F + 1, true :: bs, s', h1, fun fuel hf f => ?_⟩
    obtain ⟨fuel, rfl⟩ : ∃ k, fuel = k + 1 := ⟨fuel - 1, by omega⟩
    rw [exec_line ((p.reads _ _).1 h)]
    exact h2 _ (by omega) f
  | σ, _, _, _, .refused (i := i) h => fun s depth p hs =>
    ⟨1, [true], s, ⟨p, .refl σ⟩, fun fuel hf f => by
      obtain ⟨fuel, rfl⟩ : ∃ k, fuel = k + 1 := ⟨fuel - 1, by omega⟩
      show executeInputT P T catching (nestedT P T catching fuel (depth + 1)) depth _ i = _
      rw [executeInputT_eq, refused_back m p hs h _ _ _ rfl]
      simp only [tellT, there_cons, next_cons, if_true]
      rfl⟩
  | σ, _, _, _, .untold (i := i) h => fun s depth p hs =>
    ⟨1, [false], s, ⟨p, .refl σ⟩, fun fuel hf f => by
      obtain ⟨fuel, rfl⟩ : ∃ k, fuel = k + 1 := ⟨fuel - 1, by omega⟩
      show executeInputT P T catching (nestedT P T catching fuel (depth + 1)) depth _ i = _
      rw [executeInputT_eq, refused_back m p hs h _ _ _ rfl]
      simp only [tellT, there_cons, next_cons, Bool.false_eq_true, if_false]
      rfl⟩
  | _, _, _, _, .unconverted (i := i) (n := n) hc hn hd hr => by
    obtain ⟨bs, hb⟩ := handleT_back (S := S) (W := W) (C := C) (D := D) hr
    refine early_back (bs1 := List.replicate n true ++ [false]) m hc (fun hlen s hfr ne depth g => ?_) (fun s g => hb s g ⟨i, ExecResult.empty⟩ rfl)
    rw [invokeT_eq hfr]
    show (convertT i.arguments _ 0 _).bind _ = _
    rw [convertT_stop i.arguments _ i.arguments 0 (by simp) hlen hn hd]
    rfl
  | _, _, _, _, .mismatch (i := i) (f := f) hc hd he => by
    obtain ⟨es', q1, q2, _⟩ := convert_spec _ _ hd 0 i.arguments (by simp)
    refine early_back (bs1 := List.replicate (P f.code).params.length true ++
        List.replicate (conversionErrors (P f.code).params i.arguments).length true) (bs2 := []) (x := none)
        (c' := withErrors ⟨i, ExecResult.empty⟩ (conversionErrors (P f.code).params i.arguments))
      m hc (fun hlen s hfr ne depth g => ?_) (fun s g => ⟨rfl, rfl⟩)
    rw [invokeT_eq hfr, fed_append]
    show (convertT i.arguments _ 0 _).bind _ = _
    rw [convertT_all i.arguments _ i.arguments 0 (by simp) hlen q1]
    have := reportT_all i.arguments _ i.arguments 0 (by simp) hlen q1 s g ⟨i, ExecResult.empty⟩
    simp only [Res.bind, q2.2 he, if_true, thrown]
    rw [show fed s [] (feed (List.replicate (conversionErrors (P f.code).params i.arguments).length true) g) =
      fed s (List.replicate (conversionErrors (P f.code).params i.arguments).length true) g from rfl, this]
    rfl
  | _, _, _, _, .unreported (i := i) (f := f) (n := n) hc hd hn hr => by
    obtain ⟨bs, hb⟩ := handleT_back (S := S) (W := W) (C := C) (D := D) hr
    obtain ⟨es', q1, q2, _⟩ := convert_spec _ _ hd 0 i.arguments (by simp)
    have he : conversionErrors (P f.code).params i.arguments ≠ [] := by
      intro h; rw [h] at hn; simp at hn
    refine early_back (bs1 := List.replicate (P f.code).params.length true ++ (List.replicate n true ++ [false]))
      m hc (fun hlen s hfr ne depth g => ?_) (fun s g => hb s g
        (withErrors ⟨i, ExecResult.empty⟩ ((conversionErrors (P f.code).params i.arguments).take n)) rfl)
    rw [invokeT_eq hfr, fed_append]
    show (convertT i.arguments _ 0 _).bind _ = _
    rw [convertT_all i.arguments _ i.arguments 0 (by simp) hlen q1]
    have := reportT_stop i.arguments _ i.arguments 0 (by simp) hlen q1 s g ⟨i, ExecResult.empty⟩ hn
    simp only [Res.bind, q2.2 he, if_true, thrown]
    rw [show fed s [] (feed (List.replicate n true ++ [false]) g) = fed s (List.replicate n true ++ [false]) g from rfl, this]
    rfl
  | _, _, _, _, .returned (i := i) (f := f) (es := es) (r := r) hc hx h => by
    have hb := does_back h
    cases hp : (P f.code).print with
    | none =>
      refine body_back (bs1 := []) (bs2 := []) (x := none) (c' := if (after ⟨i, ExecResult.empty⟩ es).hasErrors = false then
          { after ⟨i, ExecResult.empty⟩ es with result := { (after ⟨i, ExecResult.empty⟩ es).result with returnValue := none } }
          else after ⟨i, ExecResult.empty⟩ es) m hpre hc hx (does_grows h) hb
        (fun s g => ?_) (fun s g => ⟨rfl, ?_⟩)
      · simp only [storeT, hp]
      · by_cases hce : errorsOf es = []
        · simp [handleT, outOf, after, sofar, ExecResult.empty, CallCtx.hasErrors, hce]
        · simp [handleT, outOf, after, sofar, ExecResult.empty, CallCtx.hasErrors, hce]
    | some pr =>
      refine body_back (bs1 := [true]) (bs2 := []) (x := none) (c' := if (after ⟨i, ExecResult.empty⟩ es).hasErrors = false then
          { after ⟨i, ExecResult.empty⟩ es with result := { (after ⟨i, ExecResult.empty⟩ es).result with returnValue := some (pr r) } }
          else after ⟨i, ExecResult.empty⟩ es) m hpre hc hx (does_grows h) hb
        (fun s g => ?_) (fun s g => ⟨rfl, ?_⟩)
      · simp only [storeT, hp, there_cons, next_cons, if_true]
      · by_cases hce : errorsOf es = []
        · simp [handleT, outOf, after, sofar, ExecResult.empty, CallCtx.hasErrors, hce]
        · simp [handleT, outOf, after, sofar, ExecResult.empty, CallCtx.hasErrors, hce]
  | _, _, _, _, .unprinted (i := i) (f := f) (es := es) hc hx h hpr hr => by
    have hb := does_back h
    obtain ⟨bs, hb'⟩ := handleT_back (S := S) (W := W) (C := C) (D := D) hr
    obtain ⟨pr, hp⟩ := Option.isSome_iff_exists.1 hpr
    refine body_back (bs1 := [false]) m hpre hc hx (does_grows h) hb (fun s g => ?_)
      (fun s g => hb' s g (after ⟨i, ExecResult.empty⟩ es) (by simp [after, sofar, ExecResult.empty]))
    simp only [storeT, hp, there_cons, next_cons, Bool.false_eq_true, if_false]
    rfl
  | _, _, _, _, .threw (i := i) (f := f) (es := es) hc hx h hr => by
    have hb := does_back h
    obtain ⟨bs, hb'⟩ := handleT_back (S := S) (W := W) (C := C) (D := D) hr
    refine body_back (bs1 := []) m hpre hc hx (does_grows h) hb (fun s g => ?_)
      (fun s g => hb' s g (after ⟨i, ExecResult.empty⟩ es) (by simp [after, sofar, ExecResult.empty]))
    simp only [storeT]

end

theorem course_back {σ σ' : Scene W C D} {main : TMain W C D} {outs : List (Option ExecOut)} (h : CourseT P catching σ main outs σ') :
    ∀ s, SeenAs I s σ → Safe σ'.changes → ∃ F bs s', SeenAs I s' σ' ∧
      ∀ fuel, F ≤ fuel → ∀ f, mainT P T catching fuel (fed s bs f) main = .ok (fed s' [] f, outs) := by
  induction h with
  | stop => exact fun s p _ => ⟨0, [], s, p, fun _ _ _ => rfl⟩
  | add h ih =>
    intro s p hs
    obtain ⟨s1, g1, _, g3⟩ := add_back m p _ _ (hpre _ _ (safe_before hpre (course_grows h) hs))
    obtain ⟨F, bs, s', h1, h2⟩ := ih s1 g1 hs
    refine ⟨F, true :: true :: true :: bs, s', h1, fun fuel hf f => ?_⟩
    have := h2 fuel hf f
    simp only [mainT, actT, g3, Res.bind_ok, Bool.false_eq_true, if_false, this]
  | @addThrew _ n fs _ _ _ h ih =>
    intro s p hs
    obtain ⟨s1, g1, _, g3⟩ := addThrew_back (T := T) p n fs
    obtain ⟨F, bs, s', h1, h2⟩ := ih s1 g1 hs
    refine ⟨F, false :: bs, s', h1, fun fuel hf f => ?_⟩
    have := h2 fuel hf f
    simp only [mainT, actT, g3, Res.bind_ok, if_true]
    rw [show badAlloc = outOfMemory from rfl, this]
    rfl
  | remove h ih =>
    intro s p hs
    obtain ⟨s1, g1, _, g3⟩ := remove_back m hpre p _ (safe_before hpre (course_grows h) hs)
    obtain ⟨F, bs, s', h1, h2⟩ := ih s1 g1 hs
    refine ⟨F, bs, s', h1, fun fuel hf f => ?_⟩
    have := h2 fuel hf f
    simp only [mainT, actT, g3, Res.bind_ok, this]
  | clear h ih =>
    intro s p hs
    obtain ⟨F, bs, s', h1, h2⟩ := ih _ (clear_back m hpre p (safe_before hpre (course_grows h) hs)).1 hs
    refine ⟨F, bs, s', h1, fun fuel hf f => ?_⟩
    have := h2 fuel hf f
    simp only [mainT, actT, Res.bind_ok]
    rw [show (fed s bs f).on (bindingsClear T.ops (fed s bs f).sys) = fed (bindingsClear T.ops s) bs f from rfl, this]
    rfl
  | setLexer h ih =>
    intro s p hs
    obtain ⟨F, bs, s', h1, h2⟩ := ih _ (p.withLexer _) hs
    refine ⟨F, bs, s', h1, fun fuel hf f => ?_⟩
    have := h2 fuel hf f
    simp only [mainT, actT, Res.bind_ok]
    rw [show (fed s bs f).on (setLexer (fed s bs f).sys _) = fed (setLexer s _) bs f from rfl, this]
    rfl
  | exec hp h ih =>
    intro s p hs
    obtain ⟨F1, b1, s1, ⟨a1, _⟩, a3⟩ := performs_back m hpre hp s 0 p (safe_before hpre (course_grows h) hs)
    obtain ⟨F2, b2, s', h1, h2⟩ := ih s1 a1 hs
    refine ⟨max F1 F2, b1 ++ b2, s', h1, fun fuel hf f => ?_⟩
    have := h2 fuel (Nat.le_trans (Nat.le_max_right ..) hf) f
    have a4 := a3 fuel (Nat.le_trans (Nat.le_max_left ..) hf) (feed b2 f)
    simp only [mainT, actT, executeT, fed_append, a4, Res.bind_ok]
    rw [show fed s1 [] (feed b2 f) = fed s1 b2 f from rfl, this]
    rfl
  | setUser h ih =>
    intro s p hs
    obtain ⟨F, bs, s', h1, h2⟩ := ih _ (p.withUser _) hs
    refine ⟨F, bs, s', h1, fun fuel hf f => ?_⟩
    have := h2 fuel hf f
    simp only [mainT, actT, Res.bind_ok]
    rw [show (fed s bs f).on { (fed s bs f).sys with user := _ } = fed { s with user := _ } bs f from rfl, this]
    rfl

end

end Oom
end Coil
