import Verif.Proofs.Access
import Verif.Props.Exec

/-!
# Variables, properties and named arguments (C34-C38)

`TwoForms P ops s name d0 d1 g t`: in the program `s` the command `name` has the two function objects `g` (behaviour `d0`)
and `t` (behaviour `d1`), as made by `variable`, `property` and `bindProperty`. That registering gives
such a program is part of C32.
-/

namespace Coil
open Spec

namespace Demo

/-- Three program variables: two numbers and a flag. -/
abbrev W3 := Int × Int × Bool

def refA : VarRef W3 Int := ⟨fun w => w.1, fun x w => (x, w.2)⟩
def refB : VarRef W3 Int := ⟨fun w => w.2.1, fun x w => (w.1, x, w.2.2)⟩
def refF : VarRef W3 Bool := ⟨fun w => w.2.2, fun x w => (w.1, w.2.1, x)⟩

/-- Getter with an effect on the output, setter that clamps. -/
def getter : Prog W3 Nat Nat Int := .get fun w => .log (lit "get;") (.ret w.1)
def setter (x : Int) : Prog W3 Nat Nat Unit :=
  if x < 0 then .throw (.std (lit "negative"))
  else .get fun w => .log (lit "set;") (.set (if 100 < x then 100 else x, w.2) (.ret ()))

def unit : FunctorDef W3 Nat Nat := ⟨[], Unit, lit "void", none, fun _ => .ret ()⟩

/-- A function that uses its named arguments. -/
def usesNamed : FunctorDef W3 Nat Nat :=
  ⟨[], Int, lit "int", some (intConv pl .int).toString, fun _ =>
    (namedGetOrReportT (intConv pl .int) (lit "n") false (some 5)).bind fun
      | none => .ret 0
      | some x => (namedGetOrReportT (intConv pl .int) (lit "m") true none).bind fun
        | none => .ret 0
        | some y => .ret (x + y)⟩

def nth (l : List (FunctorDef W3 Nat Nat)) (i : Nat) : FunctorDef W3 Nat Nat := l.getD i unit

def P3 : Nat → FunctorDef W3 Nat Nat
  | 0 => nth (variableDefs (intConv pl .int) refA) 0
  | 1 => nth (variableDefs (intConv pl .int) refA) 1
  | 2 => nth (variableDefs (boolConv pl) refF) 0
  | 3 => nth (variableDefs (boolConv pl) refF) 1
  | 4 => nth (constVariableDefs (intConv pl .int) refB.read) 0
  | 5 => nth (constVariableDefs (intConv pl .int) refB.read) 1
  | 6 => nth (propertyDefs (intConv pl .int) getter setter) 0
  | 7 => nth (propertyDefs (intConv pl .int) getter setter) 1
  | 8 => nth (constPropertyDefs (intConv pl .int) getter) 0
  | 9 => nth (constPropertyDefs (intConv pl .int) getter) 1
  | 10 => usesNamed
  | _ => unit

def start3 : Res (Sys Reg W3 Nat Nat) := do
  let m ← UMap.create (djb2 true) 1
  let s ← bindingsAdd ops ⟨m, some (lexRead (LexCfg.default true)), (1, 2, false), [], 0, [], []⟩ (lit "a") [(0, 0), (1, 0)]
  let s ← bindingsAdd ops s (lit "f") [(2, 0), (3, 0)]
  let s ← bindingsAdd ops s (lit "c") [(4, 0), (5, 0)]
  let s ← bindingsAdd ops s (lit "p") [(6, 0), (7, 0)]
  let s ← bindingsAdd ops s (lit "r") [(8, 0), (9, 0)]
  bindingsAdd ops s (lit "n") [(10, 0)]

def answer : ExecOut → Option (Answer × Bytes)
  | .ok r => some (⟨r.errors, r.returnValue⟩, r.output)
  | .error _ => none

/-- Answers and outputs of several lines, and the program variables in the end. -/
def exec3 (lines : List String) : Res (List (Option (Answer × Bytes)) × W3) := do
  let s ← start3
  let (s', os) ← executeAll P3 ops true 3 s (lines.map fun t => .line (lit t))
  .ok (os.map answer, s'.user)

/-- An answer without errors, with some output. -/
def fine (v : String) (o : String := "") : Option (Answer × Bytes) := some (⟨[], some (lit v)⟩, lit o)

/-- An answer with errors. -/
def wrong (es : List String) (o : String := "") : Option (Answer × Bytes) := some (⟨es.map lit, none⟩, lit o)

end Demo

variable {S W C D : Type} {P : C → FunctorDef W C D} {ops : RegOps S C D} {catching : Bool} {fuel depth : Nat}
  {s s' : Sys S W C D} {req : Request} {input : Input} {out : ExecOut} {name : Bytes} {d0 d1 : FunctorDef W C D}
  {g t : Inst C D} {T : Type}

/-! ## C34 -/

/-- The variables `i : ι` are bound to commands. -/
def BindsVariables {ι : Type} {T : ι → Type} (P : C → FunctorDef W C D) (ops : RegOps S C D) (s : Sys S W C D)
    (names : ι → Bytes) (conv : (i : ι) → Conv (T i)) (refs : (i : ι) → VarRef W (T i)) : Prop :=
  ∀ i, ∃ d0 d1 g t, variableDefs (conv i) (refs i) = [d0, d1] ∧ NulFree (names i) ∧
    TwoForms P ops s (names i) d0 d1 g t

/-- Errors and return value of what `execute` gives. -/
def answerOf : ExecOut → Option Answer
  | .ok r => some ⟨r.errors, r.returnValue⟩
  | .error _ => none

/-- A request that stands for giving the command of variable `i` the arguments `args` (whose conversion is defined). -/
def AccessRequest {ι : Type} {T : ι → Type} (names : ι → Bytes) (conv : (i : ι) → Conv (T i)) (lexer : Option Lexer)
    (r : Request) (a : ι × List Value) : Prop :=
  (∃ named, Means lexer r ⟨names a.1, a.2, named⟩) ∧ ∀ v, a.2 = [v] → ∃ x, (conv a.1).fromString v = .ok x

/-- One access. Nothing else of the program changes. -/
theorem access_one {ι : Type} [DecidableEq ι] {T : ι → Type} {names : ι → Bytes} {conv : (i : ι) → Conv (T i)}
    {refs : (i : ι) → VarRef W (T i)} (hsep : Separate refs) (hb : BindsVariables P ops s names conv refs)
    {a : ι × List Value} (hr : AccessRequest names conv s.lexer req a) :
    ∃ s' out ans, (nested P ops catching (fuel + 1) depth).exec s req = .ok (s', out) ∧ answerOf out = some ans ∧
      Access conv names (fun i => (refs i).read s.user) a.1 a.2 (fun i => (refs i).read s'.user) ans ∧
      ∃ w c, s' = { s with user := w, calls := c } := by
  obtain ⟨i, args⟩ := a
  obtain ⟨⟨named, hm⟩, hdef⟩ := hr
  obtain ⟨d0, d1, g, t, hd, hnul, h2⟩ := hb i
  simp only [variableDefs, List.cons.injEq, and_true] at hd
  obtain ⟨rfl, rfl⟩ := hd
  rw [exec_means hm]
  match args, hm, hdef with
  | [], hm, _ =>
    refine ⟨{ s with calls := s.calls ++ [(depth, g.id)] }, _, _, (executeInput_called_def h2.ne_nil h2.found
      (h2.first0 rfl) h2.live0 h2.def0 (xs := ()) (by simp [ConvertTo])).2 ⟨[], .ret ((refs i).read s.user), ?_, rfl⟩,
      rfl, .read, s.user, _, rfl⟩
    exact .get .ret
  | [v], hm, hdef =>
    obtain ⟨x, hx⟩ := hdef v rfl
    cases x with
    | ok x =>
      refine ⟨{ s with user := (refs i).write x s.user, calls := s.calls ++ [(depth, t.id)] }, _, _,
        (executeInput_called_def h2.ne_nil h2.found (h2.first1 rfl rfl) h2.live1 h2.def1 (xs := (x, ())) ?_).2
          ⟨[], .ret x, ?_, rfl⟩, rfl, ?_, _, _, rfl⟩
      · simp only [ConvertTo]
        exact ⟨hx, trivial⟩
      · refine .get (.set (.get ?_))
        have := hsep.same i x s.user
        simp only [this]
        exact .ret
      · refine .write hx (hsep.same i x s.user) ?_
        intro j hj
        exact hsep.other i j x s.user (Ne.symm hj)
    | error m =>
      have he : conversionErrors [⟨T i, conv i⟩] [v] = [m] := by simp [conversionErrors, hx]
      have hr := executeInput_rejected (P := P) (catching := catching) (ne := nested P ops catching fuel (depth + 1))
        (depth := depth) (input := ⟨names i, [v], named⟩) h2.ne_nil h2.found (h2.first1 rfl rfl) h2.live1
        (by rw [h2.def1]; exact ⟨⟨_, hx⟩, trivial⟩) (by rw [h2.def1]; simp [he])
      refine ⟨s, _, _, hr, rfl, ?_, s.user, s.calls, rfl⟩
      simp only [h2.def1, he]
      exact .reject hx
  | v :: v' :: rest, hm, _ =>
    have hk : 2 ≤ (v :: v' :: rest).length := by simp
    refine ⟨s, _, _, h2.count rfl rfl (input := ⟨names i, v :: v' :: rest, named⟩) rfl hnul hk, rfl, .count hk, s.user,
      s.calls, rfl⟩

/-- **C34.** Any sequence of requests to variables behaves like reads and writes of a store. -/
theorem C34_store {ι : Type} [DecidableEq ι] {T : ι → Type} {names : ι → Bytes} {conv : (i : ι) → Conv (T i)}
    {refs : (i : ι) → VarRef W (T i)} (hsep : Separate refs) (hb : BindsVariables P ops s names conv refs)
    {reqs : List Request} {as : List (ι × List Value)} (hr : Forall2 (AccessRequest names conv s.lexer) reqs as) :
    ∃ s' outs answers, executeAll P ops catching (fuel + 1) s reqs = .ok (s', outs) ∧
      outs.map answerOf = answers.map some ∧
      Accesses conv names (fun i => (refs i).read s.user) as (fun i => (refs i).read s'.user) answers ∧
      ∃ w c, s' = { s with user := w, calls := c } := by
  generalize hlx : s.lexer = lx at hr
  induction hr generalizing s with
  | nil => exact ⟨s, [], [], rfl, rfl, .nil, s.user, s.calls, by rw [← hlx]⟩
  | cons h _ ih =>
    rw [← hlx] at h
    obtain ⟨s1, o, ans, h1, h2, h3, w, c, h4⟩ := access_one (catching := catching) (fuel := fuel) (depth := 0) hsep hb h
    have hb1 : BindsVariables P ops s1 names conv refs := by
      intro i
      obtain ⟨d0, d1, g, t, a, b, c⟩ := hb i
      subst h4
      exact ⟨d0, d1, g, t, a, b, ⟨c.1, c.2, c.3, c.4, c.5, c.6⟩⟩
    obtain ⟨s2, outs, answers, g1, g2, g3, w', c', g4⟩ := ih hb1 (by subst h4; exact hlx)
    refine ⟨s2, o :: outs, ans :: answers, ?_, by simp [h2, g2], .cons h3 g3, w', c', by rw [g4, h4]⟩
    have h1' : execute P ops catching (fuel + 1) s _ = .ok (s1, o) := h1
    simp only [executeAll, h1', g1, Res.bind_ok]

/-- The two forms of a variable, for the example. -/
example : Separate (ι := Fin 2) (T := fun _ => Int) (fun i => if i = 0 then Demo.refA else Demo.refB) := by
  constructor
  · intro i x w
    by_cases h : i = 0 <;> simp [h, Demo.refA, Demo.refB]
  · intro i j x w hij
    by_cases h : i = 0 <;> by_cases h' : j = 0 <;> simp [h, h', Demo.refA, Demo.refB]
    all_goals omega

example : Demo.exec3 ["a", "a 5", "a x", "f", "f TRUE", "a", "a 1 2", "f"] =
    .ok ([Demo.fine "1", Demo.fine "5", Demo.wrong ["Unable to convert 'x' to type 'int'"], Demo.fine "false",
      Demo.fine "true", Demo.fine "5", Demo.wrong ["Wrong number of arguments to 'a': expected 0 or 1, got 2"],
      Demo.fine "true"], (5, 2, true)) := by decide +kernel

/-! ## C35 -/

/-- **C35.** Whatever is asked of a read-only variable, the program state does not change; and an attempt to set it
has an error and no return value. -/
theorem C35_variable {conv : Conv T} {read : W → T} (hd : constVariableDefs conv read = [d0, d1])
    (h2 : TwoForms P ops s name d0 d1 g t) (hm : Means s.lexer req input) (hn : input.name = name)
    (h : (nested P ops catching fuel depth).exec s req = .ok (s', out)) :
    s'.user = s.user ∧ s'.reg = s.reg ∧
      (input.arguments.length = 1 → ∃ res, out = .ok res ∧ res.errors ≠ [] ∧ res.returnValue = none) := by
  subst hn
  simp only [constVariableDefs, List.cons.injEq, and_true] at hd
  obtain ⟨rfl, rfl⟩ := hd
  obtain ⟨fuel, rfl, -⟩ := exec_ok h
  rw [exec_means hm] at h
  rcases executeInput_cases h with ⟨h0, _⟩ | ⟨_, hf, _⟩ | ⟨_, cmd, hf, hno, rfl, rfl⟩ |
      ⟨_, cmd, f, hf, hs, hl, _, he, rfl, rfl⟩ | ⟨_, cmd, f, xs, es, e, hf, hs, hl, hx, hr, rfl⟩
  · exact absurd h0 h2.ne_nil
  · rw [h2.found] at hf
    cases hf
  · exact ⟨rfl, rfl, fun _ => ⟨_, rfl, by simp, rfl⟩⟩
  · exact ⟨rfl, rfl, fun _ => ⟨_, rfl, he, rfl⟩⟩
  · rw [h2.found] at hf
    cases hf
    obtain ⟨pre, post, hsplit, hlen, hpre⟩ := hs
    have hf : f = g ∨ f = t := by
      have : f ∈ [g, t] := by rw [show [g, t] = pre ++ f :: post from hsplit]; simp
      simpa using this
    rcases hf with rfl | rfl
    · have h0 := h2.def0
      generalize P f.code = d at *
      subst h0
      cases hr with
      | get hr =>
        cases hr
        refine ⟨rfl, rfl, ?_⟩
        intro h1
        simp only at hlen
        rw [← hlen] at h1
        simp at h1
    · have h1 := h2.def1
      generalize P f.code = d at *
      subst h1
      cases hr with
      | reportError hr =>
        cases hr with
        | get hr =>
          cases hr
          exact ⟨rfl, rfl, fun _ => ⟨_, rfl, by simp [errorsOf], by simp [errorsOf]⟩⟩

/-- **C35.** A read-only property (a getter only): reading and any attempt to set it run at most the getter, and an attempt to set
it has an error and no return value, unless the getter throws out of `execute`. -/
theorem C35_property {conv : Conv T} {getter : Prog W C D T} (hd : constPropertyDefs conv getter = [d0, d1])
    (h2 : TwoForms P ops s name d0 d1 g t) (hm : Means s.lexer req input) (hn : input.name = name)
    (h : (nested P ops catching fuel depth).exec s req = .ok (s', out)) :
    (s' = s ∨ ∃ f past es e, Runs ops (nested P ops catching (fuel - 1) (depth + 1)) f input.namedArguments past getter
        { s with calls := s.calls ++ [(depth, f.id)] } es e s') ∧
      ∀ res, out = .ok res → input.arguments.length = 1 →
        lit "This property is read-only" ∈ res.errors ∧ res.returnValue = none := by
  subst hn
  simp only [constPropertyDefs, List.cons.injEq, and_true] at hd
  obtain ⟨rfl, rfl⟩ := hd
  obtain ⟨fuel, rfl, -⟩ := exec_ok h
  rw [exec_means hm] at h
  rcases executeInput_cases h with ⟨h0, _⟩ | ⟨_, hf, _⟩ | ⟨_, cmd, hf, hno, rfl, rfl⟩ |
      ⟨_, cmd, f, hf, hs, hl, _, he, rfl, rfl⟩ | ⟨_, cmd, f, xs, es, e, hf, hs, hl, hx, hr, rfl⟩
  · exact absurd h0 h2.ne_nil
  · rw [h2.found] at hf
    cases hf
  · refine ⟨.inl rfl, ?_⟩
    intro res _ h1
    rw [h2.found] at hf
    cases hf
    exact absurd (by rw [h2.def1, h1]; rfl) (hno t (by simp))
  · refine ⟨.inl rfl, ?_⟩
    intro res _ h1
    rw [h2.found] at hf
    cases hf
    have := selectLoop_some.2 (h2.first1 rfl rfl)
    rw [← h1, selectLoop_some.2 hs] at this
    cases this
    rw [h2.def1] at he
    obtain ⟨v, hv⟩ := List.length_eq_one_iff.1 h1
    rw [hv] at he
    simp [conversionErrors, valueConv] at he
  · rw [h2.found] at hf
    cases hf
    obtain ⟨pre, post, hsplit, hlen, hpre⟩ := hs
    have hf : f = g ∨ f = t := by
      have : f ∈ [g, t] := by rw [show [g, t] = pre ++ f :: post from hsplit]; simp
      simpa using this
    rcases hf with rfl | rfl
    · have h0 := h2.def0
      generalize P f.code = d at *
      subst h0
      refine ⟨.inr ⟨f, _, es, e, hr⟩, ?_⟩
      intro res _ h1
      simp only at hlen
      rw [← hlen] at h1
      simp at h1
    · have h1 := h2.def1
      generalize P f.code = d at *
      subst h1
      cases hr with
      | reportError hr =>
        rename_i es
        refine ⟨.inr ⟨f, _, es, e, hr⟩, ?_⟩
        intro res hres _
        cases e with
        | ret r =>
          simp only [endResult, Except.ok.injEq] at hres
          subst hres
          simp [errorsOf]
        | exn x =>
          cases catching with
          | true =>
            simp only [endResult, if_true, Except.ok.injEq] at hres
            subst hres
            simp [errorsOf]
          | false => simp [endResult] at hres

/-- **C35.** In particular a property whose getter only reads never changes the program state. -/
theorem C35_property_unchanged {conv : Conv T} {read : W → T}
    (hd : constPropertyDefs conv (.get fun w => .ret (read w)) = [d0, d1])
    (h2 : TwoForms P ops s name d0 d1 g t) (hm : Means s.lexer req input) (hn : input.name = name)
    (h : (nested P ops catching fuel depth).exec s req = .ok (s', out)) : s'.user = s.user ∧ s'.reg = s.reg := by
  rcases (C35_property hd h2 hm hn h).1 with rfl | ⟨f, past, es, e, hr⟩
  · exact ⟨rfl, rfl⟩
  · cases hr with
    | get hr =>
      cases hr
      exact ⟨rfl, rfl⟩

/-- **C35.** A read-only bound property: as above, except that a value that does not convert is reported instead. -/
theorem C35_bound_property {conv : Conv T} {getter : Prog W C D T} (hd : constBoundPropertyDefs conv getter = [d0, d1])
    (h2 : TwoForms P ops s name d0 d1 g t) (hm : Means s.lexer req input) (hn : input.name = name)
    (h : (nested P ops catching fuel depth).exec s req = .ok (s', out)) :
    (s' = s ∨ ∃ f past es e, Runs ops (nested P ops catching (fuel - 1) (depth + 1)) f input.namedArguments past getter
        { s with calls := s.calls ++ [(depth, f.id)] } es e s') ∧
      ∀ res, out = .ok res → input.arguments.length = 1 → res.errors ≠ [] ∧ res.returnValue = none := by
  subst hn
  simp only [constBoundPropertyDefs, List.cons.injEq, and_true] at hd
  obtain ⟨rfl, rfl⟩ := hd
  obtain ⟨fuel, rfl, -⟩ := exec_ok h
  rw [exec_means hm] at h
  rcases executeInput_cases h with ⟨h0, _⟩ | ⟨_, hf, _⟩ | ⟨_, cmd, hf, hno, rfl, rfl⟩ |
      ⟨_, cmd, f, hf, hs, hl, _, he, rfl, rfl⟩ | ⟨_, cmd, f, xs, es, e, hf, hs, hl, hx, hr, rfl⟩
  · exact absurd h0 h2.ne_nil
  · rw [h2.found] at hf
    cases hf
  · refine ⟨.inl rfl, ?_⟩
    intro res hres _
    cases hres
    exact ⟨by simp, rfl⟩
  · refine ⟨.inl rfl, ?_⟩
    intro res hres h1
    cases hres
    exact ⟨he, rfl⟩
  · rw [h2.found] at hf
    cases hf
    obtain ⟨pre, post, hsplit, hlen, hpre⟩ := hs
    have hf : f = g ∨ f = t := by
      have : f ∈ [g, t] := by rw [show [g, t] = pre ++ f :: post from hsplit]; simp
      simpa using this
    rcases hf with rfl | rfl
    · have h0 := h2.def0
      generalize P f.code = d at *
      subst h0
      refine ⟨.inr ⟨f, _, es, e, hr⟩, ?_⟩
      intro res _ h1
      simp only at hlen
      rw [← hlen] at h1
      simp at h1
    · have h1 := h2.def1
      generalize P f.code = d at *
      subst h1
      cases hr with
      | reportError hr =>
        rename_i es
        refine ⟨.inr ⟨f, _, es, e, hr⟩, ?_⟩
        intro res hres _
        cases e with
        | ret r =>
          simp only [endResult, Except.ok.injEq] at hres
          subst hres
          simp [errorsOf]
        | exn x =>
          cases catching with
          | true =>
            simp only [endResult, if_true, Except.ok.injEq] at hres
            subst hres
            simp [errorsOf]
          | false => simp [endResult] at hres

example : Demo.exec3 ["c", "c 7", "c x", "c", "r", "r 1", "r (1 2)", "c 1 2"] =
    .ok ([Demo.fine "2", Demo.wrong ["This variable is read-only"], Demo.wrong ["Unable to convert 'x' to type 'int'"],
      Demo.fine "2", Demo.fine "1" "get;", Demo.wrong ["This property is read-only"] "get;",
      Demo.wrong ["This property is read-only"] "get;",
      Demo.wrong ["Wrong number of arguments to 'c': expected 0 or 1, got 2"]], (1, 2, false)) := by decide +kernel

/-- **C35.** The answers of a read-only variable: its value without an argument, one error otherwise. -/
theorem C35_answers {conv : Conv T} {read : W → T} (hd : constVariableDefs conv read = [d0, d1])
    (h2 : TwoForms P ops s name d0 d1 g t) (hnul : NulFree name) {args : List Value} {named : List (GNamed Bytes)}
    (hm : Means s.lexer req ⟨name, args, named⟩) (hdef : ∀ v, args = [v] → ∃ x, conv.fromString v = .ok x) :
    ∃ c out, (nested P ops catching (fuel + 1) depth).exec s req = .ok ({ s with calls := c }, out) ∧
      (args = [] → answerOf out = some ⟨[], some (conv.toString (read s.user))⟩) ∧
      (∀ v x, args = [v] → conv.fromString v = .ok (.ok x) → answerOf out = some ⟨[lit "This variable is read-only"], none⟩) ∧
      (∀ v m, args = [v] → conv.fromString v = .ok (.error m) → answerOf out = some ⟨[m], none⟩) ∧
      (2 ≤ args.length → answerOf out = some
        ⟨[lit "Wrong number of arguments to '" ++ name ++ lit "': expected 0 or 1, got " ++ natDec args.length], none⟩) := by
  simp only [constVariableDefs, List.cons.injEq, and_true] at hd
  obtain ⟨rfl, rfl⟩ := hd
  rw [exec_means hm]
  match args, hm, hdef with
  | [], hm, _ =>
    refine ⟨s.calls ++ [(depth, g.id)], _, (executeInput_called_def h2.ne_nil h2.found
      (h2.first0 rfl) h2.live0 h2.def0 (xs := ()) (by simp [ConvertTo])).2 ⟨[], .ret (read s.user), .get .ret, rfl⟩, fun _ => rfl, ?_, ?_, ?_⟩ <;>
    simp
  | [v], hm, hdef =>
    obtain ⟨x, hx⟩ := hdef v rfl
    cases x with
    | ok x =>
      refine ⟨s.calls ++ [(depth, t.id)], _, (executeInput_called_def h2.ne_nil h2.found (h2.first1 rfl rfl) h2.live1 h2.def1 (xs := (x, ())) ?_).2
        ⟨_, .ret (read s.user), .reportError (.get .ret), rfl⟩, by simp, ?_, ?_, by simp⟩
      · simp only [ConvertTo]
        exact ⟨hx, trivial⟩
      · intro v' x' _ _
        simp [answerOf, endResult, errorsOf]
      · intro v' m hv hm
        cases hv
        rw [hx] at hm
        cases hm
    | error m =>
      have he : conversionErrors [⟨T, conv⟩] [v] = [m] := by simp [conversionErrors, hx]
      have hr := executeInput_rejected (P := P) (catching := catching) (ne := nested P ops catching fuel (depth + 1))
        (depth := depth) (input := ⟨name, [v], named⟩) h2.ne_nil h2.found (h2.first1 rfl rfl) h2.live1
        (by rw [h2.def1]; exact ⟨⟨_, hx⟩, trivial⟩) (by rw [h2.def1]; simp [he])
      refine ⟨s.calls, _, hr, by simp, ?_, ?_, by simp⟩
      · intro v' x' hv hm
        cases hv
        rw [hx] at hm
        cases hm
      · intro v' m' hv hm
        cases hv
        rw [hx] at hm
        cases hm
        simp only [h2.def1, he]
        rfl
  | v :: v' :: rest, hm, _ =>
    have hk : 2 ≤ (v :: v' :: rest).length := by simp
    exact ⟨s.calls, _, h2.count rfl rfl (input := ⟨name, v :: v' :: rest, named⟩) rfl hnul hk, by simp, by simp, by simp, fun _ => rfl⟩

/-! ## C36 -/

/-- **C36.** Reading a property runs the getter and nothing else. -/
theorem C36_read {conv : Conv T} {getter : Prog W C D T} {setter : T → Prog W C D Unit}
    (hd : propertyDefs conv getter setter = [d0, d1]) (h2 : TwoForms P ops s name d0 d1 g t)
    (hm : Means s.lexer req input) (hn : input.name = name) (ha : input.arguments = []) :
    (nested P ops catching (fuel + 1) depth).exec s req = .ok (s', out) ↔
      ∃ es e, Runs ops (nested P ops catching fuel (depth + 1)) g input.namedArguments [] getter
          { s with calls := s.calls ++ [(depth, g.id)] } es e s' ∧
        out = endResult catching input (some conv.toString) es e := by
  subst hn
  simp only [propertyDefs, List.cons.injEq, and_true] at hd
  obtain ⟨rfl, rfl⟩ := hd
  rw [exec_means hm]
  exact executeInput_called_def h2.ne_nil h2.found (by rw [ha]; exact (h2.first0 rfl)) h2.live0 h2.def0 (xs := ())
    (by rw [ha]; trivial)

/-- **C36.** Setting a property to a value that converts runs the setter once with the converted value, and then, unless the setter throws, the
getter, whose value is the return value. -/
theorem C36_write {conv : Conv T} {getter : Prog W C D T} {setter : T → Prog W C D Unit}
    (hd : propertyDefs conv getter setter = [d0, d1]) (h2 : TwoForms P ops s name d0 d1 g t)
    (hm : Means s.lexer req input) (hn : input.name = name) {v : Value} (ha : input.arguments = [v]) {x : T}
    (hx : conv.fromString v = .ok (.ok x)) :
    (nested P ops catching (fuel + 1) depth).exec s req = .ok (s', out) ↔
      (∃ es ex, Runs ops (nested P ops catching fuel (depth + 1)) t input.namedArguments [] (setter x)
          { s with calls := s.calls ++ [(depth, t.id)] } es (.exn ex) s' ∧
        out = endResult catching input (some conv.toString) es (.exn ex)) ∨
      ∃ es1 s1 es2 e, Runs ops (nested P ops catching fuel (depth + 1)) t input.namedArguments [] (setter x)
          { s with calls := s.calls ++ [(depth, t.id)] } es1 (.ret ()) s1 ∧
        Runs ops (nested P ops catching fuel (depth + 1)) t input.namedArguments es1 getter s1 es2 e s' ∧
        out = endResult catching input (some conv.toString) (es1 ++ es2) e := by
  subst hn
  simp only [propertyDefs, List.cons.injEq, and_true] at hd
  obtain ⟨rfl, rfl⟩ := hd
  rw [exec_means hm]
  rw [executeInput_called_def h2.ne_nil h2.found (by rw [ha]; exact (h2.first1 rfl rfl)) h2.live1 h2.def1 (xs := (x, ()))
    (by rw [ha]; exact ⟨hx, trivial⟩)]
  constructor
  · rintro ⟨es, e, hr, rfl⟩
    rcases Runs.of_bind (p := setter x) (f := fun _ => getter) hr with ⟨ex, rfl, hr'⟩ | ⟨⟨⟩, s1, es1, es2, h1, h2, rfl⟩
    · exact .inl ⟨es, ex, hr', rfl⟩
    · exact .inr ⟨es1, s1, es2, e, h1, by simpa using h2, rfl⟩
  · rintro (⟨es, ex, hr, rfl⟩ | ⟨es1, s1, es2, e, h1, h2, rfl⟩)
    · exact ⟨es, .exn ex, hr.bind_exn, rfl⟩
    · exact ⟨es1 ++ es2, e, h1.bind_ret (by simpa using h2), rfl⟩

/-- **C36.** A value that does not convert runs neither getter nor setter. -/
theorem C36_reject {conv : Conv T} {getter : Prog W C D T} {setter : T → Prog W C D Unit}
    (hd : propertyDefs conv getter setter = [d0, d1]) (h2 : TwoForms P ops s name d0 d1 g t)
    (hm : Means s.lexer req input) (hn : input.name = name) {v : Value} (ha : input.arguments = [v]) {m : Bytes}
    (hx : conv.fromString v = .ok (.error m)) :
    (nested P ops catching (fuel + 1) depth).exec s req = .ok (s, .ok ⟨input, [m], none, []⟩) := by
  subst hn
  simp only [propertyDefs, List.cons.injEq, and_true] at hd
  obtain ⟨rfl, rfl⟩ := hd
  have he : conversionErrors [⟨T, conv⟩] [v] = [m] := by simp [conversionErrors, hx]
  rw [exec_means hm]
  have := executeInput_rejected (P := P) (catching := catching) (ne := nested P ops catching fuel (depth + 1))
        (depth := depth) (input := input) h2.ne_nil h2.found (by rw [ha]; exact (h2.first1 rfl rfl)) h2.live1
        (by rw [ha, h2.def1]; exact ⟨⟨_, hx⟩, trivial⟩) (by rw [ha, h2.def1]; simp [he])
  rw [this, ha, h2.def1, he]

example : Demo.exec3 ["p", "p 7", "p 700", "p -1", "p x"] =
    .ok ([Demo.fine "1" "get;", Demo.fine "7" "set;get;", Demo.fine "100" "set;get;",
      Demo.wrong ["Exception caught during execution: negative"], Demo.wrong ["Unable to convert 'x' to type 'int'"]],
      (100, 2, false)) := by decide +kernel

/-! ## C37 -/

section Named

variable {ne : Nested S W C D} {self : Inst C D} {l : List Named} {past : List CtxEvent}

/-- Each key is there or not. -/
theorem C37_dichotomy (key : Bytes) (l : List Named) : NotNamed key l ∨ ∃ v, FirstNamed key l v := by
  cases h : namedFind key l with
  | none => exact .inl (namedFind_none.1 h)
  | some nv => exact .inr ⟨_, (namedFind_some h).2⟩

/-- **C37.** `get(key)` gives the value of the first named argument with the key, and does nothing else. -/
theorem C37_found {key : Bytes} {v : Value} (h : FirstNamed key (namedAfter l past) v) {es : List CtxEvent}
    {e : End (Except NamedError Value)} :
    Runs ops ne self l past (namedGet key) s es e s' ↔ es = [] ∧ e = .ret (.ok v) ∧ s' = s := by
  constructor
  · intro hr
    cases hr with
    | named hr =>
      simp only [namedFind_first h] at hr
      cases hr
      exact ⟨rfl, rfl, rfl⟩
  · rintro ⟨rfl, rfl, rfl⟩
    refine .named ?_
    simp only [namedFind_first h]
    exact .ret

/-- **C37.** It reports a missing key exactly when no named argument has it. -/
theorem C37_missing {key : Bytes} (h : NotNamed key (namedAfter l past)) {es : List CtxEvent}
    {e : End (Except NamedError Value)} :
    Runs ops ne self l past (namedGet key) s es e s' ↔
      es = [] ∧ e = .ret (.error (.missingKey (lit "Missing named argument '" ++ cstr key ++ lit "'"))) ∧ s' = s := by
  constructor
  · intro hr
    cases hr with
    | named hr =>
      simp only [namedFind_none.2 h] at hr
      cases hr
      exact ⟨rfl, rfl, rfl⟩
  · rintro ⟨rfl, rfl, rfl⟩
    refine .named ?_
    simp only [namedFind_none.2 h]
    exact .ret

/-- **C37.** The typed `get<T>(key)`: the converted value, or a mismatch with the conversion's error. -/
theorem C37_typed {conv : Conv T} {key : Bytes} {v : Value} (h : FirstNamed key (namedAfter l past) v)
    {r : Except Bytes T} (hc : conv.fromString v = .ok r) {es : List CtxEvent} {e : End (Except NamedError T)} :
    Runs ops ne self l past (namedGetT conv key) s es e s' ↔
      es = [] ∧ s' = s ∧ (∀ x, r = .ok x → e = .ret (.ok x)) ∧
        (∀ m, r = .error m → e = .ret (.error (.typeMismatch m))) := by
  constructor
  · intro hr
    rcases hr.of_bind with ⟨x, _, hr⟩ | ⟨r', s1, es1, es2, h1, h2, rfl⟩
    · obtain ⟨_, h2, _⟩ := (C37_found h).1 hr
      cases h2
    · obtain ⟨rfl, h3, rfl⟩ := (C37_found h).1 h1
      cases h3
      simp only [hc, Prog.ofRes, Prog.bind] at h2
      cases r with
      | ok x =>
        cases h2
        exact ⟨rfl, rfl, by simp, by simp⟩
      | error m =>
        cases h2
        exact ⟨rfl, rfl, by simp, by simp⟩
  · rintro ⟨rfl, rfl, h1, h2⟩
    refine Runs.bind_ret (es1 := []) (es2 := []) ((C37_found h).2 ⟨rfl, rfl, rfl⟩) ?_
    simp only [hc, Prog.ofRes, Prog.bind]
    cases r with
    | ok x => rw [h1 x rfl]; exact .ret
    | error m => rw [h2 m rfl]; exact .ret

/-- **C37.** The typed `get<T>(key)` of a missing key. -/
theorem C37_typed_missing {conv : Conv T} {key : Bytes} (h : NotNamed key (namedAfter l past)) {es : List CtxEvent}
    {e : End (Except NamedError T)} :
    Runs ops ne self l past (namedGetT conv key) s es e s' ↔
      es = [] ∧ e = .ret (.error (.missingKey (lit "Missing named argument '" ++ cstr key ++ lit "'"))) ∧ s' = s := by
  constructor
  · intro hr
    rcases hr.of_bind with ⟨x, _, hr⟩ | ⟨r', s1, es1, es2, h1, h2, rfl⟩
    · obtain ⟨_, h2, _⟩ := (C37_missing h).1 hr
      cases h2
    · obtain ⟨rfl, h3, rfl⟩ := (C37_missing h).1 h1
      cases h3
      cases h2
      exact ⟨rfl, rfl, rfl⟩
  · rintro ⟨rfl, rfl, rfl⟩
    exact Runs.bind_ret (es1 := []) (es2 := []) ((C37_missing h).2 ⟨rfl, rfl, rfl⟩) .ret

example : FirstNamed (lit "k") [⟨lit "j", ⟨[lit "1"]⟩⟩, ⟨lit "k", ⟨[lit "2"]⟩⟩, ⟨lit "k", ⟨[lit "3"]⟩⟩] ⟨[lit "2"]⟩ :=
  ⟨[_], [_], rfl, by decide⟩

/-! ## C38 -/

/-- **C38.** A present and convertible argument. -/
theorem C38_present {conv : Conv T} {key : Bytes} {v : Value} (h : FirstNamed key (namedAfter l past) v)
    {x : T} (hc : conv.fromString v = .ok (.ok x)) (required : Bool) (dflt : Option T) {es : List CtxEvent}
    {e : End (Option T)} :
    Runs ops ne self l past (namedGetOrReportT conv key required dflt) s es e s' ↔
      es = [] ∧ e = .ret (some x) ∧ s' = s := by
  constructor
  · intro hr
    rcases hr.of_bind with ⟨x, _, hr⟩ | ⟨r', s1, es1, es2, h1, h2, rfl⟩
    · obtain ⟨_, _, h2, _⟩ := (C37_typed h hc).1 hr
      cases h2 _ rfl
    · obtain ⟨rfl, rfl, h3, _⟩ := (C37_typed h hc).1 h1
      cases h3 _ rfl
      cases h2
      exact ⟨rfl, rfl, rfl⟩
  · rintro ⟨rfl, rfl, rfl⟩
    exact Runs.bind_ret (es1 := []) (es2 := []) (r := .ok x) ((C37_typed h hc).2 ⟨rfl, rfl, by simp, by simp⟩) .ret

/-- **C38.** A missing optional argument: the default, without an error. -/
theorem C38_default {conv : Conv T} {key : Bytes} (h : NotNamed key (namedAfter l past)) (dflt : Option T)
    {es : List CtxEvent} {e : End (Option T)} :
    Runs ops ne self l past (namedGetOrReportT conv key false dflt) s es e s' ↔ es = [] ∧ e = .ret dflt ∧ s' = s := by
  constructor
  · intro hr
    rcases hr.of_bind with ⟨x, _, hr⟩ | ⟨r', s1, es1, es2, h1, h2, rfl⟩
    · obtain ⟨_, h2, _⟩ := (C37_typed_missing h).1 hr
      cases h2
    · obtain ⟨rfl, h3, rfl⟩ := (C37_typed_missing h).1 h1
      cases h3
      cases h2
      exact ⟨rfl, rfl, rfl⟩
  · rintro ⟨rfl, rfl, rfl⟩
    exact Runs.bind_ret (es1 := []) (es2 := []) ((C37_typed_missing h).2 ⟨rfl, rfl, rfl⟩) .ret

/-- **C38.** A missing required argument: one error, nothing returned, also if there is a default. -/
theorem C38_required {conv : Conv T} {key : Bytes} (h : NotNamed key (namedAfter l past)) (hnul : NulFree key)
    (dflt : Option T) {es : List CtxEvent} {e : End (Option T)} :
    Runs ops ne self l past (namedGetOrReportT conv key true dflt) s es e s' ↔
      es = [.error (lit "Missing named argument '" ++ key ++ lit "'")] ∧ e = .ret none ∧ s' = s := by
  constructor
  · intro hr
    rcases hr.of_bind with ⟨x, _, hr⟩ | ⟨r', s1, es1, es2, h1, h2, rfl⟩
    · obtain ⟨_, h2, _⟩ := (C37_typed_missing h).1 hr
      cases h2
    · obtain ⟨rfl, h3, rfl⟩ := (C37_typed_missing h).1 h1
      cases h3
      simp only [cstr_of_nulFree hnul, if_true] at h2
      cases h2 with
      | reportError h2 =>
        cases h2
        exact ⟨rfl, rfl, rfl⟩
  · rintro ⟨rfl, rfl, rfl⟩
    refine Runs.bind_ret (es1 := []) ((C37_typed_missing h).2 ⟨rfl, rfl, rfl⟩) ?_
    simp only [cstr_of_nulFree hnul, if_true]
    exact .reportError .ret

/-- **C38.** A present argument that does not convert is always reported, and never defaulted. -/
theorem C38_mismatch {conv : Conv T} {key : Bytes} {v : Value} (h : FirstNamed key (namedAfter l past) v)
    {m : Bytes} (hc : conv.fromString v = .ok (.error m)) (required : Bool) (dflt : Option T) {es : List CtxEvent}
    {e : End (Option T)} :
    Runs ops ne self l past (namedGetOrReportT conv key required dflt) s es e s' ↔
      es = [.error m] ∧ e = .ret none ∧ s' = s := by
  constructor
  · intro hr
    rcases hr.of_bind with ⟨x, _, hr⟩ | ⟨r', s1, es1, es2, h1, h2, rfl⟩
    · obtain ⟨_, _, _, h2⟩ := (C37_typed h hc).1 hr
      cases h2 _ rfl
    · obtain ⟨rfl, rfl, _, h3⟩ := (C37_typed h hc).1 h1
      cases h3 _ rfl
      cases h2 with
      | reportError h2 =>
        cases h2
        exact ⟨rfl, rfl, rfl⟩
  · rintro ⟨rfl, rfl, rfl⟩
    exact Runs.bind_ret (es1 := []) (r := .error (.typeMismatch m)) ((C37_typed h hc).2 ⟨rfl, rfl, by simp, by simp⟩)
      (.reportError .ret)

/-- **C38.** The untyped `getOrReport(key, argType)`: the value if present; otherwise nothing, with one error exactly if the argument is required. -/
theorem C38_untyped (key : Bytes) (required : Bool) {es : List CtxEvent} {e : End (Option Value)}
    (hr : Runs ops ne self l past (namedGetOrReport key required) s es e s') :
    s' = s ∧ ((∃ v, FirstNamed key (namedAfter l past) v ∧ e = .ret (some v) ∧ es = []) ∨
      (NotNamed key (namedAfter l past) ∧ e = .ret none ∧
        es = if required then [.error (lit "Missing named argument '" ++ cstr key ++ lit "'")] else [])) := by
  rcases C37_dichotomy key (namedAfter l past) with h | ⟨v, h⟩
  · rcases hr.of_bind with ⟨x, _, hr⟩ | ⟨r', s1, es1, es2, h1, h2, rfl⟩
    · obtain ⟨_, h2, _⟩ := (C37_missing h).1 hr
      cases h2
    · obtain ⟨rfl, h3, rfl⟩ := (C37_missing h).1 h1
      cases h3
      cases required with
      | true =>
        cases h2 with
        | reportError h2 =>
          cases h2
          exact ⟨rfl, .inr ⟨h, rfl, rfl⟩⟩
      | false =>
        cases h2
        exact ⟨rfl, .inr ⟨h, rfl, rfl⟩⟩
  · rcases hr.of_bind with ⟨x, _, hr⟩ | ⟨r', s1, es1, es2, h1, h2, rfl⟩
    · obtain ⟨_, h2, _⟩ := (C37_found h).1 hr
      cases h2
    · obtain ⟨rfl, h3, rfl⟩ := (C37_found h).1 h1
      cases h3
      cases h2
      exact ⟨rfl, .inl ⟨v, h, rfl, rfl⟩⟩

end Named

example : Demo.exec3 ["n m=1", "n m=1 n=2 n=3", "n", "n n=x m=1", "n m=y"] =
    .ok ([Demo.fine "6", Demo.fine "3", Demo.wrong ["Missing named argument 'm'"],
      Demo.wrong ["Unable to convert 'x' to type 'int'"], Demo.wrong ["Unable to convert 'y' to type 'int'"]],
      (1, 2, false)) := by decide +kernel

end Coil
