import Verif.Spec.Console
import Verif.Proofs.Semantics

/-! # The console: helper lemmas -/

namespace Coil
namespace Console
open Spec Spec.Console

variable {X S : Type} {es : List (Sample X)} {ops : RegOps S Code Unit} {catching : Bool} {fuel depth : Nat} {cfg : LexCfg}
  {s : Sys S (Con X) Code Unit}

/-! ## The registry -/

/-- The code of a command. -/
def codeOf (es : List (Sample X)) (name : Bytes) : Option Code :=
  if name = lit "help" then some .help else if name = lit "exit" then some .exit
  else if name = lit "run_all" then some .runAll else (es.findIdx? (fun e => e.name = name)).map .sample

theorem codeOf_help : codeOf es (lit "help") = some .help := if_pos rfl

theorem codeOf_exit : codeOf es (lit "exit") = some .exit := by
  rw [codeOf, if_neg (by decide +kernel), if_pos rfl]

theorem codeOf_runAll : codeOf es (lit "run_all") = some .runAll := by
  rw [codeOf, if_neg (by decide +kernel), if_neg (by decide +kernel), if_pos rfl]

/-- The program is ready for commands. -/
structure Ready (es : List (Sample X)) (ops : RegOps S Code Unit) (lexer : Lexer) (s : Sys S (Con X) Code Unit) : Prop where
  lexer : s.lexer = some lexer
  freed : s.freed = []
  unknown : ∀ name, codeOf es name = none → ops.find s.reg name = .ok none
  known : ∀ name c, codeOf es name = some c → ∃ id, ops.find s.reg name = .ok (some ⟨name, [⟨id, c, ()⟩]⟩)

theorem Ready.of_eq {lexer : Lexer} {s' : Sys S (Con X) Code Unit} (h : Ready es ops lexer s) (h1 : s'.reg = s.reg) (h2 : s'.lexer = s.lexer)
    (h3 : s'.freed = s.freed) : Ready es ops lexer s' :=
  ⟨h2 ▸ h.lexer, h3 ▸ h.freed, h1 ▸ h.unknown, h1 ▸ h.known⟩

/-- What stays the same while commands run. -/
structure Same (s s' : Sys S (Con X) Code Unit) : Prop where
  reg : s'.reg = s.reg
  lexer : s'.lexer = s.lexer
  freed : s'.freed = s.freed

theorem Same.refl (s : Sys S (Con X) Code Unit) : Same s s := ⟨rfl, rfl, rfl⟩

theorem Same.trans {s1 s2 s3 : Sys S (Con X) Code Unit} (h : Same s1 s2) (h' : Same s2 s3) : Same s1 s3 :=
  ⟨h'.reg.trans h.reg, h'.lexer.trans h.lexer, h'.freed.trans h.freed⟩

theorem Ready.same {lexer : Lexer} {s' : Sys S (Con X) Code Unit} (h : Ready es ops lexer s) (hs : Same s s') : Ready es ops lexer s' :=
  h.of_eq hs.reg hs.lexer hs.freed

/-- A command without arguments that is known is called. -/
theorem called {lexer : Lexer} (h : Ready es ops lexer s) {name : Bytes} {c : Code} (hn : name ≠ []) (hc : codeOf es name = some c)
    {named : List Named} {ne : Nested S (Con X) Code Unit} {evs : List CtxEvent} {e : End Unit} {w : Con X}
    (hr : ∀ id s0, Same s s0 → s0.user = s.user → ∃ s', Runs ops ne ⟨id, c, ()⟩ named [] ((program es c).body ()) s0 evs e s' ∧ Same s0 s' ∧
      s'.user = w) :
    ∃ s', executeInput (program es) ops catching ne depth s ⟨name, [], named⟩ =
      .ok (s', endResult catching ⟨name, [], named⟩ (program es c).print evs e) ∧ Same s s' ∧ s'.user = w := by
  obtain ⟨id, hf⟩ := h.known name c hc
  obtain ⟨s', h1, h2, h3⟩ := hr id { s with calls := s.calls ++ [(depth, id)] } ⟨rfl, rfl, rfl⟩ rfl
  refine ⟨s', ?_, (⟨rfl, rfl, rfl⟩ : Same s { s with calls := s.calls ++ [(depth, id)] }).trans h2, h3⟩
  refine (executeInput_called (P := program es) (input := ⟨name, [], named⟩) (f := ⟨id, c, ()⟩) hn hf ⟨[], [], rfl, rfl, by simp⟩ (by simp [h.freed]) (xs := ()) trivial).2 ⟨evs, e, h1, rfl⟩

/-! ## The functions -/

theorem codeOf_sample (hs : Sensible d es) {e : Sample X} {i : Nat} (hi : es[i]? = some e) : codeOf es e.name = some (.sample i) := by
  have hm : e ∈ es := List.mem_of_getElem? hi
  obtain ⟨h1, h2, h3⟩ := hs.fresh e hm
  simp only [codeOf, h1, h2, h3, if_false]
  have : es.findIdx? (fun x => decide (x.name = e.name)) = some i := by
    obtain ⟨hlt, rfl⟩ := List.getElem?_eq_some_iff.1 hi
    rw [List.findIdx?_eq_some_iff_getElem]
    refine ⟨hlt, by simp, fun j hj => ?_⟩
    have hd := hs.distinct
    rw [List.nodup_iff_pairwise_ne, List.pairwise_iff_getElem] at hd
    have := hd j i (by simp; omega) (by simpa using hlt) hj
    simpa using this
  simp [this]

/-- The calls that `help` makes to its context. -/
def helpEvents (es : List (Sample X)) : List CtxEvent :=
  .logline (lit "Available examples:") :: es.map (fun e => .log (lit "    " ++ cstr e.name ++ lit "\n")) ++
    [.logline [], .logline (lit "Type the example name to run it"), .logline (lit "Type 'help' for this help"),
      .logline (lit "Type 'exit' to exit"), .logline []]

theorem helpLoop_runs {ne : Nested S (Con X) Code Unit} {self : Inst Code Unit} {l : List Named} {k : Prog (Con X) Code Unit Unit}
    {s0 s' : Sys S (Con X) Code Unit} {evs : List CtxEvent} {e : End Unit} (hk : ∀ past, Runs ops ne self l past k s0 evs e s') (past : List CtxEvent) :
    Runs ops ne self l past (helpLoop es k) s0 (es.map (fun e => .log (lit "    " ++ cstr e.name ++ lit "\n")) ++ evs) e s' := by
  induction es generalizing past with
  | nil => exact hk past
  | cons a es ih => exact .log (ih _)

theorem help_runs {ne : Nested S (Con X) Code Unit} {self : Inst Code Unit} {l : List Named} (s0 : Sys S (Con X) Code Unit) :
    Runs ops ne self l [] (helpBody es) s0 (helpEvents es) (.ret ()) s0 := by
  refine .logline ?_
  exact helpLoop_runs (fun past => .logline (.logline (.logline (.logline (.logline .ret))))) _

theorem errorsOf_logs (es : List (Sample X)) (rest : List CtxEvent) :
    errorsOf (es.map (fun e => .log (lit "    " ++ cstr e.name ++ lit "\n")) ++ rest) = errorsOf rest := by
  induction es with
  | nil => rfl
  | cons e es ih => simpa [errorsOf] using ih

theorem help_errors (es : List (Sample X)) : errorsOf (helpEvents es) = [] := by
  simp only [helpEvents, List.cons_append, errorsOf, errorsOf_logs]

theorem cstr_nulFree {t : Bytes} (h : ∀ c ∈ t, c ≠ 0) : cstr t = t := cstr_of_nulFree (fun h0 => h 0 h0 rfl)

theorem help_output (es : List (Sample X)) (h : ∀ e ∈ es, ∀ c ∈ e.name, c ≠ 0) : outputOf (helpEvents es) = helpText es := by
  have hm : ∀ l : List (Sample X), (∀ e ∈ l, ∀ c ∈ e.name, c ≠ 0) →
      ((l.map (fun e => CtxEvent.log (lit "    " ++ cstr e.name ++ lit "\n"))).map CtxEvent.text).flatten =
        l.flatMap (fun e => lit "    " ++ e.name ++ lit "\n") := by
    intro l hl
    induction l with
    | nil => rfl
    | cons e l ih =>
      simp only [List.map_cons, List.flatten_cons, List.flatMap_cons, CtxEvent.text]
      rw [cstr_nulFree (hl e (List.mem_cons_self ..)), ih (fun e' he' => hl e' (List.mem_cons_of_mem _ he'))]
  have h1 : lit "Available examples:\n" = lit "Available examples:" ++ lit "\n" := by decide +kernel
  have h2 : lit "\nType the example name to run it\nType 'help' for this help\nType 'exit' to exit\n\n" =
      lit "\n" ++ (lit "Type the example name to run it" ++ lit "\n" ++ (lit "Type 'help' for this help" ++ lit "\n" ++
        (lit "Type 'exit' to exit" ++ lit "\n" ++ lit "\n"))) := by decide +kernel
  simp only [helpEvents, outputOf, helpText, List.cons_append, List.map_cons, List.map_append, List.flatten_cons, List.flatten_append, hm es h,
    CtxEvent.text, List.map_nil, List.flatten_nil, h1, h2, List.append_nil, List.nil_append]
  simp only [List.append_assoc]

/-- How an example ends. -/
def sampleEnd (e : Sample X) (x : X) : End Unit :=
  match (e.run x).2.2 with
  | none => .ret ()
  | some err => .exn err

theorem sample_runs {ne : Nested S (Con X) Code Unit} {self : Inst Code Unit} {l : List Named} {e : Sample X} {i : Nat} (hi : es[i]? = some e)
    (s0 : Sys S (Con X) Code Unit) :
    Runs ops ne self l [] (sampleBody es i) s0 [] (sampleEnd e s0.user.state)
      { s0 with user := { s0.user with out := s0.user.out ++ (e.run s0.user.state).2.1, state := (e.run s0.user.state).1 } } := by
  simp only [sampleBody, hi, sampleEnd]
  refine .get (.set ?_)
  cases (e.run s0.user.state).2.2 with
  | none => exact .ret
  | some err => exact .throw

theorem sample_called {lexer : Lexer} (hs : Sensible d es) (h : Ready es ops lexer s) {e : Sample X} {i : Nat} (hi : es[i]? = some e)
    {named : List Named} {ne : Nested S (Con X) Code Unit} :
    ∃ s', executeInput (program es) ops catching ne depth s ⟨e.name, [], named⟩ =
      .ok (s', endResult catching ⟨e.name, [], named⟩ (none : Option (Unit → Bytes)) [] (sampleEnd e s.user.state)) ∧ Same s s' ∧
      s'.user = { s.user with out := s.user.out ++ (e.run s.user.state).2.1, state := (e.run s.user.state).1 } := by
  refine called h (hs.words e (List.mem_of_getElem? hi)).1 (codeOf_sample hs hi) ?_
  intro id s0 h1 h2
  rw [← h2]
  exact ⟨_, sample_runs hi s0, ⟨rfl, rfl, rfl⟩, rfl⟩

/-- A result that makes the caller stop. -/
def thrown : ExecOut → Option Exn
  | .ok _ => none
  | .error x => some x

theorem endResult_thrown {input : Input} {p : Option (Unit → Bytes)} {evs : List CtxEvent} (e : Sample X) (x : X) :
    thrown (endResult catching input p evs (sampleEnd e x)) = if catching then none else (e.run x).2.2 := by
  unfold sampleEnd
  cases (e.run x).2.2 <;> cases catching <;> rfl

/-- How `run_all` ends. -/
def eachEnd (r : Reply X) : End Unit :=
  match r.dies with
  | none => .ret ()
  | some err => .exn err

theorem each_runs (hp : Proper cfg) (hs : Sensible (delims cfg) es) {self : Inst Code Unit} {l : List Named} (rest : List (Sample X)) (k : Nat)
    (hk : es.drop k = rest) (s0 : Sys S (Con X) Code Unit) (h : Ready es ops (lexRead cfg) s0) :
    ∃ s', Runs ops (nested (program es) ops catching (fuel + 1) depth) self l [] (runAllBody rest) s0 []
      (eachEnd (runEach catching rest s0.user.state)) s' ∧ Same s0 s' ∧
      s'.user = { s0.user with out := s0.user.out ++ (runEach catching rest s0.user.state).text,
                               state := (runEach catching rest s0.user.state).state } := by
  induction rest generalizing k s0 with
  | nil => exact ⟨s0, .ret, Same.refl s0, by simp [runEach]⟩
  | cons e rest ih =>
    have hi : es[k]? = some e := by
      have := congrArg (fun l : List (Sample X) => l[0]?) hk
      simpa using this
    have hlex : lexRead cfg e.name = .ok (.ok ⟨e.name, [], []⟩) := by
      obtain ⟨_, _, h1, h2⟩ := hs.words e (List.mem_of_getElem? hi)
      exact (lexRead_ok_iff hp h1).2 h2
    obtain ⟨s1, h1, h2, h3⟩ := sample_called (catching := catching) (depth := depth) (named := [])
      (ne := nested (program es) ops catching fuel (depth + 1)) hs h hi
    have hline : (nested (program es) ops catching (fuel + 1) depth).line s0 e.name =
        .ok (s1, endResult catching ⟨e.name, [], []⟩ (none : Option (Unit → Bytes)) [] (sampleEnd e s0.user.state)) := by
      rw [← h1]
      exact exec_means (req := .line e.name) ⟨_, h.lexer, hlex⟩
    have ht := endResult_thrown (catching := catching) (input := ⟨e.name, [], []⟩) (p := none) (evs := []) e s0.user.state
    generalize endResult catching ⟨e.name, [], []⟩ (none : Option (Unit → Bytes)) [] (sampleEnd e s0.user.state) = o at hline ht
    have hrest := ih (k + 1) (by rw [← List.drop_drop, hk]; rfl) s1 (h.same h2)
    obtain ⟨s2, g1, g2, g3⟩ := hrest
    rw [h3] at g1 g3
    dsimp only at g1 g3
    cases o with
    | ok r =>
      have hgo : runEach catching (e :: rest) s0.user.state =
          { runEach catching rest (e.run s0.user.state).1 with text := (e.run s0.user.state).2.1 ++ (runEach catching rest (e.run s0.user.state).1).text } := by
        cases hc : catching <;> rw [hc] at ht <;> cases he : (e.run s0.user.state).2.2 <;> simp [runEach, he]
        simp [thrown, he] at ht
      refine ⟨s2, .execLine hline ?_, h2.trans g2, ?_⟩
      · rw [hgo]
        exact g1
      · rw [g3, hgo]
        simp
    | error x =>
      have hc : catching = false := by
        cases catching
        · rfl
        · simp [thrown] at ht
      subst hc
      simp only [thrown, Bool.false_eq_true, if_false] at ht
      refine ⟨s1, .execLine hline ?_, h2, ?_⟩
      · simp only [runEach, ← ht, eachEnd]
        exact .throw
      · rw [h3]
        simp [runEach, ← ht]

/-! ## Reactions -/

theorem codeOf_none {name : Bytes} (h : name ∉ [lit "help", lit "exit", lit "run_all"] ++ es.map (·.name)) : codeOf es name = none := by
  simp only [List.mem_append, List.mem_cons, List.not_mem_nil, or_false, not_or, List.mem_map, not_exists, not_and] at h
  obtain ⟨⟨h1, h2, h3⟩, h4⟩ := h
  simp only [codeOf, h1, h2, h3, if_false, Option.map_eq_none_iff, List.findIdx?_eq_none_iff]
  intro e he
  simpa using fun hn => h4 e he hn

theorem codeOf_some {name : Bytes} (h : name ∈ [lit "help", lit "exit", lit "run_all"] ++ es.map (·.name)) : ∃ c, codeOf es name = some c := by
  by_cases h1 : name = lit "help"
  · exact ⟨.help, h1 ▸ codeOf_help⟩
  by_cases h2 : name = lit "exit"
  · exact ⟨.exit, h2 ▸ codeOf_exit⟩
  by_cases h3 : name = lit "run_all"
  · exact ⟨.runAll, h3 ▸ codeOf_runAll⟩
  simp only [List.mem_append, List.mem_cons, List.not_mem_nil, or_false, h1, h2, h3, false_or, List.mem_map] at h
  obtain ⟨e, he, hn⟩ := h
  simp only [codeOf, h1, h2, h3, if_false]
  cases hi : es.findIdx? (fun e => decide (e.name = name)) with
  | some i => exact ⟨.sample i, rfl⟩
  | none =>
    rw [List.findIdx?_eq_none_iff] at hi
    exact absurd hn (by simpa using hi e he)

/-- What is printed about what `execute` gives. -/
def shown : ExecOut → Bytes
  | .ok r => printResult r
  | .error _ => []

/-- The effect of executing a command on the state and on what is printed. -/
structure Reacts (s s' : Sys S (Con X) Code Unit) (o : ExecOut) (r : Reply X) : Prop where
  same : Same s s'
  exit : s'.user.exit = (s.user.exit || r.exit)
  state : s'.user.state = r.state
  out : s'.user.out ++ shown o = s.user.out ++ r.text
  dies : thrown o = r.dies

theorem shown_error (i : Input) (m : Bytes) : shown (.ok ⟨i, [m], none, []⟩) = lit "Error: " ++ m ++ lit "\n" := by
  simp [shown, printResult, printErrors, unfinished]

theorem reacts_complain (i : Input) (m : Bytes) : Reacts s s (.ok ⟨i, [m], none, []⟩) (complain s.user.state m) :=
  ⟨Same.refl s, by simp [complain], rfl, by rw [shown_error]; rfl, rfl⟩

theorem helpText_finished (es : List (Sample X)) : unfinished (helpText es) = false := by
  have : (helpText es).getLast? = some 10 := by
    rw [helpText, List.getLast?_append]
    have : (lit "\nType the example name to run it\nType 'help' for this help\nType 'exit' to exit\n\n").getLast? = some 10 := by decide +kernel
    rw [this]; rfl
  simp [unfinished, this]

theorem reacts_runOne {e : Sample X} {i : Input} {s' : Sys S (Con X) Code Unit} (h2 : Same s s')
    (h3 : s'.user = { s.user with out := s.user.out ++ (e.run s.user.state).2.1, state := (e.run s.user.state).1 }) :
    Reacts s s' (endResult catching i (none : Option (Unit → Bytes)) [] (sampleEnd e s.user.state)) (runOne catching e s.user.state) := by
  unfold runOne sampleEnd
  cases he : (e.run s.user.state).2.2 with
  | none =>
    refine ⟨h2, by simp [h3], by simp [h3], ?_, rfl⟩
    simp [h3, endResult, shown, printResult, printErrors, errorsOf, outputOf, unfinished]
  | some x =>
    cases catching
    · exact ⟨h2, by simp [h3], by simp [h3], by simp [h3, endResult, shown], rfl⟩
    · refine ⟨h2, by simp [h3], by simp [h3], ?_, rfl⟩
      simp [h3, endResult, shown, printResult, printErrors, errorsOf, outputOf, unfinished, caughtText_upToNul]

theorem reacts_runEach {i : Input} {s' : Sys S (Con X) Code Unit} {r : Reply X} (h2 : Same s s') (hx : r.exit = false)
    (h3 : s'.user = { s.user with out := s.user.out ++ r.text, state := r.state }) (hd : catching = true → r.dies = none) :
    Reacts s s' (endResult catching i (none : Option (Unit → Bytes)) [] (eachEnd r)) r := by
  unfold eachEnd
  cases he : r.dies with
  | none =>
    refine ⟨h2, by simp [h3, hx], by simp [h3], ?_, ?_⟩
    · simp [h3, endResult, shown, printResult, printErrors, errorsOf, outputOf, unfinished]
    · rw [he]; rfl
  | some x =>
    cases catching
    · exact ⟨h2, by simp [h3, hx], by simp [h3], by simp [h3, endResult, shown], by rw [he]; rfl⟩
    · rw [hd rfl] at he; cases he

theorem runEach_exit (es : List (Sample X)) (x : X) : (runEach catching es x).exit = false := by
  induction es generalizing x with
  | nil => rfl
  | cons e es ih =>
    unfold runEach
    split
    · rfl
    · exact ih _

theorem runEach_dies (es : List (Sample X)) (x : X) : (runEach true es x).dies = none := by
  induction es generalizing x with
  | nil => rfl
  | cons e es ih =>
    unfold runEach
    split
    · contradiction
    · exact ih _

/-- **One command.** -/
theorem exec_reply (hp : Proper cfg) (hs : Sensible (delims cfg) es) (h : Ready es ops (lexRead cfg) s) (i : Input) :
    ∃ s' o, executeInput (program es) ops catching (nested (program es) ops catching (fuel + 1) (depth + 1)) depth s i = .ok (s', o) ∧
      Reacts s s' o (reply catching es s.user.state i) := by
  unfold reply
  by_cases hn : i.name = []
  · simp only [hn, if_true]
    exact ⟨_, _, executeInput_empty hn, reacts_complain _ _⟩
  simp only [hn, if_false]
  by_cases hk : i.name ∉ [lit "help", lit "exit", lit "run_all"] ++ es.map (·.name)
  · simp only [hk, not_false_eq_true, if_true]
    exact ⟨_, _, executeInput_unknown hn (h.unknown _ (codeOf_none hk)), reacts_complain _ _⟩
  simp only [hk, if_false]
  replace hk : i.name ∈ [lit "help", lit "exit", lit "run_all"] ++ es.map (·.name) := Decidable.not_not.1 hk
  obtain ⟨c, hc⟩ := codeOf_some hk
  by_cases ha : i.arguments = []
  · simp only [ha, ne_eq, not_true_eq_false, if_false]
    obtain ⟨name, args, named⟩ := i
    dsimp only at hn hk hc ha ⊢
    subst ha
    by_cases h1 : name = lit "help"
    · simp only [h1, if_true]
      have hc' : c = .help := by rw [h1, codeOf_help] at hc; simpa using hc.symm
      subst hc'
      obtain ⟨s', e1, e2, e3⟩ := called (catching := catching) (depth := depth) (named := named) (evs := helpEvents es) (e := .ret ())
        (ne := nested (program es) ops catching (fuel + 1) (depth + 1)) (w := s.user) h hn hc
        (fun id s0 g1 g2 => ⟨s0, help_runs s0, Same.refl s0, g2⟩)
      refine ⟨s', _, h1 ▸ e1, e2, by simp [e3], by rw [e3], ?_, rfl⟩
      rw [e3]
      simp only [endResult, help_errors, if_true, shown, printResult, printErrors, program, Option.map_none,
        help_output es (fun e he => (hs.words e he).2.1), helpText_finished]
      simp
    simp only [h1, if_false]
    by_cases h2 : name = lit "exit"
    · simp only [h2, if_true]
      have hc' : c = .exit := by
        rw [h2, codeOf_exit] at hc
        simpa using hc.symm
      subst hc'
      obtain ⟨s', e1, e2, e3⟩ := called (catching := catching) (depth := depth) (named := named) (evs := []) (e := .ret ())
        (ne := nested (program es) ops catching (fuel + 1) (depth + 1)) (w := { s.user with exit := true }) h hn hc
        (fun id s0 g1 g2 => ⟨_, .get (.set .ret), ⟨rfl, rfl, rfl⟩, by simp only [g2]⟩)
      refine ⟨s', _, h2 ▸ e1, e2, by simp [e3], by rw [e3], ?_, rfl⟩
      rw [e3]
      simp [endResult, shown, printResult, printErrors, program, errorsOf, outputOf, unfinished]
    simp only [h2, if_false]
    by_cases h3 : name = lit "run_all"
    · simp only [h3, if_true]
      have hc' : c = .runAll := by
        rw [h3, codeOf_runAll] at hc
        simpa using hc.symm
      subst hc'
      obtain ⟨s', e1, e2, e3⟩ := called (catching := catching) (depth := depth) (named := named) (evs := [])
        (e := eachEnd (runEach catching es s.user.state))
        (ne := nested (program es) ops catching (fuel + 1) (depth + 1))
        (w := { s.user with out := s.user.out ++ (runEach catching es s.user.state).text, state := (runEach catching es s.user.state).state }) h hn hc
        (fun id s0 g1 g2 => by
          have := each_runs (catching := catching) (fuel := fuel) (depth := depth + 1) (self := ⟨id, .runAll, ()⟩) (l := named) hp hs es 0 rfl s0
            (h.same g1)
          rw [g2] at this
          exact this)
      refine ⟨s', _, h3 ▸ e1, reacts_runEach e2 (runEach_exit ..) e3 ?_⟩
      rintro rfl
      exact runEach_dies ..
    simp only [h3, if_false]
    simp only [List.mem_append, List.mem_cons, List.not_mem_nil, or_false, h1, h2, h3, false_or, List.mem_map] at hk
    obtain ⟨e0, he0, hn0⟩ := hk
    cases hf : es.find? (fun e => decide (e.name = name)) with
    | none =>
      rw [List.find?_eq_none] at hf
      exact absurd hn0 (by simpa using hf e0 he0)
    | some e =>
      have he : e ∈ es := List.mem_of_find?_eq_some hf
      have hne : e.name = name := by simpa using List.find?_some hf
      obtain ⟨k, hk⟩ := List.getElem?_of_mem he
      obtain ⟨s', e1, e2, e3⟩ := sample_called (catching := catching) (depth := depth) (named := named)
        (ne := nested (program es) ops catching (fuel + 1) (depth + 1)) hs h hk
      rw [hne] at e1
      exact ⟨s', _, e1, reacts_runOne e2 e3⟩
  · simp only [ha, ne_eq, not_false_eq_true, if_true]
    obtain ⟨id, hf⟩ := h.known _ _ hc
    have hnul : NulFree i.name := by
      simp only [List.mem_append, List.mem_cons, List.not_mem_nil, or_false, List.mem_map] at hk
      rcases hk with (hk | hk | hk) | ⟨e, he, hk⟩
      · rw [hk]; unfold NulFree; decide +kernel
      · rw [hk]; unfold NulFree; decide +kernel
      · rw [hk]; unfold NulFree; decide +kernel
      · rw [← hk]; exact fun h0 => (hs.words e he).2.1 0 h0 rfl
    refine ⟨_, _, executeInput_count hn hf ?_, ?_⟩
    · intro g hg
      simp only [List.mem_singleton] at hg
      subst hg
      intro hl
      exact ha (List.length_eq_zero_iff.1 hl.symm)
    · rw [countError_eq _ hnul]
      have : lit "': expected 0, got " = lit "': expected " ++ natDec 0 ++ lit ", got " := by decide +kernel
      rw [this]
      have := reacts_complain (s := s) i (lit "Wrong number of arguments to '" ++ i.name ++ lit "': expected " ++ natDec 0 ++ lit ", got " ++
        natDec i.arguments.length)
      simpa [countsInWords, arity, program, List.append_assoc] using this

end Console
end Coil
