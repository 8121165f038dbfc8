import Verif.Proofs.ConsoleRun
import Verif.Props.Independent

/-!
# The console of the examples (C90)

`examples/main.cpp` as it is, on the hash map as it is: the program only adds commands.
-/

namespace Coil
open Spec Spec.Console Console

variable {X : Type} {es : List (Sample X)} {fixed charSigned catching : Bool} {exceeds : Nat → Nat → Bool} {cfg : LexCfg} {fuel : Nat} {x x' : X}
  {lines : List Bytes} {rest text : Bytes} {e : Ending} {n : Nat}

/-- The registry of the program. -/
abbrev Console.Reg : Type := UMap Bytes (Command Code Unit)

/-- The program after `n` rounds, with nested executions up to the given depth. -/
abbrev Console.console (es : List (Sample X)) (fixed charSigned : Bool) (exceeds : Nat → Nat → Bool) (catching : Bool) (depth : Nat) (cfg : LexCfg)
    (x : X) (input : Bytes) (n : Nat) : Res (Status Console.Reg X) :=
  Console.main es (mapOps fixed charSigned exceeds) (UMap.create (djb2 charSigned) 1) catching depth (lexRead cfg) x input n

/-- The program has printed `out`, left the examples in the state `x`, and waits or has ended. -/
def Console.Stands {S : Type} (out : Bytes) (x : X) : Ending → Status S X → Prop
  | .waits, .looping s _ => s.user.out = out ∧ s.user.state = x
  | .exited, .ended s => s.user.out = out ∧ s.user.state = x
  | .died e, .terminated s e' => e' = e ∧ s.user.out = out ∧ s.user.state = x
  | _, _ => False

theorem Console.main_rounds (hp : Proper cfg) (hs : Sensible (delims cfg) es) (hhelp : ReadsAs (delims cfg) (lit "help") (.ok ⟨lit "help", [], []⟩))
    (hex : ∀ b, 0 < b → exceeds 1 b = false) :
    ∃ s, (∀ input n, console es fixed charSigned exceeds catching (fuel + 2) cfg x input n =
        Console.rounds es (mapOps fixed charSigned exceeds) catching (fuel + 2) n (.looping s input)) ∧
      Ready es (mapOps fixed charSigned exceeds) (lexRead cfg) s ∧ s.user = ⟨false, helpText es, x⟩ := by
  obtain ⟨m, h1, h2⟩ := map_made (C := Code) (D := Unit) (fixed := fixed) (charSigned := charSigned) (exceeds := exceeds)
  obtain ⟨s0, g1, g2, g3⟩ := setup_ready (map_implements hex) h2 (n := es.length + 3) (fun h hh _ => .inr hh.safe) hs (Nat.le_refl _) (lexRead cfg) x
  have ha : Answers (delims cfg) catching es s0.user.state (lit "help") ⟨helpText es, s0.user.state, false, none⟩ := by
    have := Answers.command (catching := catching) (es := es) (x := s0.user.state) hhelp
    have e1 : lit "help" ≠ [] := by decide +kernel
    simpa [reply, e1] using this
  obtain ⟨s1, k1, k2, k3⟩ := line_reply (fuel := fuel) hp hs g2 ha
  refine ⟨s1, fun input n => ?_, k2, ?_⟩
  · simp only [Console.console, Console.main, h1, g1, k1, Res.bind_ok, check, k3, g3, Bool.or_self, Bool.false_eq_true, if_false]
  · rw [k3, g3]
    simp

/-- **C90.** Whatever the input is: if the semantics of the console gives the lines of the input a transcript, the program prints it, after
the help text. Only as many lines are read as the transcript says, and the examples are left in the state it says. -/
theorem C90_session (hp : Proper cfg) (hs : Sensible (delims cfg) es) (hhelp : ReadsAs (delims cfg) (lit "help") (.ok ⟨lit "help", [], []⟩))
    (hex : ∀ b, 0 < b → exceeds 1 b = false) (hl : ∀ l ∈ lines, OneLine l) (hr : OneLine rest)
    (h : Session (delims cfg) catching es x (firstLines lines rest n) text x' e) :
    ∃ st, console es fixed charSigned exceeds catching (fuel + 2) cfg x (asInput lines rest) n = .ok st ∧ Stands (helpText es ++ text) x' e st := by
  obtain ⟨s, h1, h2, h3⟩ := main_rounds (fixed := fixed) (charSigned := charSigned) (catching := catching) (fuel := fuel) (x := x) hp hs hhelp hex
  obtain ⟨i', hy⟩ := yields_asInput hl hr n
  obtain ⟨st, g1, g2⟩ := session_rounds (fuel := fuel) hp hs h hy h2 h3
  rw [firstLines_length] at g1
  refine ⟨st, (h1 _ _).trans g1, ?_⟩
  cases e with
  | waits =>
    obtain ⟨s', rfl, _, hu⟩ := g2
    simp [Stands, hu]
  | exited =>
    obtain ⟨s', rfl, hu⟩ := g2
    simp [Stands, hu]
  | died err =>
    obtain ⟨s', rfl, hu1, hu2⟩ := g2
    exact ⟨rfl, hu1, hu2⟩

/-- A line that the program can deal with: it fits in memory and no compound value in it contains a lone quote (C02). -/
def Console.Harmless (d : Delims) (line : Bytes) : Prop := line.length < 2 ^ 64 - 1 ∧ ¬ LoneQuoteCommand d line

theorem Console.answers_total {d : Delims} {line : Bytes} (h : Harmless d line) (x : X) : ∃ r, Answers d catching es x line r := by
  rcases command_total (d := d) line with ⟨i, hi⟩ | ⟨m, hm⟩ | hq
  · exact ⟨_, .command ⟨h.1, hi⟩⟩
  · exact ⟨_, .wrong ⟨h.1, hm⟩⟩
  · exact absurd hq h.2

/-- **C90 (defined).** Every list of harmless lines has a transcript. -/
theorem C90_defined {d : Delims} (h : ∀ l ∈ lines, Harmless d l) : ∃ text x' e, Session d catching es x lines text x' e := by
  induction lines generalizing x with
  | nil => exact ⟨_, _, _, .waits⟩
  | cons l lines ih =>
    obtain ⟨r, hr⟩ := answers_total (catching := catching) (es := es) (h l (List.mem_cons_self ..)) x
    cases hd : r.dies with
    | some err => exact ⟨_, _, _, .dies hr hd⟩
    | none =>
      cases he : r.exit with
      | true => exact ⟨_, _, _, .exit hr he hd⟩
      | false =>
        obtain ⟨text, x', e, hs⟩ := ih (x := r.state) (fun l' h' => h l' (List.mem_cons_of_mem _ h'))
        exact ⟨_, _, _, .line hr he hd hs⟩

/-! ## When the program ends -/

theorem Console.reply_exit {i : Input} (h : (reply catching es x i).exit = true) : i.name = lit "exit" ∧ i.arguments = [] := by
  unfold reply at h
  split at h
  · cases h
  · split at h
    · cases h
    · split at h
      · cases h
      · rename_i ha
        split at h
        · cases h
        · split at h
          · rename_i hn
            exact ⟨hn, Decidable.not_not.1 ha⟩
          · split at h
            · rw [runEach_exit] at h; cases h
            · split at h
              · cases h
              · unfold runOne at h
                split at h
                · cases h
                · split at h <;> cases h

theorem Console.reply_alive {i : Input} : (reply true es x i).dies = none := by
  unfold reply
  repeat' split
  all_goals try rfl
  · exact runEach_dies ..
  · unfold runOne
    split
    · rfl
    · rfl

theorem Console.exit_reply {named : List Named} : reply catching es x ⟨lit "exit", [], named⟩ = ⟨[], x, true, none⟩ := by
  have e1 : lit "exit" ≠ [] := by decide +kernel
  have e2 : lit "exit" ≠ lit "help" := by decide +kernel
  simp [reply, e1, e2]

theorem Console.answers_exit (hp : Proper cfg) {line : Bytes} {r : Reply X} (h : Answers (delims cfg) catching es x line r) :
    r.exit = true ↔ AsksExit (delims cfg) line := by
  constructor
  · intro he
    cases h with
    | wrong _ => cases he
    | command hi =>
      obtain ⟨h1, h2⟩ := reply_exit he
      rename_i i
      obtain ⟨nm, as, named⟩ := i
      dsimp only at h1 h2
      subst h1 h2
      exact ⟨named, hi⟩
  · rintro ⟨named, hlen, hn⟩
    cases h with
    | wrong hw =>
      have e1 := (lexRead_ok_iff hp hlen).2 hn
      rw [(lexRead_error_iff hp hlen).2 hw.2] at e1
      cases e1
    | command hi =>
      have e1 := (lexRead_ok_iff hp hlen).2 hn
      rw [(lexRead_ok_iff hp hlen).2 hi.2] at e1
      cases e1
      rw [exit_reply]

theorem Console.session_end (hp : Proper cfg) (h : Session (delims cfg) true es x lines text x' e) :
    (e = .exited ∧ ∃ l ∈ lines, AsksExit (delims cfg) l) ∨ (e = .waits ∧ ∀ l ∈ lines, ¬ AsksExit (delims cfg) l) := by
  induction h with
  | waits => exact .inr ⟨rfl, by simp⟩
  | line ha he _ _ ih =>
    rcases ih with ⟨h1, l, h2, h3⟩ | ⟨h1, h2⟩
    · exact .inl ⟨h1, l, List.mem_cons_of_mem _ h2, h3⟩
    · refine .inr ⟨h1, fun l hl => ?_⟩
      rcases List.mem_cons.1 hl with rfl | hl
      · rw [← answers_exit hp ha, he]; simp
      · exact h2 l hl
  | exit ha he _ => exact .inl ⟨rfl, _, List.mem_cons_self .., (answers_exit hp ha).1 he⟩
  | dies ha hd =>
    cases ha with
    | wrong _ => cases hd
    | command _ => rw [reply_alive] at hd; cases hd

theorem Console.empty_reads (d : Delims) : ReadsAs d [] (.ok ⟨[], [], []⟩) := ⟨by decide, [], .nil, .empty⟩

theorem Console.empty_harmless (hp : Proper cfg) : Harmless (delims cfg) [] := by
  refine ⟨by decide, fun h => ?_⟩
  have h1 := (lexRead_ub_iff hp (s := []) (by decide)).2 ⟨rfl, h⟩
  rw [(lexRead_ok_iff hp (by decide)).2 (empty_reads (delims cfg)).2] at h1
  cases h1

theorem Console.firstLines_mem {l : Bytes} (h : l ∈ firstLines lines rest n) : l ∈ lines ++ [rest] ∨ l = [] := by
  have := List.mem_of_mem_take h
  rcases List.mem_append.1 this with h1 | h1
  · exact .inl (List.mem_append_left _ h1)
  · rcases List.mem_cons.1 h1 with rfl | h1
    · exact .inl (by simp)
    · exact .inr (List.mem_replicate.1 h1).2

theorem Console.empty_stays (hp : Proper cfg) : ¬ AsksExit (delims cfg) [] := by
  rintro ⟨named, hl, h⟩
  have h1 := (lexRead_ok_iff hp hl).2 h
  rw [(lexRead_ok_iff hp hl).2 (empty_reads (delims cfg)).2] at h1
  have : ([] : Bytes) = lit "exit" := by
    simp only [Res.ok.injEq, Except.ok.injEq, GInput.mk.injEq] at h1
    exact h1.1
  exact absurd this (by decide +kernel)

/-- **C90 (exit).** When exceptions are caught and the lines are harmless, the program ends exactly if some line asks it to exit. -/
theorem C90_exit_partial (hp : Proper cfg) (hs : Sensible (delims cfg) es) (hhelp : ReadsAs (delims cfg) (lit "help") (.ok ⟨lit "help", [], []⟩))
    (hex : ∀ b, 0 < b → exceeds 1 b = false) (hl : ∀ l ∈ lines, OneLine l) (hr : OneLine rest)
    (hh : ∀ l ∈ lines ++ [rest], Harmless (delims cfg) l) :
    (∃ n s, console es fixed charSigned exceeds true (fuel + 2) cfg x (asInput lines rest) n = .ok (.ended s)) ↔
      ∃ l ∈ lines ++ [rest], AsksExit (delims cfg) l := by
  have hsess : ∀ n, ∃ text x' e, Session (delims cfg) true es x (firstLines lines rest n) text x' e := fun n =>
    C90_defined (fun l h => (firstLines_mem h).elim (hh l) (fun h => h ▸ empty_harmless hp))
  constructor
  · rintro ⟨n, s, h⟩
    obtain ⟨text, x', e, hse⟩ := hsess n
    obtain ⟨st, h1, h2⟩ := C90_session (fixed := fixed) (charSigned := charSigned) (fuel := fuel) hp hs hhelp hex hl hr hse
    rw [h] at h1
    cases h1
    rcases session_end hp hse with ⟨_, l, g1, g2⟩ | ⟨rfl, _⟩
    · rcases firstLines_mem g1 with g | rfl
      · exact ⟨l, g, g2⟩
      · exact absurd g2 (empty_stays hp)
    · exact h2.elim
  · rintro ⟨l, g1, g2⟩
    obtain ⟨text, x', e, hse⟩ := hsess (lines.length + 1)
    obtain ⟨st, h1, h2⟩ := C90_session (fixed := fixed) (charSigned := charSigned) (fuel := fuel) hp hs hhelp hex hl hr hse
    have he : firstLines lines rest (lines.length + 1) = lines ++ [rest] := by
      simp [firstLines, List.take_append, List.take_of_length_le]
    rw [he] at hse
    rcases session_end hp hse with ⟨rfl, _⟩ | ⟨_, hno⟩
    · refine ⟨lines.length + 1, ?_⟩
      rw [h1]
      cases st with
      | ended s => exact ⟨s, rfl⟩
      | looping s i => exact h2.elim
      | terminated s e => exact h2.elim
    · exact absurd g2 (hno l g1)

/-- What the program prints again and again after the end of the input. -/
def Console.nag : Bytes := lit ">>> Error: No function name is specified\n"

theorem Console.nag_session {d : Delims} (k : Nat) : Session d true es x (List.replicate k []) (List.replicate k nag).flatten x .waits := by
  induction k with
  | zero => exact .waits
  | succ k ih =>
    have ha : Answers d true es x [] (complain x (lit "No function name is specified")) := by
      have := Answers.command (catching := true) (es := es) (x := x) (empty_reads d)
      simpa [reply] using this
    have := Session.line ha rfl rfl ih
    have hn : lit ">>> " ++ (complain x (lit "No function name is specified")).text = nag := by
      show lit ">>> " ++ (lit "Error: " ++ lit "No function name is specified" ++ lit "\n") = nag
      decide +kernel
    rw [hn] at this
    simpa [List.replicate_succ] using this

theorem Console.session_append {d : Delims} {l1 l2 : List Bytes} {t1 t2 : Bytes} {x1 x2 : X} (h1 : Session d catching es x l1 t1 x1 .waits)
    (h2 : Session d catching es x1 l2 t2 x2 e) : Session d catching es x (l1 ++ l2) (t1 ++ t2) x2 e := by
  generalize hw : Ending.waits = w at h1
  induction h1 with
  | waits => simpa using h2
  | line ha he hd _ ih =>
    have := Session.line ha he hd (ih h2 hw)
    simpa [List.append_assoc] using this
  | exit _ _ _ => cases hw
  | dies _ _ => cases hw

/-- **C90 is false at the end of the input**: if no line asks the program to exit, it never ends. After the last line it complains about a
missing name for ever. -/
theorem C90_end_of_input_false (hp : Proper cfg) (hs : Sensible (delims cfg) es)
    (hhelp : ReadsAs (delims cfg) (lit "help") (.ok ⟨lit "help", [], []⟩))
    (hex : ∀ b, 0 < b → exceeds 1 b = false) (hl : ∀ l ∈ lines, OneLine l) (hr : OneLine rest)
    (hh : ∀ l ∈ lines ++ [rest], Harmless (delims cfg) l) (hno : ∀ l ∈ lines ++ [rest], ¬ AsksExit (delims cfg) l) :
    ∃ text, ∀ k, ∃ s input, console es fixed charSigned exceeds true (fuel + 2) cfg x (asInput lines rest) (lines.length + 1 + k) =
      .ok (.looping s input) ∧ s.user.out = text ++ (List.replicate k nag).flatten := by
  obtain ⟨text, x', e, hse⟩ := C90_defined (catching := true) (es := es) (x := x) hh
  have hw : e = .waits := by
    rcases session_end hp hse with ⟨_, l, g1, g2⟩ | ⟨h, _⟩
    · exact absurd g2 (hno l g1)
    · exact h
  subst hw
  refine ⟨helpText es ++ text, fun k => ?_⟩
  have hk := session_append hse (nag_session (es := es) (x := x') (d := delims cfg) k)
  have he : firstLines lines rest (lines.length + 1 + k) = lines ++ [rest] ++ List.replicate k [] := by
    have h1 : lines.length + 1 + k - lines.length = k + 1 := by omega
    simp only [firstLines, List.take_append, h1, List.take_succ_cons, List.take_replicate, List.append_assoc, List.cons_append, List.nil_append]
    rw [List.take_of_length_le (by omega)]
    congr 3
    omega
  rw [← he] at hk
  obtain ⟨st, h1, h2⟩ := C90_session (fixed := fixed) (charSigned := charSigned) (fuel := fuel) hp hs hhelp hex hl hr hk
  cases st with
  | looping s i => exact ⟨s, i, h1, by rw [h2.1, List.append_assoc]⟩
  | ended s => exact h2.elim
  | terminated s e => exact h2.elim

/-- **C90 (undefined).** A line with a lone quote in a compound value is undefined behaviour, when it is read. -/
theorem C90_lone_quote_false (hp : Proper cfg) (hs : Sensible (delims cfg) es)
    (hhelp : ReadsAs (delims cfg) (lit "help") (.ok ⟨lit "help", [], []⟩)) (hex : ∀ b, 0 < b → exceeds 1 b = false)
    (hl : ∀ l ∈ lines, OneLine l) (h : Session (delims cfg) catching es x lines text x' .waits) {line : Bytes} (hline : OneLine line)
    (hlen : line.length < 2 ^ 64 - 1) (hq : LoneQuoteCommand (delims cfg) line) (more : Bytes) (k : Nat) :
    console es fixed charSigned exceeds catching (fuel + 2) cfg x (asInput (lines ++ [line]) more) (lines.length + 1 + k) = .ub .oobRead := by
  obtain ⟨s, h1, h2, h3⟩ := main_rounds (fixed := fixed) (charSigned := charSigned) (catching := catching) (fuel := fuel) (x := x) hp hs hhelp hex
  have hy : ∀ (ls : List Bytes) (rest : Bytes), (∀ l ∈ ls, OneLine l) → Yields (asInput ls rest) ls rest := by
    intro ls rest hls
    induction ls with
    | nil => exact .nil
    | cons l ls ih =>
      have hg := getline_feed (hls l (List.mem_cons_self ..)) (asInput ls rest)
      have := Yields.cons (i := l ++ 10 :: asInput ls rest) (ls := ls) (i' := rest)
        (by rw [hg]; exact ih (fun l' h' => hls l' (List.mem_cons_of_mem _ h')))
      rw [hg] at this
      have e : asInput (l :: ls) rest = l ++ 10 :: asInput ls rest := by simp [asInput]
      rw [e]
      exact this
  have e : asInput (lines ++ [line]) more = asInput lines (line ++ 10 :: more) := by simp [asInput]
  obtain ⟨st, g1, g2⟩ := session_rounds (fuel := fuel) hp hs h (hy lines (line ++ 10 :: more) hl) h2 h3
  obtain ⟨s', rfl, r1, r2⟩ := g2
  rw [h1, e, Nat.add_assoc, rounds_add, g1, Res.bind_ok, Nat.add_comm 1 k, Console.rounds, Console.round, getline_feed hline]
  have hlex : lexRead cfg line = .ub .oobRead := (lexRead_ub_iff hp hlen).2 ⟨rfl, hq⟩
  simp only [runLine, execute, nested, Nested.exec, executeLine, print, r1.lexer, hlex]
  rfl

/-! ## Examples -/

namespace Console

/-- The examples of the program (main.cpp 57-72). They print their names here, `errors` throws. -/
def samples : List (Sample Nat) :=
  ["basic", "variables", "enums", "flags", "variadic", "named", "usertypes", "errors", "compound", "overloading", "properties", "encapsulation",
    "advanced"].map (fun t => ⟨lit t, fun n => (n + 1, lit "<" ++ lit t ++ lit ">\n", if t = "errors" then some (.std (lit "oops")) else none)⟩)

/-- The default syntax. -/
abbrev syntaxOf : LexCfg := LexCfg.default true

theorem reads_name (t : Bytes) (h : lexRead syntaxOf t = .ok (.ok ⟨t, [], []⟩)) (hl : t.length < 2 ^ 64 - 1) :
    ReadsAs (delims syntaxOf) t (.ok ⟨t, [], []⟩) := ⟨hl, (lexRead_ok_iff (proper_default true) hl).1 h⟩

theorem reads_help : ReadsAs (delims syntaxOf) (lit "help") (.ok ⟨lit "help", [], []⟩) :=
  reads_name _ (by decide +kernel) (by decide +kernel)

theorem samples_sensible : Sensible (delims syntaxOf) samples := by
  have h1 : ∀ e ∈ samples, e.name ≠ [] ∧ (∀ c ∈ e.name, c ≠ 0) ∧ lexRead syntaxOf e.name = .ok (.ok ⟨e.name, [], []⟩) ∧
      e.name.length < 2 ^ 64 - 1 := by
    have : ∀ t ∈ samples.map (·.name), t ≠ [] ∧ (∀ c ∈ t, c ≠ 0) ∧ lexRead syntaxOf t = .ok (.ok ⟨t, [], []⟩) ∧ t.length < 2 ^ 64 - 1 := by
      decide +kernel
    exact fun e he => this e.name (List.mem_map_of_mem he)
  refine ⟨fun e he => ⟨(h1 e he).1, (h1 e he).2.1, reads_name _ (h1 e he).2.2.1 (h1 e he).2.2.2⟩, ?_, by decide +kernel⟩
  have : ∀ t ∈ samples.map (·.name), t ≠ lit "help" ∧ t ≠ lit "exit" ∧ t ≠ lit "run_all" := by decide +kernel
  exact fun e he => this e.name (List.mem_map_of_mem he)

/-- The text printed so far and the number of examples that were run. -/
abbrev printed (r : Res (Status Reg Nat)) : Res (Bool × Bytes × Nat) :=
  r.map fun
    | .looping s _ => (true, s.user.out, s.user.state)
    | .ended s => (false, s.user.out, s.user.state)
    | .terminated s _ => (false, s.user.out, s.user.state)

end Console

/-- A session: an unknown name, an example, one that throws, `exit` with an argument, `exit`. The line after it is not read. -/
example : Console.printed (console samples false true overOne true 2 syntaxOf 0
    (lit "foo bar\nbasic\nerrors\nexit now\n  exit  \nbasic\n") 9) =
    .ok (false, helpText samples ++ lit ">>> Error: No function 'foo' is registered\n>>> <basic>\n>>> <errors>\nError: Exception caught during execution: oops\n>>> Error: Wrong number of arguments to 'exit': expected 0, got 1\n>>> ", 2) := by
  decide +kernel

/-- The hypotheses of C90 hold of the program. -/
example (x : Nat) : ∃ n s, console samples false true overOne true 2 syntaxOf x (asInput [lit "run_all", lit "exit"] []) n = .ok (.ended s) := by
  refine (C90_exit_partial (fuel := 0) (proper_default true) samples_sensible reads_help (fun b hb => by simp [overOne]; omega) ?_ ?_ ?_).2
    ⟨lit "exit", by decide +kernel, [], reads_name _ (by decide +kernel) (by decide +kernel)⟩
  · unfold OneLine; decide +kernel
  · unfold OneLine; decide +kernel
  · intro l hl
    have h1 : ∀ l ∈ [lit "run_all", lit "exit", []], l.length < 2 ^ 64 - 1 ∧ lexRead syntaxOf l = .ok (.ok ⟨l, [], []⟩) := by decide +kernel
    obtain ⟨h2, h3⟩ := h1 l hl
    refine ⟨h2, fun hq => ?_⟩
    rw [(lexRead_ub_iff (proper_default true) h2).2 ⟨rfl, hq⟩] at h3
    cases h3

/-- An empty input: the program complains for ever. -/
example : ∃ text, ∀ k, ∃ s input, console samples false true overOne true 2 syntaxOf 0 [] (0 + 1 + k) = .ok (.looping s input) ∧
    s.user.out = text ++ (List.replicate k nag).flatten :=
  C90_end_of_input_false (fuel := 0) (lines := []) (rest := []) (proper_default true) samples_sensible reads_help
    (fun b hb => by simp [overOne]; omega) (by simp) (by unfold OneLine; simp)
    (by simp only [List.nil_append, List.mem_singleton]; rintro l rfl; exact empty_harmless (proper_default true))
    (by simp only [List.nil_append, List.mem_singleton]; rintro l rfl; exact empty_stays (proper_default true))

end Coil
