import Verif.Proofs.ViewsInput
import Verif.Model.UMap
import Verif.Spec.Registry

/-!
# Commands are views of the caller's text (C93)
-/

namespace Coil
open Vw Vw.Spec

variable {S W C D : Type} {V : C → VDef W C D} {P : C → FunctorDef W C D} {ops : RegOps S C D} {catching : Bool} {lex : VLexer} {cfg : LexCfg}
  {fuel : Nat} {m : Mem} {s : Sys S W C D} {cmd : Ref} {t : Bytes}

/-- **C93.** Functions on views that leave the buffers of their callers alone do what the functions on texts do: where executing the text is
defined, executing any view of it is defined and gives the same result, whose command reads as the same text afterwards. The buffers that
existed before are as they were. -/
theorem C93_texts (hP : ∀ c, DefIs (V c) (P c)) (hl : s.lexer = some (textLexer lex)) (hr : m.read cmd = .ok t) :
    (∀ s' o, execute P ops catching fuel s (.line t) = .ok (s', o) →
      ∃ m' vo, vexecute lex V ops catching fuel ⟨m, s⟩ cmd = .ok (⟨m', s'⟩, vo) ∧ Keeps m m' ∧ OutIs m' vo o) ∧
    (execute P ops catching fuel s (.line t) = .diverge → vexecute lex V ops catching fuel ⟨m, s⟩ cmd = .diverge) := by
  have h := (nested_sim (S := S) (ops := ops) (catching := catching) (lex := lex) sameState_lasting hP fuel 0).1 m s s cmd t (.refl m s) hl hr
  refine ⟨fun s' o ho => ?_, fun hd => ?_⟩
  · rw [show (nested P ops catching fuel 0).line s t = .ok (s', o) from ho] at h
    obtain ⟨⟨⟨m', s1⟩, vo⟩, h1, h2, _, h3, h4⟩ := h
    cases h2.eq
    exact ⟨m', vo, h1, h3, h4⟩
  · rw [show (nested P ops catching fuel 0).line s t = .diverge from hd] at h
    exact h

/-- **C93.** Every program on texts is such a program on views: the functions keep the texts they make in strings of their own. So every
theorem about executing texts holds of a program on views, for every lexer configuration and every place of the command in memory. -/
theorem C93_every_program (P : C → FunctorDef W C D) (hl : s.lexer = some (lexRead cfg)) (hr : m.read cmd = .ok t) :
    (∀ s' o, execute P ops catching fuel s (.line t) = .ok (s', o) →
      ∃ m' vo, vexecute (lexParse cfg) (fun c => liftDef (P c)) ops catching fuel ⟨m, s⟩ cmd = .ok (⟨m', s'⟩, vo) ∧ Keeps m m' ∧ OutIs m' vo o) ∧
    (execute P ops catching fuel s (.line t) = .diverge →
      vexecute (lexParse cfg) (fun c => liftDef (P c)) ops catching fuel ⟨m, s⟩ cmd = .diverge) :=
  C93_texts (fun c => liftDef_is (P c)) hl hr

/-- **C93.** A `StringView` parameter is a string parameter whose text is that of the argument, as long as the text is in place. The same for
`Value`. -/
theorem C93_parameters :
    ParamIs .view ⟨Bytes, stringConv⟩ (fun m (r : Ref) (t : Bytes) => m.read r = .ok t) ∧ ParamIs .value ⟨Value, valueConv⟩ (fun m v x => m.readValue v = .ok x) := by
  constructor
  · intro m a a' h
    obtain ⟨rs⟩ := a
    have hv := h
    simp only [Mem.readValue, Res.bind_eq_ok] at h
    obtain ⟨ts, h1, h2⟩ := h
    cases h2
    change m.readList rs = .ok ts at h1
    match rs with
    | [] =>
      cases h1
      exact ⟨(fun h => by cases h), (fun x hx => by simpa [VParam.view, hv, stringConv] using hx), (fun x hx => by cases hx)⟩
    | [r] =>
      simp only [Mem.readList, Res.bind_eq_ok] at h1
      obtain ⟨b, h3, _, h4, h5⟩ := h1
      cases h4
      cases h5
      refine ⟨(fun h => by cases h), (fun x hx => by cases hx), fun x hx => ⟨r, rfl, ?_⟩⟩
      cases hx
      exact h3
    | r :: r' :: rs =>
      simp only [Mem.readList, Res.bind_eq_ok] at h1
      obtain ⟨b, h3, _, ⟨b', h6, bs, h7, h4⟩, h5⟩ := h1
      cases h4
      cases h5
      exact ⟨(fun h => by cases h), (fun x hx => by simpa [VParam.view, hv, stringConv] using hx), (fun x hx => by cases hx)⟩
  · intro m a a' h
    refine ⟨(fun h => by cases h), (fun x hx => by cases hx), fun x hx => ⟨a, rfl, ?_⟩⟩
    cases hx
    exact h

/-! ## The command in the result -/

/-- **C93.** Whatever the functions do with the memory: the name and the positional arguments in the result are the views that the lexer made
of the command, and so are the named arguments if no function assigns to them. -/
theorem C93_views {s s' : VSys S W C D} {r : VResult} (h : vexecute lex V ops catching (fuel + 1) s cmd = .ok (s', .ok r)) :
    ∃ t, s.mem.read cmd = .ok t ∧
      ((∃ e, lex t = .ok (.error e) ∧ r.errors = [lit "Syntax error: " ++ e] ∧ r.input = VResult.empty.input) ∨
        ∃ i, lex t = .ok (.ok i) ∧ r.input.name = (cmd.input i).name ∧ r.input.arguments = (cmd.input i).arguments ∧
          (NoAssignments V → r.input = cmd.input i)) := by
  have h : vexecuteLine lex V ops catching (vnested lex V ops catching fuel 1) 0 s cmd = .ok (s', .ok r) := h
  simp only [vexecuteLine, Res.bind_eq_ok] at h
  obtain ⟨t, h1, o, h2, h3⟩ := h
  refine ⟨t, h1, ?_⟩
  cases o with
  | error e => cases h3; exact .inl ⟨e, h2, rfl, rfl⟩
  | ok i => exact .inr ⟨i, h2, executeInput_input h3⟩

/-- **C93.** The command in the result lies inside the command that was executed, and in every memory in which that text is (still, or again)
in place it reads as what the grammar says, no matter what happened in between and how the function ended. -/
theorem C93_in_place {s s' : VSys S W C D} {r : VResult} {x : Input} (hV : NoAssignments V) (hr : s.mem.read cmd = .ok t)
    (hx : lexRead cfg t = .ok (.ok x)) (h : vexecute (lexParse cfg) V ops catching (fuel + 1) s cmd = .ok (s', .ok r)) :
    (∀ v ∈ viewsOf r.input, Within v cmd) ∧ ∀ m' : Mem, m'.read cmd = .ok t → m'.readInput r.input = .ok x := by
  obtain ⟨i, h1, h2⟩ := lexRead_parse hx
  obtain ⟨t', h3, h4⟩ := C93_views h
  rw [hr] at h3
  cases h3
  rcases h4 with ⟨e, h5, _⟩ | ⟨j, h5, _, _, h6⟩
  · rw [h1] at h5; cases h5
  · rw [h1] at h5
    cases h5
    rw [h6 hV]
    exact ⟨within_input hr h2, fun m' hm => readInput_sub hm h2⟩

/-- **C93.** After the text of the command has been destroyed, reading the name in the result is undefined behaviour (unless the command was
empty), whatever the functions are. -/
theorem C93_destroyed {s s' : VSys S W C D} {r : VResult} {x : Input} (hr : s.mem.read cmd = .ok t)
    (hx : lexRead cfg t = .ok (.ok x)) (hn : x.name ≠ []) (h : vexecute (lexParse cfg) V ops catching (fuel + 1) s cmd = .ok (s', .ok r))
    {m' : Mem} (hm : m'[cmd.buf]? = some none) : m'.read r.input.name = .ub .useAfterFree := by
  obtain ⟨i, h1, h2⟩ := lexRead_parse hx
  obtain ⟨t', h3, h4⟩ := C93_views h
  rw [hr] at h3
  cases h3
  rcases h4 with ⟨e, h5, _⟩ | ⟨j, h5, h6, _⟩
  · rw [h1] at h5; cases h5
  · rw [h1] at h5
    cases h5
    rw [h6]
    simp only [GInput.read, Res.bind_eq_ok] at h2
    obtain ⟨n, h7, a, _, na, _, h8⟩ := h2
    cases h8
    have h9 := read_sub hr h7
    have h10 : ¬ (cmd.input i).name.len = 0 := fun h => hn ((read_empty h9).1 h)
    unfold Mem.read
    rw [if_neg h10]
    have : m'[(cmd.input i).name.buf]? = some none := hm
    rw [this]

/-! ## Functions that do not leave the command alone -/

namespace Vw

/-- Functions for the witnesses; the state of the program is a view that was kept. -/
inductive Demo where
  /-- destroys the text of the command it is called by, which is in the buffer 0 -/
  | drop
  /-- overwrites it, then logs its named argument -/
  | scribble
  /-- destroys it, then logs its named argument -/
  | late
  /-- keeps its argument, a view -/
  | keep
  /-- logs what was kept -/
  | show
  deriving DecidableEq

/-- Logs the named argument of the command. -/
def logNamed : VProg Ref Demo Unit Unit :=
  .named fun
    | [n] => readsThen n.value.subvalues fun ts => .log ts.flatten (.ret ())
    | _ => .ret ()

/-- The code of the functions. -/
def demo : Demo → VDef Ref Demo Unit
  | .drop => ⟨[], Unit, none, fun _ => .free 0 (.ret ())⟩
  | .scribble => ⟨[], Unit, none, fun _ => .write 0 (lit "XXXXXXXXXXXXXXXX") logNamed⟩
  | .late => ⟨[], Unit, none, fun _ => .free 0 logNamed⟩
  | .keep => ⟨[.view], Unit, none, fun a => .set a.1 (.ret ())⟩
  | .show => ⟨[], Unit, none, fun _ => .get fun r => .read r fun t => .log t (.ret ())⟩

/-- The registry of the witnesses: an association list. -/
def listOps {C : Type} : RegOps (List (Command C Unit)) C Unit where
  find l n := .ok (l.find? (fun c => c.name = n))
  put l _ c := .ok (c :: l)
  erase l n := .ok (l.filter (fun c => c.name ≠ n))
  clear _ := []
  all l := l

/-- A program with these functions: a kept view, and the memory. -/
def demoSys (kept : Ref) (m : Mem) : VSys (List (Command Demo Unit)) Ref Demo Unit :=
  ⟨m, ⟨[⟨lit "drop", [⟨0, .drop, ()⟩]⟩, ⟨lit "scribble", [⟨1, .scribble, ()⟩]⟩, ⟨lit "late", [⟨2, .late, ()⟩]⟩, ⟨lit "keep", [⟨3, .keep, ()⟩]⟩,
    ⟨lit "show", [⟨4, .show, ()⟩]⟩], some (lexRead (.default true)), kept, [], 5, [], []⟩⟩

/-- What can be seen of an execution: the memory, the state, errors, output. -/
structure Seen where
  mem : Mem
  kept : Ref
  errors : List Bytes
  output : Bytes
  deriving DecidableEq

/-- Executing a command. -/
abbrev demoRun (kept : Ref) (m : Mem) (command : Ref) : Res (Option Seen) :=
  (vexecute (lexParse (.default true)) demo listOps true 3 (demoSys kept m) command).bind fun p =>
    .ok (match p.2 with
      | .ok r => some ⟨p.1.mem, p.1.sys.user, r.errors, r.output⟩
      | .error _ => none)

end Vw

/-- **C93.** The library does not look at the command after the call: a function may destroy the text of the command it was called by, and
there are no errors. But a function that looks at its named arguments after overwriting the command sees something else, and after
destroying it the behaviour is undefined. A `StringView` that was kept reads as the argument as long as the text is in place, and not after. -/
theorem C93_own_command :
    demoRun ⟨0, 0, 0⟩ [some (lit "drop")] ⟨0, 0, 4⟩ = .ok (some ⟨[none], ⟨0, 0, 0⟩, [], []⟩) ∧
    demoRun ⟨0, 0, 0⟩ [some (lit "scribble k=hello")] ⟨0, 0, 16⟩ =
      .ok (some ⟨[some (lit "XXXXXXXXXXXXXXXX")], ⟨0, 0, 0⟩, [], lit "XXXXX"⟩) ∧
    demoRun ⟨0, 0, 0⟩ [some (lit "late k=hello")] ⟨0, 0, 12⟩ = .ub .useAfterFree ∧
    demoRun ⟨0, 0, 0⟩ [some (lit "keep hello")] ⟨0, 0, 10⟩ = .ok (some ⟨[some (lit "keep hello")], ⟨0, 5, 5⟩, [], []⟩) ∧
    demoRun ⟨0, 5, 5⟩ [some (lit "keep hello"), some (lit "show")] ⟨1, 0, 4⟩ =
      .ok (some ⟨[some (lit "keep hello"), some (lit "show")], ⟨0, 5, 5⟩, [], lit "hello"⟩) ∧
    demoRun ⟨0, 5, 5⟩ [none, some (lit "show")] ⟨1, 0, 4⟩ = .ub .useAfterFree := by
  refine ⟨?_, ?_, ?_, ?_, ?_, ?_⟩ <;> decide +kernel

/-! ## Examples -/

namespace Vw

/-- A function that makes a string of its own, executes it as a command, and logs its argument, a view, before and after. -/
def twice : VDef Nat Bool Unit :=
  ⟨[.view], Ref, some fun m r => m.read r, fun a => .read a.1 fun t => .log t <| .make (lit "next") fun b =>
    .execLine ⟨b, 0, 4⟩ fun _ => .free b <| .read a.1 fun t => .log t (.ret a.1)⟩

/-- A function that counts. -/
def next : VDef Nat Bool Unit := ⟨[], Unit, none, fun _ => .get fun n => .set (n + 1) (.ret ())⟩

/-- The same functions on texts. -/
def twiceText : FunctorDef Nat Bool Unit :=
  ⟨[⟨Bytes, stringConv⟩], Bytes, lit "string", some id, fun a => .log a.1 <| .execLine (lit "next") fun _ => .log a.1 (.ret a.1)⟩

/-- The same. -/
def nextText : FunctorDef Nat Bool Unit := ⟨[], Unit, lit "void", none, fun _ => .get fun n => .set (n + 1) (.ret ())⟩

/-- The tables of both programs. -/
def viewTable : Bool → VDef Nat Bool Unit
  | true => twice
  | false => next

/-- The same. -/
def textTable : Bool → FunctorDef Nat Bool Unit
  | true => twiceText
  | false => nextText

theorem tables : ∀ c, DefIs (viewTable c) (textTable c)
  | false => ⟨_, .nil, fun _ _ _ _ => .get fun n n' h => by cases h; exact .set rfl (.ret rfl)⟩
  | true => by
    refine ⟨_, .cons C93_parameters.1 .nil, ?_⟩
    rintro m ⟨r, _⟩ ⟨t, _⟩ ⟨h, _⟩
    have h : m.read r = .ok t := h
    have hb : ∀ t', ¬ Holds m m.length t' := by
      intro t' h
      simp [Holds] at h
    have hk : Keeps m (m.make (lit "next")) := keeps_make (.refl m) _
    have hm : Holds (m.make (lit "next")) m.length (lit "next") := by simp [Holds, Mem.make]
    refine .read h (.log _ (.make _ (.execLine ?_ ?_)))
    · unfold Mem.read
      rw [show (m.make (lit "next"))[m.length]? = some (some (lit "next")) from hm]
      rfl
    · intro m' o o' hk' _
      have hm' := hk' _ _ hm
      have hf : m'.free m.length = .ok (m'.set m.length none) := by
        unfold Mem.free
        rw [show m'[m.length]? = some (some (lit "next")) from hm']
      have hr := read_keeps (keeps_free (Keeps.trans hk hk') hb hf) h
      exact .free _ hb hf (fun _ _ h => h) (.read hr (.log _ (.ret (by
        show vtext twice _ r = .ok (some t)
        simp only [vtext, twice]
        rw [hr]
        rfl))))

end Vw

namespace Vw

/-- A program with these functions. -/
def twiceSys (n : Nat) : Sys (List (Command Bool Unit)) Nat Bool Unit :=
  ⟨[⟨lit "twice", [⟨0, true, ()⟩]⟩, ⟨lit "next", [⟨1, false, ()⟩]⟩], some (lexRead (.default true)), n, [], 2, [], []⟩

/-- What can be seen of a result. -/
structure SeenResult where
  count : Nat
  errors : List Bytes
  output : Bytes
  value : Option Bytes
  input : Res Input
  deriving DecidableEq

/-- Executing a command on views. -/
abbrev twiceRun (m : Mem) (n : Nat) (command : Ref) : Res (Option SeenResult) :=
  (vexecute (lexParse (.default true)) viewTable listOps true 3 ⟨m, twiceSys n⟩ command).bind fun p =>
    .ok (match p.2 with
      | .ok r => some ⟨p.1.sys.user, r.errors, r.output, r.returnValue, p.1.mem.readInput r.input⟩
      | .error _ => none)

/-- Executing a command on texts. -/
abbrev twiceTextRun (n : Nat) (command : Bytes) : Res (Option SeenResult) :=
  (execute textTable listOps true 3 (twiceSys n) (.line command)).bind fun p =>
    .ok (match p.2 with
      | .ok r => some ⟨p.1.user, r.errors, r.output, r.returnValue, .ok r.input⟩
      | .error _ => none)

end Vw

/-- The command `twice hello` in the middle of a buffer. -/
example : twiceRun [none, some (lit "> twice hello # say it")] 7 ⟨1, 2, 11⟩ =
      .ok (some ⟨8, [], lit "hellohello", some (lit "hello"), .ok ⟨lit "twice", [⟨[lit "hello"]⟩], []⟩⟩) ∧
    twiceTextRun 7 (lit "twice hello") =
      .ok (some ⟨8, [], lit "hellohello", some (lit "hello"), .ok ⟨lit "twice", [⟨[lit "hello"]⟩], []⟩⟩) := by
  constructor <;> decide +kernel

/-- The theorem for this program, any memory, any place of the command. -/
example {m : Mem} {cmd : Ref} (hr : m.read cmd = .ok (lit "twice hello")) (n : Nat) :=
  C93_texts (ops := listOps) (catching := true) (fuel := 3) (s := twiceSys n) tables rfl hr

/-- Destroying the text afterwards. -/
example : ∃ s r, vexecute (lexParse (.default true)) viewTable listOps true 3 ⟨[some (lit "next k=v")], twiceSys 7⟩ ⟨0, 0, 8⟩ = .ok (s, .ok r) ∧
    s.mem.readInput r.input = .ok ⟨lit "next", [], [⟨lit "k", ⟨[lit "v"]⟩⟩]⟩ ∧ (Mem.read [none] r.input.name) = .ub .useAfterFree ∧
    Mem.readInput [some (lit "next k=w")] r.input = .ok ⟨lit "next", [], [⟨lit "k", ⟨[lit "w"]⟩⟩]⟩ := by
  refine ⟨_, _, rfl, ?_, ?_, ?_⟩ <;> decide +kernel

end Coil
