import Verif.Proofs.Refusal
import Verif.Props.Fixed
import Verif.Props.UserProgram

/-!
# Commands that are refused (C129)
-/

namespace Coil
open Spec Fl Floats

variable {W C D : Type} {P : C → FunctorDef W C D} {T : Table C D} {sigs : Signatures} {w w' : W} {i : Input} {pl : Platform} {sz : IntType}
  {tiny : Nat → Nat → Bool} {size : Bytes} {catching charSigned fixed : Bool} {cfg : LexCfg} {before after : List Request} {r : Request}
  {exceeds : Nat → Nat → Bool} {outs : List ExecOut} {es : List Bytes} {fuel : Nat}

/-- **C129.** A request that asks for something that is refused is answered by the errors, whatever was entered before, and by nothing else. -/
theorem C129_refused (hp : Proper cfg) (hex : ∀ b, 0 < b → exceeds 1 b = false) (hq : AllQuiet P) (hs : HasSignatures pl tiny size P T sigs)
    {s : Sys (UMap Bytes (Command C D)) W C D}
    (h : observed P (mapOps fixed charSigned exceeds) (UMap.create (djb2 charSigned) 1) catching fuel (some (fitting cfg)) w
      (fixedProgram T (before ++ r :: after)) = .ok (s, outs))
    (hr : Asks (delims cfg) r i) (hd : Declined pl tiny size sigs i es) : outs[before.length]? = some (.ok ⟨i, es, none, []⟩) := by
  obtain ⟨o1, o2, w1, rfl, h1, h2⟩ := talk_split ((C110_run hp hex hq).1 ⟨fuel, s, h, rfl⟩)
  obtain ⟨w2, out, more, rfl, h3, _⟩ := (asks_talk hp hr).1 h2
  obtain ⟨_, rfl⟩ := (declined_replies hs hd).1 h3
  rw [← talk_length h1]
  simp

/-- **C129.** Such a request may be left out: the program goes on as if it had not been entered. And it may be put in anywhere: it is always answered. -/
theorem C129_skipped (hp : Proper cfg) (hex : ∀ b, 0 < b → exceeds 1 b = false) (hq : AllQuiet P) (hs : HasSignatures pl tiny size P T sigs)
    (hr : Asks (delims cfg) r i) (hd : Declined pl tiny size sigs i es) :
    (∃ fuel s, observed P (mapOps fixed charSigned exceeds) (UMap.create (djb2 charSigned) 1) catching fuel (some (fitting cfg)) w
      (fixedProgram T (before ++ r :: after)) = .ok (s, outs) ∧ s.user = w') ↔
    ∃ o1 o2, outs = o1 ++ .ok ⟨i, es, none, []⟩ :: o2 ∧ o1.length = before.length ∧
      ∃ fuel s, observed P (mapOps fixed charSigned exceeds) (UMap.create (djb2 charSigned) 1) catching fuel (some (fitting cfg)) w
        (fixedProgram T (before ++ after)) = .ok (s, o1 ++ o2) ∧ s.user = w' := by
  simp only [C110_run hp hex hq]
  constructor
  · intro h
    obtain ⟨o1, o2, w1, rfl, h1, h2⟩ := talk_split h
    obtain ⟨w2, out, more, rfl, h3, h4⟩ := (asks_talk hp hr).1 h2
    obtain ⟨rfl, rfl⟩ := (declined_replies hs hd).1 h3
    exact ⟨o1, more, rfl, talk_length h1, talk_join h1 h4⟩
  · rintro ⟨o1, o2, rfl, hl, h⟩
    obtain ⟨p1, p2, w1, e, h1, h2⟩ := talk_split h
    obtain ⟨rfl, rfl⟩ := List.append_inj e (hl.trans (talk_length h1).symm)
    exact talk_join h1 ((asks_talk hp hr).2 ⟨w1, _, _, rfl, (declined_replies hs hd).2 ⟨rfl, rfl⟩, h2⟩)

/-- **C129.** A command that is answered is refused or understood, not both. -/
theorem C129_either (hp : Proper cfg) (hex : ∀ b, 0 < b → exceeds 1 b = false) (hq : AllQuiet P) (hs : HasSignatures pl tiny size P T sigs)
    {s : Sys (UMap Bytes (Command C D)) W C D}
    (h : observed P (mapOps fixed charSigned exceeds) (UMap.create (djb2 charSigned) 1) catching fuel (some (fitting cfg)) w
      (fixedProgram T (before ++ r :: after)) = .ok (s, outs))
    (hr : Asks (delims cfg) r i) : (∃ es, Declined pl tiny size sigs i es) ↔ ¬ Understood pl tiny size sigs i := by
  obtain ⟨o1, o2, w1, rfl, h1, h2⟩ := talk_split ((C110_run hp hex hq).1 ⟨fuel, s, h, rfl⟩)
  obtain ⟨w2, out, more, rfl, h3, _⟩ := (asks_talk hp hr).1 h2
  constructor
  · rintro ⟨es, hd⟩
    exact declined_not hs hd
  · intro hn
    rcases replies_either hs h3 with h | h
    · exact h
    · exact absurd h hn

/-- **C129.** The errors are determined by the command. -/
theorem C129_one (hs : HasSignatures pl tiny size P T sigs) {es' : List Bytes} (h : Declined pl tiny size sigs i es)
    (h' : Declined pl tiny size sigs i es') (w : W) : es = es' := by
  have := ((declined_replies (catching := true) (w := w) hs h).1 ((declined_replies hs h').2 ⟨rfl, rfl⟩)).2
  simpa using this.symm

/-- **C129.** The signatures of the basic example. -/
theorem C129_basic {nan : Fl → Fl → Bool} (hsz : SizeType pl sz) :
    HasSignatures pl tiny (sz.name pl) (basicFunctions pl sz tiny nan) basicTable basicSignatures := basic_signatures hsz

/-- **C129.** The signatures of the overloading example. -/
theorem C129_overloading : HasSignatures pl tiny size (overFunctions pl tiny) overTable overSignatures := over_signatures

/-- **C129.** The signatures of the usertypes example. -/
theorem C129_usertypes {nan : Fl → Fl → Bool} (hsz : SizeType pl sz) :
    HasSignatures pl tiny (sz.name pl) (userFunctions pl sz tiny nan) userTable userSignatures := user_signatures hsz

/-- **C129.** The signatures of the errors example. -/
theorem C129_errors {nan : Fl → Bool} : HasSignatures pl tiny size (errorFunctions pl tiny nan) errorTable errorSignatures := error_signatures

/-- **C129.** The signatures of the named arguments example. -/
theorem C129_named (hl : pl.long64 = true) :
    HasSignatures pl tiny (IntType.ulong.name pl) (namedFunctions pl tiny) namedTable namedSignatures := named_signatures hl

/-- **C129.** The signatures of the properties example. -/
theorem C129_properties {refuse : Nat → Option Exn} {nan : Fl → Fl → Bool} {hypot : Fl → Fl → Fl} (hl : pl.long64 = true) :
    HasSignatures pl tiny (IntType.ulong.name pl) (propFunctions pl refuse tiny nan hypot) propTable propSignatures := prop_signatures hl

/-- **C129.** The signatures of the variadic example. -/
theorem C129_variadic (hl : pl.long64 = true) :
    HasSignatures pl tiny (IntType.ulong.name pl) (entityFunctions pl) entityTable entitySignatures := entity_signatures hl

/-- **C129.** The signatures of the compound example. -/
theorem C129_compound {nan : Fl → Fl → Bool} {name sid : Bytes} (hn : NulFree name) :
    HasSignatures pl tiny size (swarmFunctions tiny nan name sid) swarmTable (swarmSignatures name) := swarm_signatures hn

/-- **C129.** The signatures of the variables example. -/
theorem C129_variables : HasSignatures pl tiny size (exampleVars pl tiny).functions (varTable (exampleCommands pl)) varSignatures := var_signatures

/-- **C129.** The signatures of the enums example. -/
theorem C129_enums {u : IntType} : HasSignatures pl tiny size (enumFunctions pl u) enumTable (enumSignatures u) := enum_signatures

/-- **C129.** The signatures of the flags example. -/
theorem C129_flags : HasSignatures pl tiny size (flagsFunctions pl) flagsTable flagsSignatures := flags_signatures

/-! ## Examples -/

/-- A command with two bad arguments, each with its reason; an id that is no number; a list with a bad part; a wrong number of arguments. -/
example : User126.answers ["particles.spawn (1 two) (3 4 5)", "entities.focused_entity x", "sum 1,b,c", "entities.focused_entity 1 2", "nothing", ""] =
    .ok [User126.wrong ["Unable to convert '1 two' to type 'Vec2': Unable to convert 'two' to type 'float'",
        "Unable to convert '3 4 5' to type 'Vec2': Expected 2 subvalues, got 3"],
      User126.wrong ["Unable to convert 'x' to type 'EntityId': Unable to convert 'x' to type 'unsigned long'"],
      User126.wrong ["Unable to convert '1 b c' to type 'DynamicArray<int>': Unable to convert 'b' to type 'int'"],
      User126.wrong ["Wrong number of arguments to 'entities.focused_entity': expected 0 or 1, got 2"],
      User126.wrong ["No function 'nothing' is registered"], User126.wrong ["No function name is specified"]] := by
  decide +kernel

/-- The hypotheses of `C129_refused` hold: an id that is no number is refused in the usertypes example. -/
example : Declined linux64 (fun _ _ => false) (IntType.ulong.name linux64) userSignatures ⟨lit "entities.focused_entity", [⟨[lit "x"]⟩], []⟩
    [lit "Unable to convert 'x' to type 'EntityId': Unable to convert 'x' to type 'unsigned long'"] := by
  have hno : ¬ ∃ z, IndexText (lit "x") z := by
    rintro ⟨z, hz⟩
    have := (index_iff (pl := linux64) (sz := .ulong) (.inr ⟨rfl, rfl⟩)).2 ⟨lit "x", rfl, hz⟩
    have e : ∃ m, (entityIdConv linux64 .ulong).fromString ⟨[lit "x"]⟩ = .ok (.error m) := ⟨_, rfl⟩
    obtain ⟨m, hm⟩ := e
    rw [hm] at this
    cases this
  refine .arguments (kss := [[], [.entity]]) (ks := [.entity]) (by decide +kernel) ?_ ⟨[[]], [], rfl, rfl, by simp⟩ ?_ (by simp)
  · rfl
  · have : lit "Unable to convert 'x' to type 'EntityId': Unable to convert 'x' to type 'unsigned long'" =
        because ⟨[lit "x"]⟩ (lit "EntityId") (upToNul (cannotConvert (upToNul (lit "x")) (IntType.ulong.name linux64))) := by decide +kernel
    rw [this]
    exact .said (.entity (.size hno)) .nil

end Coil
