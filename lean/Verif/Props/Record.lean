import Verif.Proofs.Record
import Verif.Props.BasicExample
import Verif.Props.EntityProgram
import Verif.Props.EnumPrograms
import Verif.Props.ErrorProgram
import Verif.Props.NamedProgram
import Verif.Props.Overloading
import Verif.Props.PropertyProgram
import Verif.Props.RefusalGrowing
import Verif.Props.Swarm
import Verif.Props.UserProgram
import Verif.Props.VarProgram

/-!
# All answers of the examples (C132)
-/

namespace Coil
open Spec Fl Floats Vw

variable {H : Type} {told : Account H} {pl : Platform} {sz : IntType} {tiny : Nat → Nat → Bool} {size : Bytes} {catching charSigned fixed : Bool} {cfg : LexCfg}
  {reqs : List Request} {exceeds : Nat → Nat → Bool} {outs : List ExecOut} {fuel : Nat}

/-- **C132.** A command that is answered is told exactly if it is understood; otherwise there are errors, one kind of them, and nothing else happens. -/
theorem C132_told {sigs : Signatures} {h h' : H} {i : Input} {out : ExecOut} (g : Ruling pl tiny size told sigs catching h i h' out) :
    ((∃ h1 o, told h i h1 o) ↔ Understood pl tiny size sigs i) ∧ ((∃ es, Declined pl tiny size sigs i es ∧ out = .ok ⟨i, es, none, []⟩ ∧ h' = h) ∨
      ∃ o, told h i h' o ∧ o.Shows catching out) := by
  rcases g with ⟨hu, o, h1, h2⟩ | ⟨hu, hno, rfl, es, h1, rfl⟩
  · exact ⟨⟨fun _ => hu, fun _ => ⟨_, _, h1⟩⟩, .inr ⟨o, h1, h2⟩⟩
  · exact ⟨⟨fun h => absurd h hno, fun h => absurd h hu⟩, .inl ⟨es, h1, rfl, rfl⟩⟩

/-- **C132.** The record says more than the annals. -/
theorem C132_annals {sigs : H → Bytes → Signatures} {d : Delims} {h h' : H} (g : Record pl tiny size told sigs catching d h reqs outs h') :
    Annals told catching d h reqs outs h' := by
  have key : ∀ {s : Signatures} {h i h' out}, Ruling pl tiny size told s catching h i h' out → Result told catching h i h' out := by
    rintro s h i h' out (⟨_, g⟩ | ⟨_, hno, rfl, es, hd, rfl⟩)
    · exact .inl g
    · refine .inr ⟨hno, rfl, _, rfl, rfl, rfl, ?_⟩
      cases hd <;> first | assumption | simp
  induction g with
  | nil => exact .nil
  | wrong h1 _ ih => exact .wrong h1 ih
  | line h1 h2 _ ih => exact .line h1 (key h2) ih
  | input h1 _ ih => exact .input (key h1) ih

/-- **C132.** The variadic example. -/
theorem C132_variadic (hp : Proper cfg) (hex : ∀ b, 0 < b → exceeds 1 b = false) (hl : pl.long64 = true)
    {s : Sys (UMap Bytes (Command EntityCode Unit)) (List Entity) EntityCode Unit}
    (h : observed (entityFunctions pl) (mapOps fixed charSigned exceeds) (UMap.create (djb2 charSigned) 1) catching fuel (some (fitting cfg)) []
      (fixedProgram entityTable reqs) = .ok (s, outs)) :
    Record pl tiny (IntType.ulong.name pl) (RosterTold pl) (fun _ _ => entitySignatures) catching (delims cfg) [] reqs outs s.user := by
  obtain ⟨_, g, rfl⟩ := entity_accounts.record (C129_variadic hl) ((C110_run hp hex entity_quiet).1 ⟨fuel, s, h, rfl⟩) rfl
  exact g

/-- **C132.** The errors example. -/
theorem C132_errors {nan : Fl → Bool} (hp : Proper cfg) (hex : ∀ b, 0 < b → exceeds 1 b = false)
    {s : Sys (UMap Bytes (Command ErrorCode Unit)) Unit ErrorCode Unit}
    (h : observed (errorFunctions pl tiny nan) (mapOps fixed charSigned exceeds) (UMap.create (djb2 charSigned) 1) catching fuel (some (fitting cfg)) ()
      (fixedProgram errorTable reqs) = .ok (s, outs)) :
    Record pl tiny size (ErrorTold pl tiny nan) (fun _ _ => errorSignatures) catching (delims cfg) () reqs outs () := by
  obtain ⟨_, g, _⟩ := error_accounts.record C129_errors ((C110_run hp hex error_quiet).1 ⟨fuel, s, h, rfl⟩) trivial
  exact g

/-- **C132.** The properties example. -/
theorem C132_properties {refuse : Nat → Option Exn} {nan : Fl → Fl → Bool} {hypot : Fl → Fl → Fl} (hp : Proper cfg)
    (hex : ∀ b, 0 < b → exceeds 1 b = false) (hl : pl.long64 = true) {s : Sys (UMap Bytes (Command PropCode Unit)) PropWorld PropCode Unit}
    (h : observed (propFunctions pl refuse tiny nan hypot) (mapOps fixed charSigned exceeds) (UMap.create (djb2 charSigned) 1) catching fuel
      (some (fitting cfg)) propStart (fixedProgram propTable reqs) = .ok (s, outs)) :
    Record pl tiny (IntType.ulong.name pl) (PropTold refuse tiny nan hypot) (fun _ _ => propSignatures) catching (delims cfg) ⟨⟨1920, 1080⟩, [3, 1, 4]⟩
      reqs outs s.user := by
  obtain ⟨_, g, rfl⟩ := (prop_accounts hl).record (C129_properties hl) ((C110_run hp hex prop_quiet).1 ⟨fuel, s, h, rfl⟩) rfl
  exact g

/-- **C132.** The named arguments example. -/
theorem C132_named (hp : Proper cfg) (hex : ∀ b, 0 < b → exceeds 1 b = false) (hl : pl.long64 = true)
    {s : Sys (UMap Bytes (Command NamedCode Unit)) (List (Item Bytes)) NamedCode Unit}
    (h : observed (namedFunctions pl tiny) (mapOps fixed charSigned exceeds) (UMap.create (djb2 charSigned) 1) catching fuel
      (some (fitting cfg)) namedStart (fixedProgram namedTable reqs) = .ok (s, outs)) :
    Record pl tiny (IntType.ulong.name pl) (NamedAccount pl tiny) (fun _ _ => namedSignatures) catching (delims cfg) firstItems reqs outs s.user := by
  obtain ⟨_, g, rfl⟩ := (named_accounts hl).record (C129_named hl) ((C110_run hp hex named_quiet).1 ⟨fuel, s, h, rfl⟩) rfl
  exact g

/-- **C132.** The usertypes example. -/
theorem C132_usertypes {nan : Fl → Fl → Bool} (hp : Proper cfg) (hex : ∀ b, 0 < b → exceeds 1 b = false) (hsz : SizeType pl sz)
    {s : Sys (UMap Bytes (Command UserCode Unit)) UserWorld UserCode Unit}
    (h : observed (userFunctions pl sz tiny nan) (mapOps fixed charSigned exceeds) (UMap.create (djb2 charSigned) 1) catching fuel
      (some (fitting cfg)) UserWorld.start (fixedProgram userTable reqs) = .ok (s, outs)) :
    ∃ h', Record pl tiny (sz.name pl) (UserTold pl tiny nan) (fun _ _ => userSignatures) catching (delims cfg) userBeginning reqs outs h' ∧
      UserKeeps s.user h' :=
  (user_accounts hsz).record (C129_usertypes hsz) ((C110_run hp hex user_quiet).1 ⟨fuel, s, h, rfl⟩) user_begins

/-- **C132.** The advanced example: the signatures are those of what the names mean at the time. -/
theorem C132_advanced {nan : Fl → Fl → Bool} (hp : Proper cfg) (hex : ∀ b, 0 < b → exceeds 1 b = false)
    {s : Sys (UMap Bytes (Command AdvancedCode Bytes)) AdvancedWorld AdvancedCode Bytes}
    (h : observed (advancedFunctions tiny nan) (mapOps fixed charSigned exceeds) (UMap.create (djb2 charSigned) 1) catching fuel
      (some (fitting cfg)) AdvancedWorld.start (fixedProgram advancedTable reqs) = .ok (s, outs)) :
    ∃ h', Record pl tiny size (AdvancedTold tiny nan) AdvancedHistory.offers catching (delims cfg) advancedBeginning reqs outs h' ∧
      s.user = ⟨people.map (fun id => ⟨id, h'.name id, h'.payload id⟩), h'.angle⟩ := by
  obtain ⟨S', h1, h2, _⟩ := C127_sound hp hex advanced_growing h
  obtain ⟨h', g1, g2⟩ := advanced_accounts.record (pl := pl) (tiny := tiny) (size := size) advanced_offers h1 advanced_begins
  exact ⟨h', g1, h2.trans g2.1⟩

/-- **C132.** The basic example. -/
theorem C132_basic {nan : Fl → Fl → Bool} (hp : Proper cfg) (hex : ∀ b, 0 < b → exceeds 1 b = false) (hsz : SizeType pl sz)
    {s : Sys (UMap Bytes (Command BasicCode Unit)) BasicWorld BasicCode Unit}
    (h : observed (basicFunctions pl sz tiny nan) (mapOps fixed charSigned exceeds) (UMap.create (djb2 charSigned) 1) catching fuel (some (fitting cfg))
      BasicWorld.start (fixedProgram basicTable reqs) = .ok (s, outs)) :
    ∃ n, Record pl tiny (sz.name pl) (BasicTold pl tiny nan).account (fun _ _ => basicSignatures) catching (delims cfg) 0 reqs outs n ∧
      s.user.console = (List.replicate n (lit "Hello, world!\n")).flatten := by
  obtain ⟨n, g1, g2⟩ := (basic_telltale hsz).accounts.record (C129_basic hsz) ((C110_run hp hex basic_quiet).1 ⟨fuel, s, h, rfl⟩)
    (h0 := (0 : Nat)) ⟨rfl, rfl, rfl⟩
  exact ⟨n, g1, g2.1⟩

/-- **C132.** The overloading example. -/
theorem C132_overloading (hp : Proper cfg) (hex : ∀ b, 0 < b → exceeds 1 b = false) {s : Sys (UMap Bytes (Command OverCode Unit)) OverWorld OverCode Unit}
    (h : observed (overFunctions pl tiny) (mapOps fixed charSigned exceeds) (UMap.create (djb2 charSigned) 1) catching fuel (some (fitting cfg))
      OverWorld.start (fixedProgram overTable reqs) = .ok (s, outs)) :
    Record pl tiny size (OverTold pl tiny).account (fun _ _ => overSignatures) catching (delims cfg) () reqs outs () := by
  obtain ⟨_, g1, _⟩ := over_telltale.accounts.record C129_overloading ((C110_run hp hex over_quiet).1 ⟨fuel, s, h, rfl⟩) (h0 := ()) rfl
  exact g1

/-- **C132.** The compound example. -/
theorem C132_compound {nan : Fl → Fl → Bool} {name sid : Bytes} (hn : NulFree name) (hp : Proper cfg) (hex : ∀ b, 0 < b → exceeds 1 b = false)
    {s : Sys (UMap Bytes (Command SwarmCode Unit)) SwarmWorld SwarmCode Unit}
    (h : observed (swarmFunctions tiny nan name sid) (mapOps fixed charSigned exceeds) (UMap.create (djb2 charSigned) 1) catching fuel
      (some (fitting cfg)) SwarmWorld.start (fixedProgram swarmTable reqs) = .ok (s, outs)) :
    ∃ h', Record pl tiny size (SwarmTold tiny nan).account (fun _ _ => swarmSignatures name) catching (delims cfg) [] reqs outs h' ∧
      SwarmKeeps nan s.user h' :=
  swarm_telltale.accounts.record (C129_compound hn) ((C110_run hp hex swarm_quiet).1 ⟨fuel, s, h, rfl⟩) ⟨rfl, rfl⟩

/-- **C132.** The variables example. -/
theorem C132_variables (hp : Proper cfg) (hex : ∀ b, 0 < b → exceeds 1 b = false)
    {s : Sys (UMap Bytes (Command (VarCode ExampleVar ExampleVar.Ty) Unit)) VarWorld (VarCode ExampleVar ExampleVar.Ty) Unit}
    (h : observed (exampleVars pl tiny).functions (mapOps fixed charSigned exceeds) (UMap.create (djb2 charSigned) 1) catching fuel (some (fitting cfg))
      VarWorld.start (fixedProgram (varTable (exampleCommands pl)) reqs) = .ok (s, outs)) :
    ∃ h', Record pl tiny size (VarTold (exampleVars pl tiny).conv (exampleCommands pl) ((exampleVars pl tiny).values .start)).account
        (fun _ _ => varSignatures) catching (delims cfg) [] reqs outs h' ∧
      (exampleVars pl tiny).values s.user = valueAfter ((exampleVars pl tiny).values .start) h' := by
  obtain ⟨h', g1, g2⟩ := (vars_telltale (init := (exampleVars pl tiny).values .start) example_apart example_names).accounts.record
    (C129_variables (size := size)) ((C110_run hp hex vars_quiet).1 ⟨fuel, s, h, rfl⟩) (h0 := []) (fun _ => rfl)
  exact ⟨h', g1, funext g2⟩

/-- **C132.** The enums example. -/
theorem C132_enums {u : IntType} (hp : Proper cfg) (hex : ∀ b, 0 < b → exceeds 1 b = false)
    {s : Sys (UMap Bytes (Command EnumCode Unit)) EnumWorld EnumCode Unit}
    (h : observed (enumFunctions pl u) (mapOps fixed charSigned exceeds) (UMap.create (djb2 charSigned) 1) catching fuel (some (fitting cfg))
      EnumWorld.start (fixedProgram enumTable reqs) = .ok (s, outs)) :
    ∃ h', Record pl tiny size (EnumTold pl u).account (fun _ _ => enumSignatures u) catching (delims cfg) [] reqs outs h' ∧
      (s.user.ability, s.user.resetMode) = abilityAfter h' ∧ s.user.variableType = typeAfter h' :=
  enum_telltale.accounts.record C129_enums ((C110_run hp hex enum_quiet).1 ⟨fuel, s, h, rfl⟩) ⟨rfl, rfl⟩

/-- **C132.** The flags example. -/
theorem C132_flags (hp : Proper cfg) (hex : ∀ b, 0 < b → exceeds 1 b = false) {s : Sys (UMap Bytes (Command FlagsCode Unit)) Int FlagsCode Unit}
    (h : observed (flagsFunctions pl) (mapOps fixed charSigned exceeds) (UMap.create (djb2 charSigned) 1) catching fuel (some (fitting cfg))
      (flagsStart pl) (fixedProgram flagsTable reqs) = .ok (s, outs)) :
    ∃ h', Record pl tiny size (FlagsTold pl).account (fun _ _ => flagsSignatures) catching (delims cfg) [] reqs outs h' ∧
      Union pl .int (flagsAfter h') s.user :=
  flags_telltale.accounts.record C129_flags ((C110_run hp hex flags_quiet).1 ⟨fuel, s, h, rfl⟩) flags_start

/-! ## Examples -/

/-- A command that is carried out between two that are refused. -/
example : Advanced128.answers ["direction 1 2", "direction 30", "direction (1 2)", "direction"] =
    .ok [Advanced128.wrong ["Wrong number of arguments to 'direction': expected 0 or 1, got 2"], Advanced128.said "30 degrees",
      Advanced128.wrong ["Unable to convert '1 2' to type 'string': Expected 1 subvalues, got 2"], Advanced128.said "30 degrees"] := by
  decide +kernel

/-- The record of a run of the variadic example: the second command is refused, since there is no `entities.list` with an argument. -/
example : Record linux64 tiny (IntType.ulong.name linux64) (RosterTold linux64) (fun _ _ => entitySignatures) true (delims (LexCfg.default true)) []
    [.input ⟨lit "entities.list", [], []⟩, .input ⟨lit "entities.list", [⟨[lit "x"]⟩], []⟩]
    [.ok ⟨⟨lit "entities.list", [], []⟩, [], none, lit "Entities:\n"⟩,
     .ok ⟨⟨lit "entities.list", [⟨[lit "x"]⟩], []⟩, [lit "Wrong number of arguments to 'entities.list': expected 0, got 1"], none, []⟩] [] := by
  have e : entitySignatures.of (lit "entities.list") = some [[]] := by rfl
  have m : lit "Wrong number of arguments to 'entities.list': expected 0, got 1" = lit "Wrong number of arguments to '" ++ upToNul (lit "entities.list") ++
      lit "': expected " ++ countsInWords ([([] : List Kind)].map List.length) ++ lit ", got " ++ natDec 1 := by decide +kernel
  refine .input (h1 := []) (.inl ⟨⟨by decide +kernel, _, _, e, ⟨[], [], rfl, rfl, by simp⟩, .nil⟩, _, .list, _, rfl, rfl, rfl, ?_⟩)
    (.input (h1 := []) (.inr ⟨?_, ?_, rfl, _, ?_, rfl⟩) .nil)
  · decide +kernel
  · rintro ⟨_, kss, ks, h1, ⟨a, b, h2, h3, _⟩, _⟩
    cases h1.symm.trans e
    have : ks ∈ [([] : List Kind)] := h2 ▸ (by simp)
    obtain rfl := List.mem_singleton.1 this
    cases h3
  · rintro ⟨_, _, h⟩
    have : ∀ {i h' o}, RosterTold linux64 [] i h' o → i.name = lit "entities.list" → i.arguments = [] := by
      intro i h' o g
      cases g <;> intro h <;> first | rfl | exact absurd h (by dsimp only; decide +kernel)
    cases this h rfl
  · rw [m]
    exact .count (by decide +kernel) e (by simp)

end Coil
