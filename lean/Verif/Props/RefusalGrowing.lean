import Verif.Proofs.RefusalGrowing
import Verif.Props.AdvancedProgram
import Verif.Props.Refusal

/-!
# Commands that are refused by programs whose commands make commands (C130)
-/

namespace Coil
open Spec Fl Floats

variable {W C D : Type} {P : C → FunctorDef W C D} {T : Table C D} {S : Standing W C D} {sigs : Signatures} {w w' : W} {i : Input} {pl : Platform}
  {tiny : Nat → Nat → Bool} {nan : Fl → Fl → Bool} {size : Bytes} {catching charSigned fixed : Bool} {cfg : LexCfg} {before after : List Request} {r : Request}
  {exceeds : Nat → Nat → Bool} {outs o : List ExecOut} {es : List Bytes} {fuel : Nat}

/-- **C130.** A request that asks for something that is refused as things stand is answered by the errors and by nothing else. -/
theorem C130_refused (hp : Proper cfg) (hex : ∀ b, 0 < b → exceeds 1 b = false) (hq : AllGrowing P)
    (hb : Growth P catching (delims cfg) ⟨T, w⟩ before o S) (hs : Offers pl tiny size P S.table i.name sigs) {s : Sys (UMap Bytes (Command C D)) W C D}
    (h : observed P (mapOps fixed charSigned exceeds) (UMap.create (djb2 charSigned) 1) catching fuel (some (fitting cfg)) w
      (fixedProgram T (before ++ r :: after)) = .ok (s, outs))
    (hr : Asks (delims cfg) r i) (hd : Declined pl tiny size sigs i es) : outs[before.length]? = some (.ok ⟨i, es, none, []⟩) := by
  obtain ⟨S', h0, _⟩ := C127_sound hp hex hq h
  obtain ⟨o1, o2, S1, rfl, h1, h2⟩ := growth_split h0
  obtain ⟨rfl, rfl⟩ := growth_unique hp hb h1
  obtain ⟨S2, out, more, rfl, h3, _⟩ := (asks_growth hp hr).1 h2
  obtain ⟨_, rfl⟩ := (declined_responds hs hd).1 h3
  rw [← growth_answers h1]
  simp

/-- **C130.** Such a request may be left out: the program goes on as if it had not been entered. And it may be put in at that place: it is answered. -/
theorem C130_skipped (hp : Proper cfg) (hex : ∀ b, 0 < b → exceeds 1 b = false) (hq : AllGrowing P)
    (hb : Growth P catching (delims cfg) ⟨T, w⟩ before o S) (hs : Offers pl tiny size P S.table i.name sigs)
    (hr : Asks (delims cfg) r i) (hd : Declined pl tiny size sigs i es) :
    (∃ fuel s, observed P (mapOps fixed charSigned exceeds) (UMap.create (djb2 charSigned) 1) catching fuel (some (fitting cfg)) w
      (fixedProgram T (before ++ r :: after)) = .ok (s, outs) ∧ s.user = w') ↔
    ∃ more, outs = o ++ .ok ⟨i, es, none, []⟩ :: more ∧
      ∃ fuel s, observed P (mapOps fixed charSigned exceeds) (UMap.create (djb2 charSigned) 1) catching fuel (some (fitting cfg)) w
        (fixedProgram T (before ++ after)) = .ok (s, o ++ more) ∧ s.user = w' := by
  constructor
  · rintro ⟨fuel, s, h, rfl⟩
    obtain ⟨S', h0, hu, _⟩ := C127_sound hp hex hq h
    obtain ⟨o1, o2, S1, rfl, h1, h2⟩ := growth_split h0
    obtain ⟨rfl, rfl⟩ := growth_unique hp hb h1
    obtain ⟨S2, out, more, rfl, h3, h4⟩ := (asks_growth hp hr).1 h2
    obtain ⟨rfl, rfl⟩ := (declined_responds hs hd).1 h3
    obtain ⟨fuel', s', g1, g2⟩ := C127_complete (fixed := fixed) (charSigned := charSigned) hp hex (growth_join h1 h4)
    exact ⟨more, rfl, fuel', s', g1, g2.trans hu.symm⟩
  · rintro ⟨more, rfl, fuel, s, h, rfl⟩
    obtain ⟨S', h0, hu, _⟩ := C127_sound hp hex hq h
    obtain ⟨o1, o2, S1, e, h1, h2⟩ := growth_split h0
    obtain ⟨rfl, rfl⟩ := growth_unique hp hb h1
    obtain rfl := List.append_cancel_left e
    obtain ⟨fuel', s', g1, g2⟩ := C127_complete (fixed := fixed) (charSigned := charSigned) hp hex
      (growth_join h1 ((asks_growth hp hr).2 ⟨S, _, _, rfl, (declined_responds hs hd).2 ⟨rfl, rfl⟩, h2⟩))
    exact ⟨fuel', s', g1, g2.trans hu.symm⟩

/-- **C130.** A command that is answered is refused or understood as things stand, not both. -/
theorem C130_either (hp : Proper cfg) (hex : ∀ b, 0 < b → exceeds 1 b = false) (hq : AllGrowing P)
    (hb : Growth P catching (delims cfg) ⟨T, w⟩ before o S) (hs : Offers pl tiny size P S.table i.name sigs) {s : Sys (UMap Bytes (Command C D)) W C D}
    (h : observed P (mapOps fixed charSigned exceeds) (UMap.create (djb2 charSigned) 1) catching fuel (some (fitting cfg)) w
      (fixedProgram T (before ++ r :: after)) = .ok (s, outs))
    (hr : Asks (delims cfg) r i) : (∃ es, Declined pl tiny size sigs i es) ↔ ¬ Understood pl tiny size sigs i := by
  obtain ⟨S', h0, _⟩ := C127_sound hp hex hq h
  obtain ⟨o1, o2, S1, rfl, h1, h2⟩ := growth_split h0
  obtain ⟨rfl, rfl⟩ := growth_unique hp hb h1
  obtain ⟨S2, out, more, rfl, h3, _⟩ := (asks_growth hp hr).1 h2
  constructor
  · rintro ⟨es, hd⟩
    exact declined_understood hs hd
  · intro hn
    rcases responds_either hs h3 with h | h
    · exact h
    · exact absurd h hn

/-- **C130.** The advanced example: a command is refused by what its name means at the time. A command that is refused is answered by the errors, and without
it everything else is the same. A command that is not refused is understood. -/
theorem C130_advanced (hp : Proper cfg) (hex : ∀ b, 0 < b → exceeds 1 b = false)
    {s : Sys (UMap Bytes (Command AdvancedCode Bytes)) AdvancedWorld AdvancedCode Bytes}
    (h : observed (advancedFunctions tiny nan) (mapOps fixed charSigned exceeds) (UMap.create (djb2 charSigned) 1) catching fuel
      (some (fitting cfg)) AdvancedWorld.start (fixedProgram advancedTable (before ++ r :: after)) = .ok (s, outs))
    (hr : Asks (delims cfg) r i) :
    ∃ h' o1 out o2, outs = o1 ++ out :: o2 ∧ Annals (AdvancedTold tiny nan) catching (delims cfg) advancedBeginning before o1 h' ∧
      ((∃ es, Declined pl tiny size (h'.offers i.name) i es) ↔ ¬ Understood pl tiny size (h'.offers i.name) i) ∧
      ∀ es, Declined pl tiny size (h'.offers i.name) i es → out = .ok ⟨i, es, none, []⟩ ∧
        ∃ fuel s', observed (advancedFunctions tiny nan) (mapOps fixed charSigned exceeds) (UMap.create (djb2 charSigned) 1) catching fuel
          (some (fitting cfg)) AdvancedWorld.start (fixedProgram advancedTable (before ++ after)) = .ok (s', o1 ++ o2) ∧ s'.user = s.user := by
  obtain ⟨S', h0, _⟩ := C127_sound hp hex advanced_growing h
  obtain ⟨o1, o2, S1, rfl, h1, h2⟩ := growth_split h0
  obtain ⟨h', g1, g2⟩ := advanced_accounts.annals h1 advanced_begins
  obtain ⟨S2, out, more, rfl, h3, _⟩ := (asks_growth hp hr).1 h2
  have hs := advanced_offers (pl := pl) (tiny := tiny) (nan := nan) (size := size) g2 i.name
  refine ⟨h', o1, out, more, rfl, g1, C130_either hp hex advanced_growing h1 hs h hr, fun es hd => ?_⟩
  obtain ⟨more', e, rest⟩ := (C130_skipped hp hex advanced_growing h1 hs hr hd).1 ⟨fuel, s, h, rfl⟩
  obtain ⟨rfl, rfl⟩ := List.cons.inj (List.append_cancel_left e)
  exact ⟨rfl, rest⟩

/-- **C130.** And a command that is refused may be put in anywhere. -/
theorem C130_anywhere (hp : Proper cfg) (hex : ∀ b, 0 < b → exceeds 1 b = false)
    {s : Sys (UMap Bytes (Command AdvancedCode Bytes)) AdvancedWorld AdvancedCode Bytes}
    (h : observed (advancedFunctions tiny nan) (mapOps fixed charSigned exceeds) (UMap.create (djb2 charSigned) 1) catching fuel
      (some (fitting cfg)) AdvancedWorld.start (fixedProgram advancedTable (before ++ after)) = .ok (s, outs)) :
    ∃ h' o1 o2, outs = o1 ++ o2 ∧ Annals (AdvancedTold tiny nan) catching (delims cfg) advancedBeginning before o1 h' ∧
      ∀ r i es, Asks (delims cfg) r i → Declined pl tiny size (h'.offers i.name) i es →
        ∃ fuel s', observed (advancedFunctions tiny nan) (mapOps fixed charSigned exceeds) (UMap.create (djb2 charSigned) 1) catching fuel
          (some (fitting cfg)) AdvancedWorld.start (fixedProgram advancedTable (before ++ r :: after)) = .ok (s', o1 ++ .ok ⟨i, es, none, []⟩ :: o2) ∧
          s'.user = s.user := by
  obtain ⟨S', h0, _⟩ := C127_sound hp hex advanced_growing h
  obtain ⟨o1, o2, S1, rfl, h1, h2⟩ := growth_split h0
  obtain ⟨h', g1, g2⟩ := advanced_accounts.annals h1 advanced_begins
  refine ⟨h', o1, o2, rfl, g1, fun r i es hr hd => ?_⟩
  exact (C130_skipped hp hex advanced_growing h1 (advanced_offers g2 i.name) hr hd).2 ⟨o2, rfl, fuel, s, h, rfl⟩

/-! ## Examples -/

/-- The same command, before and after the variables are made, and with too many arguments and too many parts. -/
example : Advanced128.answers ["me.name", "entities.create_entity_variable me player", "me.name", "me.name a b", "me.name (a b)", "me.id (a b)",
      "direction (1 2)", "entities.create_entity_variable entities.list npc1", "entities.list 1 2"] =
    .ok [Advanced128.wrong ["No function 'me.name' is registered"], Advanced128.done, Advanced128.said "Player",
      Advanced128.wrong ["Wrong number of arguments to 'me.name': expected 0 or 1, got 2"],
      Advanced128.wrong ["Unable to convert 'a b' to type 'string': Expected 1 subvalues, got 2"],
      Advanced128.wrong ["This property is read-only"],
      Advanced128.wrong ["Unable to convert '1 2' to type 'string': Expected 1 subvalues, got 2"], Advanced128.done,
      Advanced128.wrong ["Wrong number of arguments to 'entities.list': expected 0 or 1, got 2"]] := by
  decide +kernel

/-- The same command is refused in the beginning, and understood when the variables have been made. -/
example (v : Bytes) (hv : v = lit "me") : (∃ es, Declined pl tiny size (advancedBeginning.offers (v ++ lit ".name")) ⟨v ++ lit ".name", [], []⟩ es) ∧
    Understood pl tiny size ((advancedBeginning.variables v (lit "player")).offers (v ++ lit ".name")) ⟨v ++ lit ".name", [], []⟩ := by
  subst hv
  have h1 : advancedBeginning.offers (lit "me" ++ lit ".name") = [] := by
    have : advancedBeginning.sense (lit "me" ++ lit ".name") = none := by decide +kernel
    unfold AdvancedHistory.offers
    rw [this]
  have h2 : (advancedBeginning.variables (lit "me") (lit "player")).offers (lit "me" ++ lit ".name") = [(lit "me" ++ lit ".name", [[], [.text]])] := by
    have : (advancedBeginning.variables (lit "me") (lit "player")).sense (lit "me" ++ lit ".name") = some (.field .name (lit "player")) := by decide +kernel
    unfold AdvancedHistory.offers
    rw [this]
    rfl
  have hn : lit "me" ++ lit ".name" ≠ [] := by decide +kernel
  rw [h1, h2]
  exact ⟨⟨_, .unknown hn rfl⟩, hn, [[], [.text]], [], by simp [Signatures.of], ⟨[], [[.text]], rfl, rfl, by simp⟩, .nil⟩

/-- A refused command with its errors. -/
example : Declined pl tiny size (advancedBeginning.offers (lit "direction")) ⟨lit "direction", [⟨[lit "1", lit "2"]⟩], []⟩
    [lit "Unable to convert '1 2' to type 'string': Expected 1 subvalues, got 2"] := by
  have h1 : advancedBeginning.offers (lit "direction") = [(lit "direction", [[], [.text]])] := by
    have : advancedBeginning.sense (lit "direction") = some .direction := by decide +kernel
    unfold AdvancedHistory.offers
    rw [this]
    rfl
  rw [h1]
  refine .arguments (kss := [[], [.text]]) (ks := [.text]) (by decide +kernel) ?_ ⟨[[]], [], rfl, rfl, by simp⟩ ?_ (by simp)
  · simp [Signatures.of]
  · have : lit "Unable to convert '1 2' to type 'string': Expected 1 subvalues, got 2" = wrongParts ⟨[lit "1", lit "2"]⟩ (lit "string") 1 := by decide +kernel
    rw [this]
    exact .said (.text (by simp)) .nil

end Coil
