import Verif.Proofs.OneRecord
import Verif.Props.Record

/-!
# One record (C133)
-/

namespace Coil
open Spec Fl Floats

variable {H : Type} {told : Account H} {pl : Platform} {sz : IntType} {tiny : Nat → Nat → Bool} {nan : Fl → Fl → Bool} {size : Bytes}
  {catching charSigned fixed : Bool} {cfg : LexCfg} {reqs : List Request} {exceeds : Nat → Nat → Bool} {outs outs' : List ExecOut} {fuel : Nat}

/-- **C133.** Where an account tells one thing of each command, the requests leave one record: one history and one list of answers. -/
theorem C133_one {W C D : Type} {P : C → FunctorDef W C D} {T : Table C D} {sigs : Signatures} {h h1 h2 : H} (hp : Proper cfg)
    (hs : HasSignatures pl tiny size P T sigs) (w : W) (hf : TellsOne told)
    (g1 : Record pl tiny size told (fun _ _ => sigs) catching (delims cfg) h reqs outs h1)
    (g2 : Record pl tiny size told (fun _ _ => sigs) catching (delims cfg) h reqs outs' h2) : h1 = h2 ∧ outs.map shown = outs'.map shown :=
  record_one hp hf (fun d1 d2 => C129_one hs d1 d2 w) g1 g2

/-- **C133.** The accounts of these examples tell one thing of each command. -/
theorem C133_tells : TellsOne (RosterTold pl) ∧ TellsOne (BasicTold pl tiny nan).account ∧ TellsOne (SwarmTold tiny nan).account ∧
    (∀ u, TellsOne (EnumTold pl u).account) ∧ (∀ refuse hypot, TellsOne (PropTold refuse tiny nan hypot)) ∧
    TellsOne (FlagsTold pl).account :=
  ⟨roster_one, basic_one, swarm_tells, fun _ => enum_one, fun _ _ => prop_one, flags_one⟩

/-- **C133.** The variadic example: what the record says is what the program answers, and the entities are those of the record. -/
theorem C133_variadic (hp : Proper cfg) (hex : ∀ b, 0 < b → exceeds 1 b = false) (hl : pl.long64 = true) {h' : List Entity}
    (g : Record pl tiny (IntType.ulong.name pl) (RosterTold pl) (fun _ _ => entitySignatures) catching (delims cfg) [] reqs outs' h')
    (hr : ∀ r ∈ reqs, Enterable (delims cfg) r) :
    ∃ fuel s outs, observed (entityFunctions pl) (mapOps fixed charSigned exceeds) (UMap.create (djb2 charSigned) 1) catching fuel (some (fitting cfg)) []
      (fixedProgram entityTable reqs) = .ok (s, outs) ∧ s.user = h' ∧ outs.map shown = outs'.map shown := by
  obtain ⟨fuel, s, outs, h⟩ := (C122_total (pl := pl) (catching := catching) (charSigned := charSigned) (fixed := fixed) hp hex).2 hr
  obtain ⟨e1, e2⟩ := C133_one hp (C129_variadic hl) [] roster_one (C132_variadic hp hex hl h) g
  exact ⟨fuel, s, outs, h, e1, e2⟩

/-- **C133.** The compound example. -/
theorem C133_compound {name sid : Bytes} (hn : NulFree name) (hp : Proper cfg) (hex : ∀ b, 0 < b → exceeds 1 b = false) {h' : List SwarmDeed}
    (g : Record pl tiny size (SwarmTold tiny nan).account (fun _ _ => swarmSignatures name) catching (delims cfg) [] reqs outs' h')
    (hr : ∀ r ∈ reqs, Enterable (delims cfg) r) :
    ∃ fuel s outs, observed (swarmFunctions tiny nan name sid) (mapOps fixed charSigned exceeds) (UMap.create (djb2 charSigned) 1) catching fuel
      (some (fitting cfg)) SwarmWorld.start (fixedProgram swarmTable reqs) = .ok (s, outs) ∧ SwarmKeeps nan s.user h' ∧
      outs.map shown = outs'.map shown := by
  obtain ⟨fuel, s, outs, h, _⟩ := C113_total (tiny := tiny) (nan := nan) (name := name) (sid := sid) (catching := catching) (charSigned := charSigned)
    (fixed := fixed) hp hex hr
  obtain ⟨h1, k1, k2⟩ := C132_compound (pl := pl) (size := size) hn hp hex h
  obtain ⟨rfl, e2⟩ := C133_one hp (C129_compound (sid := sid) (nan := nan) hn) .start swarm_tells k1 g
  exact ⟨fuel, s, outs, h, k2, e2⟩

/-- **C133.** The basic example: where it answers, its answers are those of the record. -/
theorem C133_basic (hp : Proper cfg) (hex : ∀ b, 0 < b → exceeds 1 b = false) (hsz : SizeType pl sz) {n : Nat}
    {s : Sys (UMap Bytes (Command BasicCode Unit)) BasicWorld BasicCode Unit}
    (h : observed (basicFunctions pl sz tiny nan) (mapOps fixed charSigned exceeds) (UMap.create (djb2 charSigned) 1) catching fuel (some (fitting cfg))
      BasicWorld.start (fixedProgram basicTable reqs) = .ok (s, outs))
    (g : Record pl tiny (sz.name pl) (BasicTold pl tiny nan).account (fun _ _ => basicSignatures) catching (delims cfg) 0 reqs outs' n) :
    s.user.console = (List.replicate n (lit "Hello, world!\n")).flatten ∧ outs.map shown = outs'.map shown := by
  obtain ⟨m, k1, k2⟩ := C132_basic hp hex hsz h
  obtain ⟨rfl, e2⟩ := C133_one hp (C129_basic (nan := nan) hsz) .start basic_one k1 g
  exact ⟨k2, e2⟩

/-- **C133.** The enums example: where it answers, its answers are those of the record, and its state is the one of the record. -/
theorem C133_enums {u : IntType} (hp : Proper cfg) (hex : ∀ b, 0 < b → exceeds 1 b = false) {h' : List Choice}
    {s : Sys (UMap Bytes (Command EnumCode Unit)) EnumWorld EnumCode Unit}
    (h : observed (enumFunctions pl u) (mapOps fixed charSigned exceeds) (UMap.create (djb2 charSigned) 1) catching fuel (some (fitting cfg))
      EnumWorld.start (fixedProgram enumTable reqs) = .ok (s, outs))
    (g : Record pl tiny size (EnumTold pl u).account (fun _ _ => enumSignatures u) catching (delims cfg) [] reqs outs' h') :
    (s.user.ability, s.user.resetMode) = abilityAfter h' ∧ s.user.variableType = typeAfter h' ∧ outs.map shown = outs'.map shown := by
  obtain ⟨h1, k1, k2, k3⟩ := C132_enums (tiny := tiny) (size := size) hp hex h
  obtain ⟨rfl, e2⟩ := C133_one hp C129_enums .start enum_one k1 g
  exact ⟨k2, k3, e2⟩

/-- **C133.** The properties example: where it answers, its answers are those of the record, and the window and the numbers are those of the record. -/
theorem C133_properties {refuse : Nat → Option Exn} {hypot : Fl → Fl → Fl} (hp : Proper cfg) (hex : ∀ b, 0 < b → exceeds 1 b = false)
    (hl : pl.long64 = true) {h' : PropWorld} {s : Sys (UMap Bytes (Command PropCode Unit)) PropWorld PropCode Unit}
    (h : observed (propFunctions pl refuse tiny nan hypot) (mapOps fixed charSigned exceeds) (UMap.create (djb2 charSigned) 1) catching fuel
      (some (fitting cfg)) propStart (fixedProgram propTable reqs) = .ok (s, outs))
    (g : Record pl tiny (IntType.ulong.name pl) (PropTold refuse tiny nan hypot) (fun _ _ => propSignatures) catching (delims cfg)
      ⟨⟨1920, 1080⟩, [3, 1, 4]⟩ reqs outs' h') : s.user = h' ∧ outs.map shown = outs'.map shown :=
  C133_one hp (C129_properties (refuse := refuse) (nan := nan) (hypot := hypot) hl) propStart prop_one (C132_properties hp hex hl h) g

/-- **C133.** The flags example: where it answers, its answers are those of the record, and the flags are those given last in the record. -/
theorem C133_flags (hp : Proper cfg) (hex : ∀ b, 0 < b → exceeds 1 b = false) {h' : List (List Int)}
    {s : Sys (UMap Bytes (Command FlagsCode Unit)) Int FlagsCode Unit}
    (h : observed (flagsFunctions pl) (mapOps fixed charSigned exceeds) (UMap.create (djb2 charSigned) 1) catching fuel (some (fitting cfg))
      (flagsStart pl) (fixedProgram flagsTable reqs) = .ok (s, outs))
    (g : Record pl tiny size (FlagsTold pl).account (fun _ _ => flagsSignatures) catching (delims cfg) [] reqs outs' h') :
    Union pl .int (flagsAfter h') s.user ∧ outs.map shown = outs'.map shown := by
  obtain ⟨h1, k1, k2⟩ := C132_flags (tiny := tiny) (size := size) hp hex h
  obtain ⟨rfl, e2⟩ := C133_one hp C129_flags (flagsStart pl) flags_one k1 g
  exact ⟨k2, e2⟩

/-! ## Examples -/

/-- An account that tells two things is not one of these: the hypothesis of `C133_one` is not empty. -/
example : ¬ TellsOne (fun (_ : Unit) (_ : Input) (_ : Unit) (o : Outcome) => o.errors = []) := by
  intro h
  have := (h (h := ()) (i := ⟨[], [], []⟩) (h1 := ()) (o1 := .good none []) (h2 := ()) (o2 := .good none [65]) rfl rfl).2
  cases this

/-- What is shown of an answer. -/
example : shown (.ok ⟨⟨lit "hello", [], []⟩, [], none, lit "x"⟩) = .ok ([], none, lit "x") := rfl

/-- A record of the compound example that meets the hypotheses of `C133_compound`: the pivot in the beginning. -/
example : Record linux64 tiny size (SwarmTold tiny nan).account (fun _ _ => swarmSignatures (lit "Vec2")) true (delims (LexCfg.default true)) []
    [.input ⟨lit "pivot", [], []⟩] [.ok ⟨⟨lit "pivot", [], []⟩, [], some (pointText (pivotAfter [])), []⟩] [] := by
  have e : ∃ ks, (swarmSignatures (lit "Vec2")).of (lit "pivot") = some [[], ks] := ⟨_, rfl⟩
  obtain ⟨ks, e⟩ := e
  exact .input (.inl ⟨⟨by decide +kernel, _, _, e, ⟨[], _, rfl, rfl, by simp⟩, .nil⟩, .good (some (pointText (pivotAfter []))) [], ⟨.pivot, rfl, rfl⟩,
    _, rfl, rfl, rfl, rfl⟩) .nil

/-- Of the size of the data in the beginning of the properties example one thing is told: three. -/
example {refuse : Nat → Option Exn} {hypot : Fl → Fl → Fl} {h : PropWorld} {o : Outcome}
    (t : PropTold refuse tiny nan hypot ⟨⟨1920, 1080⟩, [3, 1, 4]⟩ ⟨lit "data.size", [], []⟩ h o) :
    h = ⟨⟨1920, 1080⟩, [3, 1, 4]⟩ ∧ o = .good (some (natDec 3)) [] :=
  prop_one t .size

/-- When the flags of the flags example were given last as 2, drawing has one outcome: the origin. -/
example {h : List (List Int)} {r : Option Bytes} {o : Bytes} (t : FlagsTold pl [[8], [2]] ⟨lit "entity.draw", [], []⟩ h r o) :
    (Outcome.good r o) = .good none (lit "Drawing origin\n") := by
  have e : FlagsTold pl [[8], [2]] ⟨lit "entity.draw", [], []⟩ [[8], [2]] none (drawText (· == 1)) := by
    refine .draw fun k => ?_
    simp only [flagsAfter, List.getLastD, List.getLast, List.mem_singleton, exists_eq_left, Bit, beq_iff_eq]
    constructor
    · rintro rfl; decide
    · intro hk
      match k, hk with
      | 0, hk => exact absurd hk (by decide)
      | 1, _ => rfl
      | k + 2, hk =>
        have h4 : (4 : Int) ≤ 2 ^ (k + 2) := by
          have : (0 : Int) < 2 ^ k := Int.pow_pos (by decide)
          rw [Int.pow_succ, Int.pow_succ]; omega
        rw [Int.ediv_eq_zero_of_lt (by decide) (by omega)] at hk
        exact absurd hk (by decide)
  exact (flags_one (o1 := .good r o) (o2 := .good none (drawText (· == 1))) ⟨t, rfl, rfl⟩ ⟨e, rfl, rfl⟩).2

end Coil
