import Verif.Proofs.Account
import Verif.Props.Fixed

/-!
# When a program answers (C117)
-/

namespace Coil
open Spec

variable {W C D : Type} {P : C → FunctorDef W C D} {T : Table C D} {good : W → Prop} {catching charSigned fixed : Bool} {cfg : LexCfg}
  {reqs : List Request} {exceeds : Nat → Nat → Bool} {w : W}

/-- **C117.** A program with fixed commands whose functions come to an end or not whatever the state is: it answers all requests exactly if every
line fits and has no lone quote in a group, and every command that is entered can be answered. -/
theorem C117_iff (hp : Proper cfg) (hex : ∀ b, 0 < b → exceeds 1 b = false) (hq : AllQuiet P) (hs : Steady P T good) (hw : good w) :
    (∃ fuel s outs, observed P (mapOps fixed charSigned exceeds) (UMap.create (djb2 charSigned) 1) catching fuel (some (fitting cfg)) w
      (fixedProgram T reqs) = .ok (s, outs)) ↔
    ∀ r ∈ reqs, Enterable (delims cfg) r ∧ ∀ i, Enters (delims cfg) r i → Answerable P T good i := by
  rw [← talk_iff (catching := catching) hp hs hw]
  constructor
  · rintro ⟨fuel, s, outs, h⟩
    exact ⟨outs, s.user, (C110_run hp hex hq).1 ⟨fuel, s, h, rfl⟩⟩
  · rintro ⟨outs, w', h⟩
    obtain ⟨fuel, s, h, _⟩ := (C110_run (fixed := fixed) (charSigned := charSigned) hp hex hq).2 h
    exact ⟨fuel, s, outs, h⟩

/-- **C117.** So whether the requests are answered depends neither on their order nor on how often they are repeated. -/
theorem C117_order (hp : Proper cfg) (hex : ∀ b, 0 < b → exceeds 1 b = false) (hq : AllQuiet P) (hs : Steady P T good) (hw : good w)
    {reqs' : List Request} (hr : ∀ r, r ∈ reqs ↔ r ∈ reqs')
    (h : ∃ fuel s outs, observed P (mapOps fixed charSigned exceeds) (UMap.create (djb2 charSigned) 1) catching fuel (some (fitting cfg)) w
      (fixedProgram T reqs) = .ok (s, outs)) :
    ∃ fuel s outs, observed P (mapOps fixed charSigned exceeds) (UMap.create (djb2 charSigned) 1) catching fuel (some (fitting cfg)) w
      (fixedProgram T reqs') = .ok (s, outs) := by
  rw [C117_iff hp hex hq hs hw] at h ⊢
  exact fun r h1 => h r ((hr r).2 h1)

/-- **C117.** For any program with fixed commands, whatever its functions do: if it has answered the requests up to now, it answers one more exactly if
that line fits and has no lone quote in a group, and the command that is entered can be answered in the state that the program is in. (Without
requests there is nothing to answer. So this decides, step by step, which requests are answered.) -/
theorem C117_next (hp : Proper cfg) (hex : ∀ b, 0 < b → exceeds 1 b = false) (hq : AllQuiet P) {fuel : Nat} {outs : List ExecOut}
    {s : Sys (UMap Bytes (Command C D)) W C D}
    (h : observed P (mapOps fixed charSigned exceeds) (UMap.create (djb2 charSigned) 1) catching fuel (some (fitting cfg)) w
      (fixedProgram T reqs) = .ok (s, outs)) (r : Request) :
    (∃ fuel s outs, observed P (mapOps fixed charSigned exceeds) (UMap.create (djb2 charSigned) 1) catching fuel (some (fitting cfg)) w
      (fixedProgram T (reqs ++ [r])) = .ok (s, outs)) ↔
    Enterable (delims cfg) r ∧ ∀ i, Enters (delims cfg) r i → Answerable P T (fun v => v = s.user) i := by
  have ht := (C110_run hp hex hq).1 ⟨fuel, s, h, rfl⟩
  rw [← talk_one (catching := catching) hp]
  constructor
  · rintro ⟨fuel, s', outs', h'⟩
    obtain ⟨o1, o2, w1, _, g1, g2⟩ := talk_split ((C110_run hp hex hq).1 ⟨fuel, s', h', rfl⟩)
    obtain ⟨_, rfl⟩ := talk_unique hp ht g1
    exact ⟨_, _, g2⟩
  · rintro ⟨o2, w2, g⟩
    obtain ⟨fuel, s', h', _⟩ := (C110_run (fixed := fixed) (charSigned := charSigned) hp hex hq).2 (talk_join ht g)
    exact ⟨fuel, s', _, h'⟩

/-- **C117.** No request is answered after one that is not. -/
theorem C117_prefix (hp : Proper cfg) (hex : ∀ b, 0 < b → exceeds 1 b = false) (hq : AllQuiet P) {more : List Request}
    (h : ∃ fuel s outs, observed P (mapOps fixed charSigned exceeds) (UMap.create (djb2 charSigned) 1) catching fuel (some (fitting cfg)) w
      (fixedProgram T (reqs ++ more)) = .ok (s, outs)) :
    ∃ fuel s outs, observed P (mapOps fixed charSigned exceeds) (UMap.create (djb2 charSigned) 1) catching fuel (some (fitting cfg)) w
      (fixedProgram T reqs) = .ok (s, outs) := by
  obtain ⟨fuel, s', outs', h'⟩ := h
  obtain ⟨o1, o2, w1, _, g1, g2⟩ := talk_split ((C110_run hp hex hq).1 ⟨fuel, s', h', rfl⟩)
  obtain ⟨fuel, s', h', _⟩ := (C110_run (fixed := fixed) (charSigned := charSigned) hp hex hq).2 g1
  exact ⟨fuel, s', _, h'⟩

/-- **C117.** If all conversions are defined and all functions come to an end, the program answers exactly the requests that can be read. -/
theorem C117_total (hp : Proper cfg) (hex : ∀ b, 0 < b → exceeds 1 b = false) (hq : AllQuiet P) (ht : TotalTable P T) :
    (∃ fuel s outs, observed P (mapOps fixed charSigned exceeds) (UMap.create (djb2 charSigned) 1) catching fuel (some (fitting cfg)) w
      (fixedProgram T reqs) = .ok (s, outs)) ↔ ∀ r ∈ reqs, Enterable (delims cfg) r := by
  have hs : Steady P T (fun _ => True) := ⟨fun hc hf _ _ _ => (ht _ hc _ hf).2 _ _ _, fun _ _ _ _ => trivial⟩
  rw [C117_iff hp hex hq hs trivial]
  refine ⟨fun h r hr => (h r hr).1, fun h r hr => ⟨h r hr, fun i _ fs f _ hfs hf => ?_⟩⟩
  obtain ⟨h1, h2⟩ := ht _ (functions_mem hfs) f (firstTaking_member hf)
  exact ⟨(conversions_total h1 (firstTaking_length hf)).1, fun xs _ w _ => h2 xs _ w⟩

/-! ## Example -/

open Notebook

/-- The functions of the notebook come to an end in every state. -/
theorem notebook_steady : Steady functions table (fun _ => True) where
  same := by
    rintro _ ⟨c, u⟩ xs l w v es e w' _ _ _ _ _
    dsimp only
    cases c with
    | note => exact ⟨_, _, _, .get (.set (.log .ret))⟩
    | notes => exact ⟨_, _, _, .get .ret⟩
    | empty => exact ⟨_, _, _, .throw⟩
  stays := by intros; trivial

/-- The notebook answers exactly the requests that can be read, although one of its commands throws. -/
example (reqs : List Request) : (∃ fuel s outs, observed functions (mapOps false true overOne) (UMap.create (djb2 true) 1) true fuel
      (some (fitting (LexCfg.default true))) [] (fixedProgram table reqs) = .ok (s, outs)) ↔
    ∀ r ∈ reqs, Enterable (delims (LexCfg.default true)) r := by
  exact C117_total (proper_default true) (by intro b hb; simp [overOne]; omega) quiet total

/-- A request that the notebook cannot read: a lone quote in a group. -/
example : ¬ Enterable (delims (LexCfg.default true)) (.line (lit "note (\")")) := by
  intro h
  have h1 : lexRead (LexCfg.default true) (lit "note (\")") = .ub .oobRead := by decide +kernel
  rcases command_total (d := delims (LexCfg.default true)) (lit "note (\")") with ⟨i, hi⟩ | ⟨m, hm⟩ | hl
  · rw [lexRead_accepts (proper_default true) hi] at h1
    cases h1
  · rw [lexRead_rejects (proper_default true) hm] at h1
    cases h1
  · exact h.2 hl

end Coil
