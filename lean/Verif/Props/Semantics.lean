import Verif.Proofs.Semantics
import Verif.Props.Independent

/-!
# The meaning of programs (C89)

`Spec/Semantics.lean` says what a program that uses the library means: relations over dictionaries of commands, a grammar of command
lines and the statements of user functions. These theorems say that the library, run on its lexer, its hash map and its call contexts,
does that and nothing else.
-/

namespace Coil
open Spec

variable {W C D : Type} {P : C → FunctorDef W C D} {catching : Bool} {cfg : LexCfg} {w : W} {acts : List (Action W C D)}
  {outs : List ExecOut} {σ : Scene W C D}

/-- **C89 (sound).** With the repaired `erase`: whatever a program does that ends, in any number of nested executions, is what the semantics
says: there is a derivation of its results, and the state of the program, the commands, the objects made and destroyed are as derived. -/
theorem C89_sound (hp : Proper cfg) {charSigned : Bool} {exceeds : Nat → Nat → Bool} (hex : ∀ b, 0 < b → exceeds 1 b = false) {fuel : Nat}
    {s : Sys (UMap Bytes (Command C D)) W C D}
    (h : observed P (mapOps true charSigned exceeds) (UMap.create (djb2 charSigned) 1) catching fuel (some (fitting cfg)) w acts = .ok (s, outs)) :
    ∃ σ, Acts P catching (Scene.start (delims cfg) w) acts outs σ ∧ Shows (mapOps true charSigned exceeds) s σ := by
  obtain ⟨m, h1, h2⟩ := map_made (C := C) (D := D) (fixed := true) (charSigned := charSigned) (exceeds := exceeds)
  simp only [observed, h1, Res.bind_ok] at h
  exact container_sound handled_prefix (map_implements hex) h2 hp h (.inl rfl)

/-- **C89 (complete).** With the repaired `erase`: what the semantics says happens: a program with a derivation ends, within some depth
of recursion, with these results and in this scene. -/
theorem C89_complete (hp : Proper cfg) {charSigned : Bool} {exceeds : Nat → Nat → Bool} (hex : ∀ b, 0 < b → exceeds 1 b = false)
    (h : Acts P catching (Scene.start (delims cfg) w) acts outs σ) :
    ∃ fuel s, observed P (mapOps true charSigned exceeds) (UMap.create (djb2 charSigned) 1) catching fuel (some (fitting cfg)) w acts =
        .ok (s, outs) ∧ Shows (mapOps true charSigned exceeds) s σ := by
  obtain ⟨m, h1, h2⟩ := map_made (C := C) (D := D) (fixed := true) (charSigned := charSigned) (exceeds := exceeds)
  simp only [observed, h1, Res.bind_ok]
  exact container_complete handled_prefix (map_implements hex) h2 hp h (.inl rfl)

/-- **C89 (no meaning).** A program has no derivation exactly if it runs into undefined behaviour or never ends, whatever the depth of recursion. -/
theorem C89_undefined (hp : Proper cfg) {charSigned : Bool} {exceeds : Nat → Nat → Bool} (hex : ∀ b, 0 < b → exceeds 1 b = false) :
    (¬ ∃ outs σ, Acts P catching (Scene.start (delims cfg) w) acts outs σ) ↔
      ∀ fuel, (∃ u, observed P (mapOps true charSigned exceeds) (UMap.create (djb2 charSigned) 1) catching fuel (some (fitting cfg)) w acts =
          .ub u) ∨
        observed P (mapOps true charSigned exceeds) (UMap.create (djb2 charSigned) 1) catching fuel (some (fitting cfg)) w acts = .diverge := by
  constructor
  · intro h fuel
    cases hr : observed P (mapOps true charSigned exceeds) (UMap.create (djb2 charSigned) 1) catching fuel (some (fitting cfg)) w acts with
    | ok x =>
      obtain ⟨σ, h1, _⟩ := C89_sound hp hex hr
      exact absurd ⟨_, σ, h1⟩ h
    | ub u => exact .inl ⟨u, rfl⟩
    | diverge => exact .inr rfl
  · rintro h ⟨outs, σ, hd⟩
    obtain ⟨fuel, s, h1, _⟩ := C89_complete hp hex hd
    rcases h fuel with ⟨u, h2⟩ | h2 <;> rw [h1] at h2 <;> cases h2

/-- **C89 (determinism).** The semantics gives a program one meaning at most. -/
theorem C89_one_meaning (hp : Proper cfg) {outs' : List ExecOut} {σ' : Scene W C D}
    (h : Acts P catching (Scene.start (delims cfg) w) acts outs σ) (h' : Acts P catching (Scene.start (delims cfg) w) acts outs' σ') :
    outs = outs' ∧ σ.user = σ'.user ∧ σ.commands = σ'.commands ∧ σ.made = σ'.made ∧ σ.changes = σ'.changes := by
  obtain ⟨f1, s1, h1, p1⟩ := acts_complete h (Pic.start hp w)
  obtain ⟨f2, s2, h2, p2⟩ := acts_complete h' (Pic.start hp w)
  have e := (acts_more (Nat.le_max_left f1 f2) h1).symm.trans (acts_more (Nat.le_max_right f1 f2) h2)
  cases e
  refine ⟨rfl, p1.user.symm.trans p2.user, funext fun n => ?_, p1.made.symm.trans p2.made, p1.changes.symm.trans p2.changes⟩
  have := (p1.commands n).symm.trans (p2.commands n)
  cases hn : σ.commands n <;> cases hn' : σ'.commands n <;> simp_all

/-- **C89 (code as it is).** The same for the hash map as it is, for changes that its `erase` handles (C24), in both directions. Missing for
the full claim: programs with other removals (`C89_as_is_false`). -/
theorem C89_as_is_partial (hp : Proper cfg) {charSigned : Bool} {exceeds : Nat → Nat → Bool} (hex : ∀ b, 0 < b → exceeds 1 b = false) :
    (∀ {fuel s}, observed P (mapOps false charSigned exceeds) (UMap.create (djb2 charSigned) 1) catching fuel (some (fitting cfg)) w acts =
        .ok (s, outs) → SafeHistory s.history →
      ∃ σ, Acts P catching (Scene.start (delims cfg) w) acts outs σ ∧ Shows (mapOps false charSigned exceeds) s σ) ∧
    (∀ {σ}, Acts P catching (Scene.start (delims cfg) w) acts outs σ → SafeHistory σ.changes →
      ∃ fuel s, observed P (mapOps false charSigned exceeds) (UMap.create (djb2 charSigned) 1) catching fuel (some (fitting cfg)) w acts =
        .ok (s, outs) ∧ Shows (mapOps false charSigned exceeds) s σ) := by
  obtain ⟨m, h1, h2⟩ := map_made (C := C) (D := D) (fixed := false) (charSigned := charSigned) (exceeds := exceeds)
  simp only [observed, h1, Res.bind_ok]
  exact ⟨fun h hs => container_sound handled_prefix (map_implements hex) h2 hp h (.inr hs),
    fun h hs => container_complete handled_prefix (map_implements hex) h2 hp h (.inr hs)⟩

/-- **C89 (on heaps).** And for the hash map whose vectors live on the heap, with or without the repair, as long as the sizes are
representable. -/
theorem C89_heap_partial (hp : Proper cfg) {c : HMap.Cfg Bytes (Command C D)} (hN : 0 < c.nodeSize) (hB : 0 < c.indexSize)
    (hex : ∀ b, 0 < b → c.exceeds 1 b = false) (hi1 : c.indexSize < 2 ^ 64) :
    (∀ {fuel s}, observed P (heapOps c) (heapMade c) catching fuel (some (fitting cfg)) w acts = .ok (s, outs) →
      (c.fixed = true ∨ SafeHistory s.history) → 3 * (s.history.length + 1) * c.nodeSize < 2 ^ 64 →
      s.history.length * 2 * c.indexSize < 2 ^ 64 →
      ∃ σ, Acts P catching (Scene.start (delims cfg) w) acts outs σ ∧ Shows (heapOps c) s σ) ∧
    (∀ {σ}, Acts P catching (Scene.start (delims cfg) w) acts outs σ → (c.fixed = true ∨ SafeHistory σ.changes) →
      3 * (σ.changes.length + 1) * c.nodeSize < 2 ^ 64 → σ.changes.length * 2 * c.indexSize < 2 ^ 64 →
      ∃ fuel s, observed P (heapOps c) (heapMade c) catching fuel (some (fitting cfg)) w acts = .ok (s, outs) ∧ Shows (heapOps c) s σ) := by
  obtain ⟨m, h1, h2⟩ := heap_made (C := C) (D := D) hN hB hi1
  simp only [observed, h1, Res.bind_ok]
  exact ⟨fun h hs h3 h4 => container_sound heapHandled_prefix (heap_implements hex hN hB) h2 hp h ⟨hs, h3, h4⟩,
    fun h hs h3 h4 => container_complete heapHandled_prefix (heap_implements hex hN hB) h2 hp h ⟨hs, h3, h4⟩⟩

/-! ## Examples -/

namespace Demo

/-- The example program on the hash map, with the lexer for texts that fit in memory. -/
abbrev meant (fixed : Bool) (acts : List (Action Int Nat Nat)) : Res (Sys Reg Int Nat Nat × List ExecOut) :=
  observed Demo.P (mapOps fixed true overOne) (UMap.create (djb2 true) 1) true 5 (some (fitting (LexCfg.default true))) 10 acts

/-- The beginning of the example programs. -/
abbrev scene : Scene Int Nat Nat := Scene.start (delims (LexCfg.default true)) 10

end Demo

/-- A program that removes a command from inside of another one has a meaning, found by running it: three results and the state 42. -/
example : ∃ outs σ, Acts Demo.P true Demo.scene Demo.acts outs σ ∧ σ.user = 42 ∧ σ.commands (lit "add") = none ∧
    outs.map (fun o => o.toOption.map (fun r => (r.errors, r.returnValue))) =
      [some ([], some (lit "17")), some ([], none), some ([lit "No function 'nonsense' is registered"], none)] := by
  have h : (Demo.meant true Demo.acts).map Demo.ended = .ok [some ([], some (lit "17")), some ([], none),
      some ([lit "No function 'nonsense' is registered"], none)] := by decide +kernel
  have h2 : (Demo.meant true Demo.acts).map (fun x => x.1.user) = .ok 42 := by decide +kernel
  have h3 : (Demo.meant true Demo.acts).map (fun x => (bindingsGet (mapOps true true overOne) x.1 (lit "add")).map (fun c => c.isSome)) =
      .ok (.ok false) := by decide +kernel
  cases hr : Demo.meant true Demo.acts with
  | ub u => rw [hr] at h; cases h
  | diverge => rw [hr] at h; cases h
  | ok x =>
    obtain ⟨s, outs⟩ := x
    rw [hr] at h h2 h3
    simp only [Res.map_ok, Res.ok.injEq] at h h2 h3
    obtain ⟨σ, g1, g2⟩ := C89_sound (proper_default true) (fun b hb => by simp [overOne]; omega) hr
    refine ⟨outs, σ, g1, g2.user.symm.trans h2, ?_, h⟩
    rw [g2.commands] at h3
    cases hc : σ.commands (lit "add") with
    | none => rfl
    | some fs => rw [hc] at h3; cases h3

/-- A derivation by hand: the line `f` where there is no command `f`. -/
example : Performs Demo.P true Demo.scene (.line (lit "f")) Demo.scene
    (.ok ⟨⟨lit "f", [], []⟩, [lit "No function 'f' is registered"], none, []⟩) := by
  refine .line (i := ⟨lit "f", [], []⟩) ⟨by decide, [.word (lit "f")], ?_, .cmd .nil⟩ (.unknown (by decide) rfl)
  have o : Ordinary (delims (LexCfg.default true)) 102 := by
    refine ⟨?_, ?_, ?_, ?_⟩ <;> decide
  exact .bare (c := 102) (w := []) (s := []) o (by simp) (by intro c h; cases h) (by simp) .nil

/-- A function that removes its only command and then reads its captured data does nothing that has a meaning. -/
example {R : Type} {self : Inst C D} {l : List Named} {k : D → Prog W C D R} {name : Bytes}
    (hin : ∀ n fs, σ.commands n = some fs → self ∈ fs → n = name) :
    ¬ ∃ es e σ', Does P catching self l [] (.remove name (.captured k)) σ es e σ' := by
  rintro ⟨es, e, σ', h⟩
  cases h with
  | remove h =>
    cases h with
    | captured hh _ =>
      obtain ⟨n, fs, h1, h2⟩ := hh
      simp only [Scene.remove] at h1
      split at h1
      · cases h1
      · rename_i hn
        exact hn (hin n fs h1 h2)

/-- **C89 is false of the code**: this program means that `p` is called, and the hash map as it is does not know `p`. -/
theorem C89_as_is_false : ∃ outs σ, Acts Demo.P true Demo.scene Demo.losing outs σ ∧
    outs.map (fun o => o.toOption.map (fun r => (r.errors, r.returnValue))) = [some ([], some (lit "10"))] ∧
    (Demo.meant false Demo.losing).map Demo.ended = .ok [some ([lit "No function 'p' is registered"], none)] := by
  have h : (Demo.meant true Demo.losing).map Demo.ended = .ok [some ([], some (lit "10"))] := by decide +kernel
  have h' : (Demo.meant false Demo.losing).map Demo.ended = .ok [some ([lit "No function 'p' is registered"], none)] := by decide +kernel
  cases hr : Demo.meant true Demo.losing with
  | ub u => rw [hr] at h; cases h
  | diverge => rw [hr] at h; cases h
  | ok x =>
    obtain ⟨s, outs⟩ := x
    rw [hr] at h
    simp only [Res.map_ok, Res.ok.injEq] at h
    obtain ⟨σ, g1, _⟩ := C89_sound (proper_default true) (fun b hb => by simp [overOne]; omega) hr
    exact ⟨outs, σ, g1, h, h'⟩

end Coil
