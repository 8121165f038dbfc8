import Verif.Proofs.ScopedIdeal
import Verif.Props.Independent

/-!
# Commands that are removed automatically (C91)

`ScopedDebugCommands` of the examples, on the hash map. `Spec.Scoped.ideal` says what is meant.
-/

namespace Coil
open Spec Spec.Scoped Scoped

variable {W C D : Type} {fixed charSigned : Bool} {exceeds : Nat → Nat → Bool} {w : W} {acts : List (Act C D)} {n : Bytes} {fs : List (C × D)}

namespace Scoped

/-- A program on the hash map; its registries belong to programs in the state `w`. -/
abbrev outcome (fixed charSigned : Bool) (exceeds : Nat → Nat → Bool) (w : W) (acts : List (Act C D)) :
    Res (Globe (UMap Bytes (Command C D)) W C D) :=
  run (mapOps fixed charSigned exceeds) (UMap.create (djb2 charSigned) 1) w acts start

/-- `g_globalBindings->get(n)` finds a command with these functions. -/
def Has (fixed charSigned : Bool) (exceeds : Nat → Nat → Bool) (g : Globe (UMap Bytes (Command C D)) W C D) (n : Bytes) (fs : List (C × D)) : Prop :=
  ∃ s c, g.global = some s ∧ bindingsGet (mapOps fixed charSigned exceeds) s n = .ok (some c) ∧ c.functors.map (fun f => (f.code, f.data)) = fs

/-- The map is repaired, or all its histories are such that `erase` works (C24). -/
def Sound (fixed charSigned : Bool) (exceeds : Nat → Nat → Bool) (w : W) (acts : List (Act C D)) : Prop :=
  fixed = true ∨ ∀ before after g s, acts = before ++ after → outcome fixed charSigned exceeds w before = .ok g → g.global = some s →
    SafeHistory s.history

theorem flat_of (hex : ∀ b, 0 < b → exceeds 1 b = false) {g : Globe (UMap Bytes (Command C D)) W C D}
    (hs : Sound fixed charSigned exceeds w acts) (h : outcome fixed charSigned exceeds w acts = .ok g) :
    ∃ f, Flat.run acts ⟨none, []⟩ = some f ∧ Sim (MapOf fixed (djb2 charSigned) exceeds) g f := by
  refine run_sim (map_implements hex) handled_prefix map_made acts start_sim ?_ h
  intro as bs g' e hr s hg
  rcases hs with hs | hs
  · exact .inl hs
  · exact .inr (hs as bs g' s e hr hg)

theorem has_iff (hex : ∀ b, 0 < b → exceeds 1 b = false) {g : Globe (UMap Bytes (Command C D)) W C D}
    (hs : Sound fixed charSigned exceeds w acts) (h : outcome fixed charSigned exceeds w acts = .ok g) {f : Flat C D}
    (hsim : Sim (MapOf fixed (djb2 charSigned) exceeds) g f) : Has fixed charSigned exceeds g n fs ↔ ∃ d, f.dict = some d ∧ d n = some fs := by
  have hsafe : ∀ s, g.global = some s → Handled fixed s.history := by
    intro s hg
    rcases hs with hs | hs
    · exact .inl hs
    · exact .inr (hs acts [] g s (by simp) h hg)
  constructor
  · rintro ⟨s, c, h1, h2, h3⟩
    obtain ⟨d, hd, hr⟩ := hsim.some h1
    refine ⟨d, hd, ?_⟩
    rw [hr.2 n]
    rw [bindingsGet, (map_implements hex).find hr.1 (hsafe s h1) n] at h2
    rw [Res.ok.inj h2]
    simp only [Option.map_some, plain, h3]
  · rintro ⟨d, hd, h2⟩
    have hr := hsim.reg
    rw [hd] at hr
    cases hg : g.global with
    | none => rw [hg] at hr; exact hr.elim
    | some s =>
      rw [hg] at hr
      rw [hr.2 n] at h2
      obtain ⟨c, h3, h4⟩ := Option.map_eq_some_iff.1 h2
      exact ⟨s, c, hg, by rw [bindingsGet, (map_implements hex).find hr.1 (hsafe s hg) n, h3], h4⟩

end Scoped

/-- **C91 (nothing dangles).** Whatever programs do with scopes, with any names: every command that is registered is one that ought to be. It
was added by the program, or through a scope that is still alive. So no function that was registered through a scope can be called after
the scope has ended. -/
theorem C91_no_dangling_partial (hex : ∀ b, 0 < b → exceeds 1 b = false) {g : Globe (UMap Bytes (Command C D)) W C D}
    (hs : Sound fixed charSigned exceeds w acts) (h : outcome fixed charSigned exceeds w acts = .ok g) (hn : Has fixed charSigned exceeds g n fs) :
    ∃ e o, (ideal acts).commands = some e ∧ e n = some (o, fs) ∧ ∀ i, o = some i → Alive acts i := by
  obtain ⟨f, h1, h2⟩ := flat_of hex hs h
  obtain ⟨hinv, _⟩ := run_inv acts h1
  obtain ⟨d, hd, h3⟩ := (has_iff hex hs h h2).1 hn
  obtain ⟨e, he⟩ := Option.isSome_iff_exists.1 (hinv.reg ▸ (by rw [hd]; rfl) : (ideal acts).commands.isSome = true)
  obtain ⟨o, g1, g2⟩ := hinv.sub d e n fs hd he h3
  refine ⟨e, o, he, g1, fun i hi => ?_⟩
  obtain ⟨ns, h4, _⟩ := (hinv.names i n).1 (g2 i hi)
  unfold Alive
  rw [hinv.alive]
  exact alive_of_names h4

/-- **C91 (exclusive names).** If nobody adds a name that another living scope has added, the registered commands are exactly those that ought
to be: the end of a scope takes its commands away and no others. Missing for the full claim: names used twice
(`C91_shared_false`), removals that break the map (`C91_as_is_false`). -/
theorem C91_exclusive_partial (hex : ∀ b, 0 < b → exceeds 1 b = false) {g : Globe (UMap Bytes (Command C D)) W C D}
    (hs : Sound fixed charSigned exceeds w acts) (h : outcome fixed charSigned exceeds w acts = .ok g) (hx : Exclusive acts) :
    Has fixed charSigned exceeds g n fs ↔ ∃ e o, (ideal acts).commands = some e ∧ e n = some (o, fs) := by
  constructor
  · intro hn
    obtain ⟨e, o, h1, h2, _⟩ := C91_no_dangling_partial hex hs h hn
    exact ⟨e, o, h1, h2⟩
  · rintro ⟨e, o, h1, h2⟩
    obtain ⟨f, h3, h4⟩ := flat_of hex hs h
    obtain ⟨hinv, hfull⟩ := run_inv acts h3
    obtain ⟨d, hd⟩ := Option.isSome_iff_exists.1 (hinv.reg.trans (by rw [h1]; rfl) : f.dict.isSome = true)
    exact (has_iff hex hs h h4).2 ⟨d, hd, (hfull hx d e n o fs hd h1 h2).1⟩

/-- **C91 (defined).** With the repaired map, a program with scopes has no undefined behaviour exactly if it uses scopes only while they are
alive and the registry lives whenever it is needed; a scope needs it at its end, if it has added something. -/
theorem C91_defined (hex : ∀ b, 0 < b → exceeds 1 b = false) :
    (∃ g, outcome true charSigned exceeds w acts = .ok g) ↔ UsesAlive acts ∧ RegistryLives acts := by
  rw [← Scoped.run_iff]
  constructor
  · rintro ⟨g, h⟩
    obtain ⟨f, h1, _⟩ := flat_of hex (.inl rfl) h
    exact ⟨f, h1⟩
  · rintro ⟨f, h⟩
    exact run_defined (map_implements hex) (fun _ => .inl rfl) map_made acts start_sim h

/-- **C91 is false for shared names**: if two scopes add the same name, the end of the first one takes the command of the second. -/
theorem C91_shared_false (hex : ∀ b, 0 < b → exceeds 1 b = false) (n : Bytes) (f1 f2 : List (C × D)) :
    let acts : List (Act C D) := [.make, .new, .addIn 0 n f1, .new, .addIn 1 n f2, .close 0]
    (∃ e, (ideal acts).commands = some e ∧ e n = some (some 1, f2)) ∧ Alive acts 1 ∧
      ∃ g, outcome true charSigned exceeds w acts = .ok g ∧ ∀ fs, ¬ Has true charSigned exceeds g n fs := by
  have h0 : Flat.run [.make, .new, .addIn 0 n f1, .new, .addIn 1 n f2, .close 0] (⟨none, []⟩ : Flat C D) =
      some ⟨some (fun k => if k ∈ [n] then none else if k = n then some f2 else if k = n then some f1 else none), [none, some [n]]⟩ := rfl
  refine ⟨⟨_, rfl, ?_⟩, rfl, ?_⟩
  · simp [Owned.set, Owned.without]
  · obtain ⟨g, hg⟩ := run_defined (w := w) (map_implements hex) (fun _ => .inl rfl) map_made _ start_sim h0
    refine ⟨g, hg, fun fs hh => ?_⟩
    obtain ⟨f, h1, h2⟩ := flat_of hex (.inl rfl) hg
    rw [h0] at h1
    cases h1
    obtain ⟨d, hd, h3⟩ := (has_iff hex (.inl rfl) hg h2).1 hh
    cases hd
    simp at h3

/-- **C91 is false after the end of the registry**: destroying a scope that has added a command, after `g_globalBindings = nullptr`,
dereferences the null pointer. -/
theorem C91_null_false (hex : ∀ b, 0 < b → exceeds 1 b = false) (n : Bytes) (fs : List (C × D)) :
    outcome fixed charSigned exceeds w [.make, .new, .addIn 0 n fs, .drop, .close 0] = .ub .nullDeref := by
  obtain ⟨m, h1, h2⟩ := map_made (C := C) (D := D) (fixed := fixed) (charSigned := charSigned) (exceeds := exceeds)
  obtain ⟨m', h3, _⟩ := (map_implements hex).put n (allocate 0 fs) h2 (.inr ⟨trivial, trivial⟩)
  have h4 := (map_implements hex).find h2 (.inr trivial) n
  simp only [outcome, run, step, start, h1, Res.bind_ok, freshSys, scopeAdd, namesOf, onGlobal, bindingsAdd, h4, h3, List.nil_append, List.getElem?_cons_zero,
    scopeClose, scopeClear, List.set_cons_zero, removeAll]
  rfl

/-! ## Examples -/

namespace Scoped

/-- The commands of `Subsystem` (EncapsulationExample.cpp 104-107), registered through the scope `i`. -/
def subsystem (i : Nat) : List (Act Nat Nat) :=
  [.addIn i (lit "subsystem.time") [(0, i)], .addIn i (lit "subsystem.counter") [(1, i)], .addIn i (lit "subsystem.data") [(2, i)],
    .addIn i (lit "subsystem.do_some_work") [(3, i)]]

/-- The start of the example (130-136), and `create_subsystem`. -/
def started : List (Act Nat Nat) :=
  [.make, .add (lit "create_subsystem") [(4, 0)], .add (lit "destroy_subsystem") [(5, 0)], .new] ++ subsystem 0

/-- The functions of a command. -/
abbrev found (r : Res (Globe (UMap Bytes (Command Nat Nat)) Unit Nat Nat)) (n : Bytes) : Res (Option (List (Nat × Nat))) := do
  let g ← r
  match g.global with
  | none => .ub .nullDeref
  | some s => do
    let c ← bindingsGet (mapOps false true overOne) s n
    .ok (c.map (fun c => c.functors.map (fun f => (f.code, f.data))))

/-- The names of the commands of the example. -/
def exampleNames : List Bytes :=
  [lit "create_subsystem", lit "destroy_subsystem", lit "subsystem.time", lit "subsystem.counter", lit "subsystem.data", lit "subsystem.do_some_work"]

end Scoped

/-- The example: after `destroy_subsystem` only the two commands of the program are left. -/
example : exampleNames.map (found (outcome false true overOne () (started ++ [.close 0]))) =
    [.ok (some [(4, 0)]), .ok (some [(5, 0)]), .ok none, .ok none, .ok none, .ok none] := by
  decide +kernel

/-- **C91 is false of the example itself**: `create_subsystem` twice. The second subsystem is made, then the first is destroyed; the second
is alive, but none of its commands is registered. -/
theorem C91_recreate_false :
    exampleNames.map (found (outcome false true overOne () (started ++ [.new] ++ subsystem 1 ++ [.close 0]))) =
        [.ok (some [(4, 0)]), .ok (some [(5, 0)]), .ok none, .ok none, .ok none, .ok none] ∧
      (∀ e, (ideal (started ++ [.new] ++ subsystem 1 ++ [.close 0])).commands = some e →
        exampleNames.map e = [some (none, [(4, 0)]), some (none, [(5, 0)]), some (some 1, [(0, 1)]), some (some 1, [(1, 1)]), some (some 1, [(2, 1)]),
          some (some 1, [(3, 1)])]) ∧
      Alive (started ++ [.new] ++ subsystem 1 ++ [.close 0]) 1 := by
  refine ⟨by decide +kernel, ?_, by unfold Alive; decide +kernel⟩
  have : (ideal (started ++ [.new] ++ subsystem 1 ++ [.close 0])).commands.map (fun e => exampleNames.map e) =
      some [some (none, [(4, 0)]), some (none, [(5, 0)]), some (some 1, [(0, 1)]), some (some 1, [(1, 1)]), some (some 1, [(2, 1)]),
          some (some 1, [(3, 1)])] := by decide +kernel
  intro e he
  rw [he] at this
  exact Option.some.inj this

/-- **C91 is false of the map as it is**: with names that nobody shares, the end of a scope loses the command `p` of the program (C24). -/
theorem C91_as_is_false :
    let acts : List (Act Nat Nat) := [.make, .new, .addIn 0 (lit "a") [(0, 1)], .new, .addIn 1 (lit "d") [(0, 2)], .add (lit "h") [(0, 3)], .new,
      .addIn 2 (lit "l") [(0, 4)], .close 1, .close 0, .add (lit "p") [(0, 5)], .add (lit "a") [(0, 6)], .close 2]
    found (outcome false true overOne () acts) (lit "p") = .ok none ∧
      ∀ e, (ideal acts).commands = some e → e (lit "p") = some (none, [(0, 5)]) := by
  refine ⟨by decide +kernel, ?_⟩
  have : (ideal ([.make, .new, .addIn 0 (lit "a") [(0, 1)], .new, .addIn 1 (lit "d") [(0, 2)], .add (lit "h") [(0, 3)], .new,
      .addIn 2 (lit "l") [(0, 4)], .close 1, .close 0, .add (lit "p") [(0, 5)], .add (lit "a") [(0, 6)], .close 2] : List (Act Nat Nat))).commands.map
      (fun e => e (lit "p")) = some (some (none, [(0, 5)])) := by decide +kernel
  intro e he
  rw [he] at this
  exact Option.some.inj this

/-- Moving a scope: the commands belong to the new one and outlive the old one. -/
example : [lit "x", lit "y"].map (found (outcome false true overOne () [.make, .new, .addIn 0 (lit "x") [(0, 1)], .move 0, .addIn 0 (lit "y") [(0, 2)],
    .close 0])) = [.ok (some [(0, 1)]), .ok none] := by
  decide +kernel

/-- The hypotheses of `C91_exclusive_partial` can be met. -/
example : Exclusive ([.make, .new, .addIn 0 (lit "x") [(0, 1)], .close 0] : List (Act Nat Nat)) := by
  have hc : ∀ i n, ¬ Claims ([.make, .new] : List (Act Nat Nat)) i n := by
    intro i n h
    rw [show ([.make, .new] : List (Act Nat Nat)) = ([] ++ [.make]) ++ [.new] from rfl,
      claims_same (by simp) (by simp) (by simp) (by simp), claims_same (by simp) (by simp) (by simp) (by simp)] at h
    exact claims_nil h
  intro before a after e
  match before, e with
  | [], e => cases e; trivial
  | [_], e => cases e; trivial
  | [_, _], e => cases e; exact fun j h => absurd h (hc j _)
  | [_, _, _], e => cases e; trivial
  | _ :: _ :: _ :: _ :: _ :: _, e => simp at e
  | [_, _, _, _], e => simp at e

end Coil
