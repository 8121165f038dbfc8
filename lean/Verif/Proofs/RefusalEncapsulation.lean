import Verif.Spec.RefusalEncapsulation
import Verif.Proofs.EncapsulationStep
import Verif.Proofs.Refusal

/-!
# All answers of the program of examples/encapsulation: lemmas
-/

namespace Coil
open Spec Fl Floats

variable {pl : Platform} {tiny : Nat → Nat → Bool} {size : Bytes} {catching : Bool} {σ : SubScene} {i : Input} {g : Stage} {d : Delims}

/-- The commands at a stage. -/
def stageTable (on : Bool) (j : Nat) : Table SubCode Nat :=
  [(lit "create_subsystem", [(.create, 0)]), (lit "destroy_subsystem", [(.destroy, 0)])] ++
    if on then
      [(lit "subsystem.time", [(.time, j), (.setTime, j)]), (lit "subsystem.counter", [(.counter, j), (.setCounter, j)]),
        (lit "subsystem.data", [(.data, j), (.setData, j)]), (lit "subsystem.do_some_work", [(.work, j)])]
    else []

theorem stage_signatures {j : Nat} : HasSignatures pl tiny size (subFunctions pl tiny) (stageTable g.usable j) g.signatures := by
  have hc : ∀ {α : Type} {c : Conv α} {k : Kind}, Suits pl tiny size c k → SuitsAll pl tiny size [⟨α, c⟩] [k] := fun h => ⟨h, trivial⟩
  unfold stageTable Stage.signatures
  refine .cons ⟨rfl, .cons trivial .nil⟩ (.cons ⟨rfl, .cons trivial .nil⟩ ?_)
  cases g.usable with
  | false => exact .nil
  | true =>
    exact .cons ⟨rfl, .cons trivial (.cons (hc suits_float) .nil)⟩ (.cons ⟨rfl, .cons trivial (.cons (hc suits_int) .nil)⟩
      (.cons ⟨rfl, .cons trivial (.cons (hc suits_text) .nil)⟩ (.cons ⟨rfl, .cons ⟨suits_text, suits_int, trivial⟩ .nil⟩ .nil)))

theorem staged_tabled (h : Staged d σ g) : Tabled (stageTable g.usable (σ.user.current.getD 0)) d σ := by
  obtain ⟨b, hb⟩ := h.commands
  refine ⟨fun n => ?_, h.reads⟩
  rw [hb]
  generalize σ.user.current.getD 0 = j
  by_cases h1 : n = lit "create_subsystem"
  · subst h1
    cases g.usable <;> rfl
  by_cases h2 : n = lit "destroy_subsystem"
  · subst h2
    cases g.usable <;> rfl
  cases g.usable with
  | false =>
    have h1' : ¬ lit "create_subsystem" = n := fun e => h1 e.symm
    have h2' : ¬ lit "destroy_subsystem" = n := fun e => h2 e.symm
    simp [subTable, h1, h2, stageTable, Table.functions, h1', h2']
  | true =>
    by_cases t1 : n = lit "subsystem.time"
    · subst t1; rfl
    by_cases t2 : n = lit "subsystem.counter"
    · subst t2; rfl
    by_cases t3 : n = lit "subsystem.data"
    · subst t3; rfl
    by_cases t4 : n = lit "subsystem.do_some_work"
    · subst t4; rfl
    have h1' : ¬ lit "create_subsystem" = n := fun e => h1 e.symm
    have h2' : ¬ lit "destroy_subsystem" = n := fun e => h2 e.symm
    have t1' : ¬ lit "subsystem.time" = n := fun e => t1 e.symm
    have t2' : ¬ lit "subsystem.counter" = n := fun e => t2 e.symm
    have t3' : ¬ lit "subsystem.data" = n := fun e => t3 e.symm
    have t4' : ¬ lit "subsystem.do_some_work" = n := fun e => t4 e.symm
    simp [subTable, h1, h2, t1, t2, t3, t4, stageTable, Table.functions, h1', h2', t1', t2', t3', t4']

/-- All conversions are defined. -/
theorem sub_defined (c : SubCode) {vs : List Value} (h : (subFunctions pl tiny c).params.length = vs.length) :
    ConversionsDefined (subFunctions pl tiny c).params vs := by
  have one : ∀ {α : Type} {k : Conv α}, (∀ v, ∃ r, k.fromString v = .ok r) → ∀ {vs : List Value}, 1 = vs.length → ConversionsDefined [⟨α, k⟩] vs := by
    intro α k hk vs h
    match vs, h with
    | [v], _ => exact ⟨hk v, trivial⟩
  have none_ : ∀ {vs : List Value}, 0 = vs.length → ConversionsDefined [] vs := by
    intro vs h
    match vs, h with
    | [], _ => trivial
  cases c with
  | create | destroy | time | counter | data => exact none_ h
  | setTime => exact one arith_total h
  | setCounter => exact one arith_total h
  | setData => exact one string_total h
  | work =>
    match vs, h with
    | [v, v'], _ => exact ⟨string_total v, arith_total v', trivial⟩

theorem sub_either (i : Input) : (∃ es, Declined pl tiny size g.signatures i es) ∨ Understood pl tiny size g.signatures i := by
  have hs := stage_signatures (pl := pl) (tiny := tiny) (size := size) (g := g) (j := 0)
  by_cases hn : i.name = []
  · exact .inl ⟨_, .noName hn⟩
  rcases signatures_of hs i.name with ⟨_, g2⟩ | ⟨fs, kss, _, g2, g3⟩
  · exact .inl ⟨_, .unknown hn g2⟩
  rcases firstTaking_or (P := subFunctions pl tiny) i.arguments.length fs with h | ⟨f, hf⟩
  · exact .inl ⟨_, .count hn g2 ((fits_none g3).1 h)⟩
  obtain ⟨ks, k1, k2⟩ := fits_first g3 hf
  obtain ⟨_, _, _, hl, _⟩ := id hf
  have hj := (judged_iff (vs := i.arguments) k2).2 ⟨sub_defined f.1 hl, rfl⟩
  by_cases he : conversionErrors (subFunctions pl tiny f.1).params i.arguments = []
  · rw [he] at hj
    exact .inr ⟨hn, kss, ks, g2, k1, hj⟩
  · exact .inl ⟨_, .arguments hn g2 k1 hj he⟩

theorem judged_none {vs : List Value} (h : Judged pl tiny size [] vs []) : vs = [] := by
  cases h
  rfl

theorem judged_single {k : Kind} {vs : List Value} (h : Judged pl tiny size [k] vs []) : ∃ v, vs = [v] ∧ k.Takes pl tiny v := by
  cases h with
  | takes h1 h2 =>
    cases h2
    exact ⟨_, rfl, h1⟩

theorem judged_double {k l : Kind} {vs : List Value} (h : Judged pl tiny size [k, l] vs []) : ∃ v v', vs = [v, v'] ∧ k.Takes pl tiny v ∧ l.Takes pl tiny v' := by
  cases h with
  | takes h1 h2 =>
    obtain ⟨v', rfl, h3⟩ := judged_single h2
    exact ⟨_, v', rfl, h1, h3⟩

theorem firstWith_mem {n : Nat} {kss : List (List Kind)} {ks : List Kind} (h : FirstWith n kss ks) : ks ∈ kss := by
  obtain ⟨a, b, rfl, _⟩ := h
  simp

/-- A command that is understood is carried out. -/
theorem understood_accepted (hu : g.usable = true → ∃ p, g.part = some p) (h : Understood pl tiny size g.signatures i) :
    ∃ σ1 v, Accepted pl tiny g i σ1 v := by
  obtain ⟨name, args, named⟩ := i
  obtain ⟨_, kss, ks, h1, h2, h3⟩ := h
  have hm := firstWith_mem h2
  dsimp only at h1 h3
  by_cases n1 : name = lit "create_subsystem"
  · subst n1
    have : g.signatures.of (lit "create_subsystem") = some [[]] := by
      unfold Stage.signatures
      cases g.usable <;> rfl
    rw [this] at h1
    cases h1
    obtain rfl := List.mem_singleton.1 hm
    obtain rfl := judged_none h3
    exact ⟨_, _, .create⟩
  by_cases n2 : name = lit "destroy_subsystem"
  · subst n2
    have : g.signatures.of (lit "destroy_subsystem") = some [[]] := by
      unfold Stage.signatures
      cases g.usable <;> rfl
    rw [this] at h1
    cases h1
    obtain rfl := List.mem_singleton.1 hm
    obtain rfl := judged_none h3
    exact ⟨_, _, .destroy⟩
  have n1' : ¬ lit "create_subsystem" = name := fun e => n1 e.symm
  have n2' : ¬ lit "destroy_subsystem" = name := fun e => n2 e.symm
  cases hg : g.usable with
  | false =>
    unfold Stage.signatures at h1
    simp [hg, Signatures.of, n1', n2'] at h1
  | true =>
    obtain ⟨p, hp⟩ := hu hg
    have eg : g = ⟨some p, true⟩ := by rw [← hp, ← hg]
    have two : ∀ {k : Kind}, some [[], [k]] = some kss → (args = [] ∨ ∃ v, args = [v] ∧ k.Takes pl tiny v) := by
      intro k e
      cases e
      rcases List.mem_cons.1 hm with rfl | hm
      · exact .inl (judged_none h3)
      · obtain rfl := List.mem_singleton.1 hm
        exact .inr (judged_single h3)
    unfold Stage.signatures at h1
    rw [hg] at h1
    by_cases t1 : name = lit "subsystem.time"
    · subst t1
      rcases two (k := .float) h1 with rfl | ⟨v, rfl, hv⟩
      · exact ⟨_, _, .time eg⟩
      · obtain ⟨x, hx⟩ := (suits_float (pl := pl) (size := size) v).1.2 hv
        exact ⟨_, _, .setTime eg hx⟩
    by_cases t2 : name = lit "subsystem.counter"
    · subst t2
      rcases two (k := .int) h1 with rfl | ⟨v, rfl, s, z, rfl, hz⟩
      · exact ⟨_, _, .counter eg⟩
      · exact ⟨_, _, .setCounter eg hz.1 hz.2⟩
    by_cases t3 : name = lit "subsystem.data"
    · subst t3
      rcases two (k := .text) h1 with rfl | ⟨v, rfl, s, rfl⟩
      · exact ⟨_, _, .data eg⟩
      · exact ⟨_, _, .setData eg⟩
    by_cases t4 : name = lit "subsystem.do_some_work"
    · subst t4
      have e : some [[Kind.text, Kind.int]] = some kss := h1
      cases e
      obtain rfl := List.mem_singleton.1 hm
      obtain ⟨v, v', rfl, ⟨s, rfl⟩, t, z, rfl, hz⟩ := judged_double h3
      exact ⟨_, _, .work eg hz.1 hz.2⟩
    have t1' : ¬ lit "subsystem.time" = name := fun e => t1 e.symm
    have t2' : ¬ lit "subsystem.counter" = name := fun e => t2 e.symm
    have t3' : ¬ lit "subsystem.data" = name := fun e => t3 e.symm
    have t4' : ¬ lit "subsystem.do_some_work" = name := fun e => t4 e.symm
    simp [Signatures.of, n1', n2', t1', t2', t3', t4'] at h1

/-- And a command that is carried out is understood. -/
theorem accepted_understood {σ1 : Stage} {v : Option Bytes} (h : Accepted pl tiny g i σ1 v) : Understood pl tiny size g.signatures i := by
  have zero : ∀ {n : Bytes} {named : List Named} {rest : List (List Kind)}, n ≠ [] → g.signatures.of n = some ([] :: rest) →
      Understood pl tiny size g.signatures ⟨n, [], named⟩ := fun hn h => ⟨hn, _, [], h, ⟨[], _, rfl, rfl, by simp⟩, .nil⟩
  have one : ∀ {n : Bytes} {named : List Named} {k : Kind} {v : Value}, n ≠ [] → g.signatures.of n = some [[], [k]] → k.Takes pl tiny v →
      Understood pl tiny size g.signatures ⟨n, [v], named⟩ := fun hn h hv => ⟨hn, _, [_], h, ⟨[[]], _, rfl, rfl, by simp⟩, .takes hv .nil⟩
  have hon : ∀ {p : Part}, g = ⟨some p, true⟩ → g.signatures = Stage.signatures ⟨some p, true⟩ := fun h => by rw [h]
  cases h with
  | create =>
    refine zero (rest := []) (by decide +kernel) ?_
    unfold Stage.signatures
    cases g.usable <;> rfl
  | destroy =>
    refine zero (rest := []) (by decide +kernel) ?_
    unfold Stage.signatures
    cases g.usable <;> rfl
  | time e => exact zero (rest := [[.float]]) (by decide +kernel) (by rw [hon e]; rfl)
  | counter e => exact zero (rest := [[.int]]) (by decide +kernel) (by rw [hon e]; rfl)
  | data e => exact zero (rest := [[.text]]) (by decide +kernel) (by rw [hon e]; rfl)
  | setTime e hx => exact one (k := .float) (by decide +kernel) (by rw [hon e]; rfl) ((suits_float (pl := pl) (size := size) _).1.1 ⟨_, hx⟩)
  | setCounter e h1 h2 => exact one (k := .int) (by decide +kernel) (by rw [hon e]; rfl) ⟨_, _, rfl, h1, h2⟩
  | setData e => exact one (k := .text) (by decide +kernel) (by rw [hon e]; rfl) ⟨_, rfl⟩
  | work e h1 h2 =>
    exact ⟨by dsimp only; decide +kernel, [[.text, .int]], [.text, .int], by rw [hon e]; rfl, ⟨[], [], rfl, rfl, by simp⟩,
      .takes ⟨_, rfl⟩ (.takes ⟨_, _, rfl, h1, h2⟩ .nil)⟩

/-- The answer to a command that is given without its line. -/
theorem step_answer (h : Staged d σ g) (i : Input) :
    ∃ σ' g' out, Performs (subFunctions pl tiny) catching σ (.input i) σ' out ∧ Staged d σ' g' ∧ SubAnswer pl tiny size g i g' out := by
  rcases sub_either (pl := pl) (tiny := tiny) (size := size) (g := g) i with ⟨es, hd⟩ | hu
  · have hr := (declined_replies (catching := catching) (w := σ.user) (w' := σ.user) (stage_signatures (j := σ.user.current.getD 0)) hd).2 ⟨rfl, rfl⟩
    exact ⟨_, g, _, performs_of_replies (staged_tabled h) hr, h, .refused hd⟩
  · obtain ⟨σ', g', out, h1, h2, ⟨input, errors, value, output⟩, h3, h4, h5, h6⟩ := step_input (pl := pl) (tiny := tiny) (catching := catching) h i
    refine ⟨σ', g', out, h1, h2, ?_⟩
    rcases h6 with ⟨ha, he⟩ | ⟨hno, _⟩
    · dsimp only at h4 h5 he ha
      subst h3 h4 h5 he
      exact .done ha
    · exact absurd (understood_accepted h.usable hu) hno

/-- All requests. -/
theorem tale_all {reqs : List Request} (hr : ∀ r ∈ reqs, Enterable d r) :
    ∀ {σ : SubScene} {g : Stage}, Staged d σ g → ∃ outs σ' g', Acts (subFunctions pl tiny) catching σ (reqs.map .exec) outs σ' ∧ Staged d σ' g' ∧
      SubTale d pl tiny size g reqs outs g' := by
  induction reqs with
  | nil => exact fun h => ⟨[], _, _, .done, h, .nil⟩
  | cons r rest ih =>
    intro σ g h
    have hrest := fun r' hr' => hr r' (List.mem_cons_of_mem _ hr')
    cases r with
    | input i =>
      obtain ⟨σ1, g1, o, hp, hs, he⟩ := step_answer (pl := pl) (tiny := tiny) (size := size) (catching := catching) h i
      obtain ⟨outs, σ', g', h1, h2, h3⟩ := ih hrest hs
      exact ⟨_, σ', g', .exec hp h1, h2, .input he h3⟩
    | line t =>
      obtain ⟨hlen, hq⟩ := hr _ List.mem_cons_self
      rcases command_total (d := d) t with ⟨i, hi⟩ | ⟨m, hm⟩ | hl
      · obtain ⟨σ1, g1, o, hp, hs, he⟩ := step_answer (pl := pl) (tiny := tiny) (size := size) (catching := catching) h i
        obtain ⟨outs, σ', g', h1, h2, h3⟩ := ih hrest hs
        exact ⟨_, σ', g', .exec (.line (by rw [h.reads]; exact ⟨hlen, hi⟩) hp) h1, h2, .line hi he h3⟩
      · obtain ⟨outs, σ', g', h1, h2, h3⟩ := ih hrest h
        exact ⟨_, σ', g', .exec (.wrong (by rw [h.reads]; exact ⟨hlen, hm⟩)) h1, h2, .wrong hm h3⟩
      · exact absurd hl hq

theorem answer_one {g1 g2 : Stage} {o1 o2 : ExecOut} (h1 : SubAnswer pl tiny size g i g1 o1) (h2 : SubAnswer pl tiny size g i g2 o2) :
    g1 = g2 ∧ o1 = o2 := by
  have hs := stage_signatures (pl := pl) (tiny := tiny) (size := size) (g := g) (j := 0)
  cases h1 with
  | done a1 =>
    cases h2 with
    | done a2 =>
      obtain ⟨rfl, rfl⟩ := accepted_one a1 a2
      exact ⟨rfl, rfl⟩
    | refused d2 => exact absurd (accepted_understood a1) (declined_not hs d2)
  | refused d1 =>
    cases h2 with
    | done a2 => exact absurd (accepted_understood a2) (declined_not hs d1)
    | refused d2 =>
      have := ((declined_replies (catching := true) (w := SubWorld.start) hs d1).1 ((declined_replies hs d2).2 ⟨rfl, rfl⟩)).2
      exact ⟨rfl, this.symm⟩

theorem tale_one {cfg : LexCfg} (hp : Proper cfg) {reqs : List Request} {g1 g2 : Stage} {outs1 outs2 : List ExecOut}
    (h1 : SubTale (delims cfg) pl tiny size g reqs outs1 g1) (h2 : SubTale (delims cfg) pl tiny size g reqs outs2 g2) : outs1 = outs2 ∧ g1 = g2 := by
  induction h1 generalizing outs2 g2 with
  | nil => cases h2; exact ⟨rfl, rfl⟩
  | wrong hm _ ih =>
    cases h2 with
    | wrong hm' h =>
      have := lexRead_rejects hp hm
      rw [lexRead_rejects hp hm'] at this
      cases this
      obtain ⟨rfl, rfl⟩ := ih h
      exact ⟨rfl, rfl⟩
    | line hi _ _ =>
      have := lexRead_accepts hp hi
      rw [lexRead_rejects hp hm] at this
      cases this
  | line hi he _ ih =>
    cases h2 with
    | wrong hm _ =>
      have := lexRead_accepts hp hi
      rw [lexRead_rejects hp hm] at this
      cases this
    | line hi' he' h =>
      have := lexRead_accepts hp hi
      rw [lexRead_accepts hp hi'] at this
      cases this
      obtain ⟨rfl, rfl⟩ := answer_one he he'
      obtain ⟨rfl, rfl⟩ := ih h
      exact ⟨rfl, rfl⟩
  | input he _ ih =>
    cases h2 with
    | input he' h =>
      obtain ⟨rfl, rfl⟩ := answer_one he he'
      obtain ⟨rfl, rfl⟩ := ih h
      exact ⟨rfl, rfl⟩

/-- A request that is refused may be left out or put in. -/
theorem tale_skip {cfg : LexCfg} (hp : Proper cfg) {r : Request} {before after : List Request} {g' g1 : Stage} {o1 o2 : List ExecOut} {es : List Bytes}
    (hb : SubTale (delims cfg) pl tiny size g before o1 g1) (hr : Asks (delims cfg) r i) (hd : Declined pl tiny size g1.signatures i es) :
    SubTale (delims cfg) pl tiny size g (before ++ r :: after) (o1 ++ .ok ⟨i, es, none, []⟩ :: o2) g' ↔
      SubTale (delims cfg) pl tiny size g (before ++ after) (o1 ++ o2) g' := by
  induction hb with
  | nil =>
    constructor
    · intro h
      cases hr with
      | line hi =>
        generalize ho : (([] : List ExecOut) ++ .ok ⟨i, es, none, []⟩ :: o2) = o at h
        cases h with
        | wrong hm _ =>
          have := lexRead_accepts hp hi.2
          rw [lexRead_rejects hp hm] at this
          cases this
        | line hi' he h =>
          have := lexRead_accepts hp hi.2
          rw [lexRead_accepts hp hi'] at this
          cases this
          obtain ⟨rfl, rfl⟩ := answer_one he (.refused hd)
          cases ho
          exact h
      | input =>
        generalize ho : (([] : List ExecOut) ++ .ok ⟨i, es, none, []⟩ :: o2) = o at h
        cases h with
        | input he h =>
          obtain ⟨rfl, rfl⟩ := answer_one he (.refused hd)
          cases ho
          exact h
    · intro h
      cases hr with
      | line hi => exact .line hi.2 (.refused hd) h
      | input => exact .input (.refused hd) h
  | wrong hm _ ih =>
    have ih := ih hd
    constructor
    · intro h
      cases h with
      | wrong hm' h => exact .wrong hm (ih.1 h)
      | line hi _ _ =>
        have := lexRead_accepts hp hi
        rw [lexRead_rejects hp hm] at this
        cases this
    · intro h
      cases h with
      | wrong hm' h => exact .wrong hm (ih.2 h)
      | line hi _ _ =>
        have := lexRead_accepts hp hi
        rw [lexRead_rejects hp hm] at this
        cases this
  | @line σ0 t0 i0 σ1 out0 _ _ _ hi he _ ih =>
    have ih := ih hd
    have key : ∀ {rest outs}, SubTale (delims cfg) pl tiny size σ0 (.line t0 :: rest) (out0 :: outs) g' ↔ SubTale (delims cfg) pl tiny size σ1 rest outs g' := by
      intro rest outs
      constructor
      · intro h
        cases h with
        | wrong hm _ =>
          have := lexRead_accepts hp hi
          rw [lexRead_rejects hp hm] at this
          cases this
        | line hi' he' h =>
          have := lexRead_accepts hp hi
          rw [lexRead_accepts hp hi'] at this
          cases this
          obtain ⟨rfl, _⟩ := answer_one he he'
          exact h
      · exact fun h => .line hi he h
    exact key.trans (ih.trans key.symm)
  | @input σ0 i0 σ1 out0 _ _ _ he _ ih =>
    have ih := ih hd
    have key : ∀ {rest outs}, SubTale (delims cfg) pl tiny size σ0 (.input i0 :: rest) (out0 :: outs) g' ↔ SubTale (delims cfg) pl tiny size σ1 rest outs g' := by
      intro rest outs
      constructor
      · intro h
        cases h with
        | input he' h =>
          obtain ⟨rfl, _⟩ := answer_one he he'
          exact h
      · exact fun h => .input he h
    exact key.trans (ih.trans key.symm)

theorem tale_split {d : Delims} {a b : List Request} {g' : Stage} {outs : List ExecOut} (h : SubTale d pl tiny size g (a ++ b) outs g') :
    ∃ o1 o2 g1, outs = o1 ++ o2 ∧ SubTale d pl tiny size g a o1 g1 ∧ SubTale d pl tiny size g1 b o2 g' := by
  induction a generalizing g outs with
  | nil => exact ⟨[], outs, g, rfl, .nil, h⟩
  | cons r a ih =>
    cases h with
    | wrong hm h =>
      obtain ⟨o1, o2, g1, rfl, h1, h2⟩ := ih h
      exact ⟨_, o2, g1, rfl, .wrong hm h1, h2⟩
    | line hi he h =>
      obtain ⟨o1, o2, g1, rfl, h1, h2⟩ := ih h
      exact ⟨_, o2, g1, rfl, .line hi he h1, h2⟩
    | input he h =>
      obtain ⟨o1, o2, g1, rfl, h1, h2⟩ := ih h
      exact ⟨_, o2, g1, rfl, .input he h1, h2⟩

/-- The commands of the subsystem can be used only if there is one. -/
theorem answer_usable {g' : Stage} {out : ExecOut} (hu : g.usable = true → ∃ p, g.part = some p) (h : SubAnswer pl tiny size g i g' out) :
    g'.usable = true → ∃ p, g'.part = some p := by
  cases h with
  | refused => exact hu
  | done h =>
    cases h with
    | create => exact fun _ => ⟨_, rfl⟩
    | destroy => exact fun h => by cases h
    | time | counter | data | work => exact hu
    | setTime | setCounter | setData => exact fun _ => ⟨_, rfl⟩

theorem tale_usable {d : Delims} {reqs : List Request} {g' : Stage} {outs : List ExecOut} (h : SubTale d pl tiny size g reqs outs g')
    (hu : g.usable = true → ∃ p, g.part = some p) : g'.usable = true → ∃ p, g'.part = some p := by
  induction h with
  | nil => exact hu
  | wrong _ _ ih => exact ih hu
  | line _ he _ ih => exact ih (answer_usable hu he)
  | input he _ ih => exact ih (answer_usable hu he)

end Coil
