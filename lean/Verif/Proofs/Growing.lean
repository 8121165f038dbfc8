import Verif.Spec.Growing
import Verif.Proofs.Fixed
import Verif.Proofs.Account

/-!
# Programs whose commands make commands: the two semantics agree
-/

namespace Coil
open Spec

variable {W C D : Type} {P : C → FunctorDef W C D} {catching : Bool} {d : Delims}

theorem functions_more (T : Table C D) (n : Bytes) (fs : List (C × D)) (m : Bytes) :
    Table.functions (T ++ [(n, fs)]) m = if m = n then some fs else T.functions m := by
  induction T with
  | nil =>
    simp only [List.nil_append, Table.functions]
    by_cases h : m = n
    · rw [if_pos h, if_pos h.symm]
    · rw [if_neg h, if_neg fun h' => h h'.symm]
  | cons c rest ih =>
    simp only [List.cons_append, Table.functions, ih]
    by_cases h : m = n
    · simp [h]
    · simp [h]

/-- A scene agrees with a table and a state. Every function object belongs to one command. -/
structure Stands (d : Delims) (S : Standing W C D) (σ : Scene W C D) : Prop where
  tabled : Tabled S.table d σ
  user : σ.user = S.user
  made : ∀ {n fs f}, σ.commands n = some fs → f ∈ fs → f.id < σ.made
  one : ∀ {n n' fs fs' f}, σ.commands n = some fs → f ∈ fs → σ.commands n' = some fs' → f ∈ fs' → n = n'
  adds : ∀ ev ∈ σ.changes, ∃ n fs, ev = .added n fs

theorem numbered_between {k : Nat} {fs : List (C × D)} {f : Inst C D} (h : f ∈ Scene.numbered k fs) : k ≤ f.id ∧ f.id < k + fs.length := by
  simp only [Scene.numbered, List.mem_map] at h
  obtain ⟨x, hx, rfl⟩ := h
  obtain ⟨h1, h2, _⟩ := List.mem_zipIdx hx
  exact ⟨h1, by dsimp only; omega⟩

theorem Stands.more {S : Standing W C D} {σ : Scene W C D} (h : Stands d S σ) (n : Bytes) (fs : List (C × D)) :
    Stands d (S.more n fs) (σ.add n fs) := by
  refine ⟨⟨fun m => ?_, h.tabled.reads⟩, h.user, ?_, ?_, ?_⟩
  · simp only [Scene.add, Standing.more, functions_more]
    by_cases e : m = n
    · simp [e, numbered_pairs]
    · simp only [e, if_false]
      exact h.tabled.commands m
  · intro m gs f hc hf
    simp only [Scene.add] at hc ⊢
    split at hc
    · cases hc
      exact (numbered_between hf).2
    · exact Nat.lt_add_right _ (h.made hc hf)
  · intro m m' gs gs' f hc hf hc' hf'
    simp only [Scene.add] at hc hc'
    split at hc <;> split at hc'
    · rename_i e e'; exact e.trans e'.symm
    · cases hc
      have := h.made hc' hf'
      have := (numbered_between hf).1
      omega
    · cases hc'
      have := h.made hc hf
      have := (numbered_between hf').1
      omega
    · exact h.one hc hf hc' hf'
  · intro ev hev
    simp only [Scene.add, List.mem_append, List.mem_singleton] at hev
    rcases hev with hev | rfl
    · exact h.adds ev hev
    · exact ⟨_, _, rfl⟩

/-- The function object belongs to the command `me` and no other; `b` says whether it still does. -/
structure Belongs (me : Bytes) (f : Inst C D) (σ : Scene W C D) (b : Bool) : Prop where
  made : f.id < σ.made
  under : ∀ {n fs}, σ.commands n = some fs → f ∈ fs → n = me
  here : b = true ↔ σ.Has f

theorem Belongs.more {me : Bytes} {self : Inst C D} {σ : Scene W C D} {here : Bool} (h : Belongs me self σ here) (n : Bytes) (fs : List (C × D)) :
    Belongs me self (σ.add n fs) (here && decide (n ≠ me)) := by
  have not : self ∉ Scene.numbered σ.made fs := fun hf => by
    have := (numbered_between hf).1
    have := h.made
    omega
  refine ⟨Nat.lt_add_right _ h.made, ?_, ?_⟩
  · intro m gs hc hf
    simp only [Scene.add] at hc
    split at hc
    · cases hc
      exact absurd hf not
    · exact h.under hc hf
  · simp only [Bool.and_eq_true, decide_eq_true_eq, h.here]
    constructor
    · rintro ⟨⟨m, gs, hc, hf⟩, hn⟩
      have := h.under hc hf
      subst this
      exact ⟨m, gs, by simp only [Scene.add]; rw [if_neg fun e => hn e.symm]; exact hc, hf⟩
    · rintro ⟨m, gs, hc, hf⟩
      simp only [Scene.add] at hc
      split at hc
      · cases hc
        exact absurd hf not
      · rename_i hne
        have := h.under hc hf
        subst this
        exact ⟨⟨m, gs, hc, hf⟩, fun e => hne e.symm⟩

theorem recounts_of_does {R : Type} {p : Prog W C D R} (hq : Growing p) : ∀ {self : Inst C D} {l : List Named} {me : Bytes} {here : Bool}
    {past es : List CtxEvent} {σ σ' : Scene W C D} {e : End R} {S : Standing W C D}, Stands d S σ → Belongs me self σ here →
    Does P catching self l past p σ es e σ' → ∃ S', Recounts self.data l me past p here S es e S' ∧ Stands d S' σ' := by
  induction hq with
  | ret => intro _ _ _ _ _ _ _ _ _ _ hs _ h; cases h; exact ⟨_, .ret, hs⟩
  | throw => intro _ _ _ _ _ _ _ _ _ _ hs _ h; cases h; exact ⟨_, .throw, hs⟩
  | ub => intro _ _ _ _ _ _ _ _ _ _ _ _ h; cases h
  | diverge => intro _ _ _ _ _ _ _ _ _ _ _ _ h; cases h
  | log _ ih =>
    intro _ _ _ _ _ _ _ _ _ _ hs hm h
    cases h with | log h => obtain ⟨S', h1, h2⟩ := ih hs hm h; exact ⟨S', .log h1, h2⟩
  | logline _ ih =>
    intro _ _ _ _ _ _ _ _ _ _ hs hm h
    cases h with | logline h => obtain ⟨S', h1, h2⟩ := ih hs hm h; exact ⟨S', .logline h1, h2⟩
  | reportError _ ih =>
    intro _ _ _ _ _ _ _ _ _ _ hs hm h
    cases h with | reportError h => obtain ⟨S', h1, h2⟩ := ih hs hm h; exact ⟨S', .reportError h1, h2⟩
  | hasErrors _ ih =>
    intro _ _ _ _ _ _ _ _ _ _ hs hm h
    cases h with | hasErrors h => obtain ⟨S', h1, h2⟩ := ih _ hs hm h; exact ⟨S', .hasErrors h1, h2⟩
  | named _ ih =>
    intro _ _ _ _ _ _ _ _ _ _ hs hm h
    cases h with | named h => obtain ⟨S', h1, h2⟩ := ih _ hs hm h; exact ⟨S', .named h1, h2⟩
  | setNamed _ ih =>
    intro _ _ _ _ _ _ _ _ _ _ hs hm h
    cases h with | setNamed hi h => obtain ⟨S', h1, h2⟩ := ih hs hm h; exact ⟨S', .setNamed hi h1, h2⟩
  | get _ ih =>
    intro _ _ _ _ _ _ _ _ _ _ hs hm h
    cases h with
    | get h =>
      rw [hs.user] at h
      obtain ⟨S', h1, h2⟩ := ih _ hs hm h
      exact ⟨S', .get h1, h2⟩
  | @set w _ _ ih =>
    intro _ _ _ _ _ _ _ _ _ S hs hm h
    cases h with
    | set h =>
      obtain ⟨S', h1, h2⟩ := ih (S := ⟨S.table, w⟩) ⟨hs.tabled.user w, rfl, hs.made, hs.one, hs.adds⟩ ⟨hm.made, hm.under, hm.here⟩ h
      exact ⟨S', .set h1, h2⟩
  | captured _ ih =>
    intro _ _ _ _ _ _ _ _ _ _ hs hm h
    cases h with
    | captured hh h =>
      have := hm.here.2 hh
      subst this
      obtain ⟨S', h1, h2⟩ := ih _ hs hm h
      exact ⟨S', .captured h1, h2⟩
  | add _ ih =>
    intro _ _ _ _ _ _ _ _ _ _ hs hm h
    cases h with | add h => obtain ⟨S', h1, h2⟩ := ih (hs.more _ _) (hm.more _ _) h; exact ⟨S', .add h1, h2⟩

theorem does_of_recounts {R : Type} {x : D} {l : List Named} {me : Bytes} {past es : List CtxEvent} {p : Prog W C D R} {here : Bool}
    {S S' : Standing W C D} {e : End R} (h : Recounts x l me past p here S es e S') : ∀ {self : Inst C D} {σ : Scene W C D}, self.data = x →
      Stands d S σ → Belongs me self σ here → ∃ σ', Does P catching self l past p σ es e σ' ∧ Stands d S' σ' := by
  induction h with
  | ret => intro _ _ _ hs _; exact ⟨_, .ret, hs⟩
  | throw => intro _ _ _ hs _; exact ⟨_, .throw, hs⟩
  | log _ ih => intro _ _ h1 h2 h3; obtain ⟨σ', g1, g2⟩ := ih h1 h2 h3; exact ⟨σ', .log g1, g2⟩
  | logline _ ih => intro _ _ h1 h2 h3; obtain ⟨σ', g1, g2⟩ := ih h1 h2 h3; exact ⟨σ', .logline g1, g2⟩
  | reportError _ ih => intro _ _ h1 h2 h3; obtain ⟨σ', g1, g2⟩ := ih h1 h2 h3; exact ⟨σ', .reportError g1, g2⟩
  | hasErrors _ ih => intro _ _ h1 h2 h3; obtain ⟨σ', g1, g2⟩ := ih h1 h2 h3; exact ⟨σ', .hasErrors g1, g2⟩
  | named _ ih => intro _ _ h1 h2 h3; obtain ⟨σ', g1, g2⟩ := ih h1 h2 h3; exact ⟨σ', .named g1, g2⟩
  | setNamed hi _ ih => intro _ _ h1 h2 h3; obtain ⟨σ', g1, g2⟩ := ih h1 h2 h3; exact ⟨σ', .setNamed hi g1, g2⟩
  | get _ ih => intro _ σ h1 h2 h3; obtain ⟨σ', g1, g2⟩ := ih h1 h2 h3; exact ⟨σ', .get (by rw [h2.user]; exact g1), g2⟩
  | @set _ v _ _ _ _ _ _ _ ih =>
    intro _ σ h1 h2 h3
    obtain ⟨σ', g1, g2⟩ := ih (σ := { σ with user := v }) h1 ⟨h2.tabled.user v, rfl, h2.made, h2.one, h2.adds⟩ ⟨h3.made, h3.under, h3.here⟩
    exact ⟨σ', .set g1, g2⟩
  | captured _ ih =>
    intro _ _ h1 h2 h3
    subst h1
    obtain ⟨σ', g1, g2⟩ := ih rfl h2 h3
    exact ⟨σ', .captured (h3.here.1 rfl) g1, g2⟩
  | add _ ih =>
    intro _ _ h1 h2 h3
    obtain ⟨σ', g1, g2⟩ := ih h1 (h2.more _ _) (h3.more _ _)
    exact ⟨σ', .add g1, g2⟩

theorem Stands.mine {S : Standing W C D} {σ : Scene W C D} (h : Stands d S σ) {n : Bytes} {fs : List (Inst C D)} {f : Inst C D} {k : Nat}
    (hc : σ.commands n = some fs) (hf : FirstOfArity P k fs f) : Belongs n f σ true :=
  ⟨h.made hc (firstOfArity_mem hf), fun hc' hf' => h.one hc' hf' hc (firstOfArity_mem hf),
    ⟨fun _ => ⟨_, _, hc, firstOfArity_mem hf⟩, fun _ => rfl⟩⟩

theorem responds_of_performs (hq : AllGrowing P) {S : Standing W C D} {σ σ' : Scene W C D} (ht : Stands d S σ) {i : Input} {out : ExecOut}
    (h : Performs P catching σ (.input i) σ' out) : ∃ S', Responds P catching S i S' out ∧ Stands d S' σ' := by
  cases h with
  | noName hn => exact ⟨S, .noName hn, ht⟩
  | unknown hn hc => exact ⟨S, .unknown hn (ht.tabled.unknown.1 hc), ht⟩
  | @count _ _ fs hn hc hno =>
    have := Responds.count (P := P) (catching := catching) (S := S) hn (ht.tabled.known hc) (fun f hf => by
      obtain ⟨g, hg, rfl⟩ := List.mem_map.1 hf; exact hno g hg)
    rw [List.map_map] at this
    exact ⟨S, this, ht⟩
  | mismatch hn hc hf h1 h2 => exact ⟨S, .mismatch (f := (_, _)) hn (ht.tabled.known hc) (firstTaking_of hf) h1 h2, ht⟩
  | returned hn hc hf hx hd =>
    obtain ⟨S', h1, h2⟩ := recounts_of_does (hq _ _) ht (ht.mine hc hf) hd
    exact ⟨S', .returned (f := (_, _)) hn (ht.tabled.known hc) (firstTaking_of hf) hx h1, h2⟩
  | caught hcat hn hc hf hx hd =>
    obtain ⟨S', h1, h2⟩ := recounts_of_does (hq _ _) ht (ht.mine hc hf) hd
    have := Responds.thrown (catching := catching) (f := (_, _)) hn (ht.tabled.known hc) (firstTaking_of hf) hx h1
    rw [if_pos hcat] at this
    exact ⟨S', this, h2⟩
  | passed hcat hn hc hf hx hd =>
    obtain ⟨S', h1, h2⟩ := recounts_of_does (hq _ _) ht (ht.mine hc hf) hd
    have := Responds.thrown (catching := catching) (f := (_, _)) hn (ht.tabled.known hc) (firstTaking_of hf) hx h1
    rw [if_neg (by simp [hcat])] at this
    exact ⟨S', this, h2⟩

theorem performs_of_responds {S S' : Standing W C D} {σ : Scene W C D} (ht : Stands d S σ) {i : Input} {out : ExecOut}
    (h : Responds P catching S i S' out) : ∃ σ', Performs P catching σ (.input i) σ' out ∧ Stands d S' σ' := by
  cases h with
  | noName hn => exact ⟨σ, .noName hn, ht⟩
  | unknown hn hc => exact ⟨σ, .unknown hn (ht.tabled.unknown.2 hc), ht⟩
  | count hn hc hno =>
    obtain ⟨fs, hfs, rfl⟩ := ht.tabled.of hc
    have := Performs.count (P := P) (catching := catching) hn hfs (fun g hg => hno (g.code, g.data) (List.mem_map.2 ⟨g, hg, rfl⟩))
    rw [List.map_map]
    exact ⟨σ, this, ht⟩
  | mismatch hn hc hf h1 h2 =>
    obtain ⟨fs, hfs, rfl⟩ := ht.tabled.of hc
    obtain ⟨f, hf', rfl⟩ := of_firstTaking hf
    exact ⟨σ, .mismatch hn hfs hf' h1 h2, ht⟩
  | returned hn hc hf hx hs =>
    obtain ⟨fs, hfs, rfl⟩ := ht.tabled.of hc
    obtain ⟨f, hf', rfl⟩ := of_firstTaking hf
    obtain ⟨σ', h1, h2⟩ := does_of_recounts (P := P) (catching := catching) hs (self := f) rfl ht (ht.mine hfs hf')
    exact ⟨σ', .returned hn hfs hf' hx h1, h2⟩
  | thrown hn hc hf hx hs =>
    obtain ⟨fs, hfs, rfl⟩ := ht.tabled.of hc
    obtain ⟨f, hf', rfl⟩ := of_firstTaking hf
    obtain ⟨σ', hd, h2⟩ := does_of_recounts (P := P) (catching := catching) hs (self := f) rfl ht (ht.mine hfs hf')
    refine ⟨σ', ?_, h2⟩
    cases hcat : catching with
    | true =>
      rw [hcat] at hd
      exact .caught rfl hn hfs hf' hx hd
    | false =>
      rw [hcat] at hd
      exact .passed rfl hn hfs hf' hx hd

theorem growth_of_acts (hq : AllGrowing P) {reqs : List Request} {S : Standing W C D} {σ σ' : Scene W C D} {outs : List ExecOut} (ht : Stands d S σ)
    (h : Acts P catching σ (reqs.map .exec) outs σ') : ∃ S', Growth P catching d S reqs outs S' ∧ Stands d S' σ' := by
  induction reqs generalizing S σ outs with
  | nil => cases h; exact ⟨S, .nil, ht⟩
  | cons r rest ih =>
    cases h with
    | exec hp hr =>
      cases r with
      | line t =>
        cases hp with
        | wrong hw =>
          rw [ht.tabled.reads] at hw
          obtain ⟨S', h1, h2⟩ := ih ht hr
          exact ⟨S', .wrong hw h1, h2⟩
        | line hl hp =>
          rw [ht.tabled.reads] at hl
          obtain ⟨S1, h3, h4⟩ := responds_of_performs hq ht hp
          obtain ⟨S', h1, h2⟩ := ih h4 hr
          exact ⟨S', .line hl h3 h1, h2⟩
      | input i =>
        obtain ⟨S1, h3, h4⟩ := responds_of_performs hq ht hp
        obtain ⟨S', h1, h2⟩ := ih h4 hr
        exact ⟨S', .input h3 h1, h2⟩

theorem acts_of_growth {reqs : List Request} {S S' : Standing W C D} {outs : List ExecOut} (h : Growth P catching d S reqs outs S') :
    ∀ {σ : Scene W C D}, Stands d S σ → ∃ σ', Acts P catching σ (reqs.map .exec) outs σ' ∧ Stands d S' σ' := by
  induction h with
  | nil => intro σ ht; exact ⟨σ, .done, ht⟩
  | wrong hr _ ih =>
    intro σ ht
    obtain ⟨σ', h1, h2⟩ := ih ht
    exact ⟨σ', .exec (.wrong (by rw [ht.tabled.reads]; exact hr)) h1, h2⟩
  | line hr hp _ ih =>
    intro σ ht
    obtain ⟨σ1, h3, h4⟩ := performs_of_responds ht hp
    obtain ⟨σ', h1, h2⟩ := ih h4
    exact ⟨σ', .exec (.line (by rw [ht.tabled.reads]; exact hr) h3) h1, h2⟩
  | input hp _ ih =>
    intro σ ht
    obtain ⟨σ1, h3, h4⟩ := performs_of_responds ht hp
    obtain ⟨σ', h1, h2⟩ := ih h4
    exact ⟨σ', .exec h3 h1, h2⟩

theorem stands_start (T : Table C D) (d : Delims) (w : W) : Stands d ⟨T, w⟩ (Scene.adding (Scene.start d w) T) := by
  have key : ∀ (T T' : Table C D) (σ : Scene W C D), Stands d ⟨T', w⟩ σ → Stands d ⟨T' ++ T, w⟩ (Scene.adding σ T) := by
    intro T
    induction T with
    | nil => intro T' σ h; rw [List.append_nil]; exact h
    | cons c rest ih =>
      intro T' σ h
      have := ih _ _ (h.more c.1 c.2)
      rw [List.append_assoc] at this
      exact this
  refine key T [] _ ⟨⟨fun _ => rfl, rfl⟩, rfl, ?_, ?_, ?_⟩
  · intro _ _ _ h; cases h
  · intro _ _ _ _ _ h; cases h
  · intro _ h; cases h

/-! ## The changes of the registry -/

variable {S : Type} {ops : RegOps S C D}

theorem bindingsAdd_adds {s s' : Sys S W C D} {n : Bytes} {fs : List (C × D)} (h : bindingsAdd ops s n fs = .ok s')
    (h0 : ∀ ev ∈ s.history, ∃ n fs, ev = .added n fs) : ∀ ev ∈ s'.history, ∃ n fs, ev = .added n fs := by
  simp only [bindingsAdd] at h
  obtain ⟨old, _, h⟩ := Res.bind_eq_ok.1 h
  obtain ⟨reg, _, h⟩ := Res.bind_eq_ok.1 h
  cases h
  intro ev hev
  rcases List.mem_append.1 hev with h | h
  · exact h0 ev h
  · exact ⟨_, _, by simpa using h⟩

theorem runs_adds {R : Type} {p : Prog W C D R} (hq : Growing p) : ∀ {ne : Nested S W C D} {self : Inst C D} {l : List Named} {past es : List CtxEvent}
    {s s' : Sys S W C D} {e : End R}, Runs ops ne self l past p s es e s' → (∀ ev ∈ s.history, ∃ n fs, ev = .added n fs) →
      ∀ ev ∈ s'.history, ∃ n fs, ev = .added n fs := by
  induction hq with
  | ret => intro _ _ _ _ _ _ _ _ h h0; cases h; exact h0
  | throw => intro _ _ _ _ _ _ _ _ h h0; cases h; exact h0
  | ub => intro _ _ _ _ _ _ _ _ h; cases h
  | diverge => intro _ _ _ _ _ _ _ _ h; cases h
  | log _ ih => intro _ _ _ _ _ _ _ _ h h0; cases h with | log h => exact ih h h0
  | logline _ ih => intro _ _ _ _ _ _ _ _ h h0; cases h with | logline h => exact ih h h0
  | reportError _ ih => intro _ _ _ _ _ _ _ _ h h0; cases h with | reportError h => exact ih h h0
  | hasErrors _ ih => intro _ _ _ _ _ _ _ _ h h0; cases h with | hasErrors h => exact ih _ h h0
  | named _ ih => intro _ _ _ _ _ _ _ _ h h0; cases h with | named h => exact ih _ h h0
  | setNamed _ ih => intro _ _ _ _ _ _ _ _ h h0; cases h with | setNamed _ h => exact ih h h0
  | get _ ih => intro _ _ _ _ _ _ _ _ h h0; cases h with | get h => exact ih _ h h0
  | set _ ih => intro _ _ _ _ _ _ _ _ h h0; cases h with | set h => exact ih h h0
  | captured _ ih => intro _ _ _ _ _ _ _ _ h h0; cases h with | captured _ h => exact ih _ h h0
  | add _ ih => intro _ _ _ _ _ _ _ _ h h0; cases h with | add ha h => exact ih h (bindingsAdd_adds ha h0)

theorem exec_adds (hq : AllGrowing P) {fuel depth : Nat} {s s' : Sys S W C D} {req : Request} {out : ExecOut}
    (h : (nested P ops catching fuel depth).exec s req = .ok (s', out)) (h0 : ∀ ev ∈ s.history, ∃ n fs, ev = .added n fs) :
    ∀ ev ∈ s'.history, ∃ n fs, ev = .added n fs := by
  obtain ⟨_, _, h⟩ := exec_ok h
  rcases h with ⟨_, _, _, _, _, _, rfl, _⟩ | ⟨i, _, h⟩
  · exact h0
  · rcases executeInput_cases h with ⟨_, rfl, _⟩ | ⟨_, _, rfl, _⟩ | ⟨_, _, _, _, rfl, _⟩ | ⟨_, _, _, _, _, _, _, _, rfl, _⟩ |
      ⟨_, _, _, _, _, _, _, _, _, _, hr, _⟩
    · exact h0
    · exact h0
    · exact h0
    · exact h0
    · exact runs_adds (hq _ _) hr h0

theorem growing_history (hq : AllGrowing P) {T : Table C D} {fuel : Nat} {reqs : List Request} {s s' : Sys S W C D} {outs : List ExecOut}
    (h : actsOut P ops catching fuel s (fixedProgram T reqs) = .ok (s', outs)) (h0 : ∀ ev ∈ s.history, ∃ n fs, ev = .added n fs) :
    ∀ ev ∈ s'.history, ∃ n fs, ev = .added n fs := by
  unfold fixedProgram at h
  induction T generalizing s outs with
  | nil =>
    simp only [List.map_nil, List.nil_append] at h
    induction reqs generalizing s outs with
    | nil => cases h; exact h0
    | cons r reqs ih =>
      simp only [List.map_cons, actsOut] at h
      obtain ⟨⟨s1, o1⟩, h1, h⟩ := Res.bind_eq_ok.1 h
      obtain ⟨⟨s2, o2⟩, h2, h⟩ := Res.bind_eq_ok.1 h
      cases h
      simp only [actOut] at h1
      obtain ⟨⟨s3, o⟩, g1, g2⟩ := Res.bind_eq_ok.1 h1
      cases g2
      exact ih (exec_adds hq (depth := 0) g1 h0) h2
  | cons c T ih =>
    simp only [List.map_cons, List.cons_append, actsOut] at h
    obtain ⟨⟨s1, o1⟩, h1, h⟩ := Res.bind_eq_ok.1 h
    obtain ⟨⟨s2, o2⟩, h2, h⟩ := Res.bind_eq_ok.1 h
    cases h
    simp only [actOut] at h1
    obtain ⟨s3, g1, g2⟩ := Res.bind_eq_ok.1 h1
    cases g2
    exact ih h2 (bindingsAdd_adds g1 h0)

/-! ## One course, and when there is one -/

theorem recounts_unique {R : Type} {x : D} {l : List Named} {me : Bytes} {past : List CtxEvent} {p : Prog W C D R} {here : Bool} {S S1 : Standing W C D}
    {es : List CtxEvent} {e : End R} (h : Recounts x l me past p here S es e S1) : ∀ {es' : List CtxEvent} {e' : End R} {S2 : Standing W C D},
      Recounts x l me past p here S es' e' S2 → es' = es ∧ e' = e ∧ S2 = S1 := by
  induction h with
  | ret => intro _ _ _ h'; cases h'; exact ⟨rfl, rfl, rfl⟩
  | throw => intro _ _ _ h'; cases h'; exact ⟨rfl, rfl, rfl⟩
  | log _ ih | logline _ ih | reportError _ ih =>
    intro _ _ _ h'
    cases h'
    rename_i h'
    obtain ⟨rfl, rfl, rfl⟩ := ih h'
    exact ⟨rfl, rfl, rfl⟩
  | hasErrors _ ih | named _ ih | get _ ih | set _ ih | captured _ ih | add _ ih =>
    intro _ _ _ h'
    cases h'
    rename_i h'
    exact ih h'
  | setNamed _ _ ih =>
    intro _ _ _ h'
    cases h' with
    | setNamed _ h' =>
      obtain ⟨rfl, rfl, rfl⟩ := ih h'
      exact ⟨rfl, rfl, rfl⟩

theorem responds_unique {S S1 S2 : Standing W C D} {i : Input} {o1 o2 : ExecOut} (h : Responds P catching S i S1 o1) (h' : Responds P catching S i S2 o2) :
    S1 = S2 ∧ o1 = o2 := by
  cases h with
  | noName h0 => cases h' <;> first | exact ⟨rfl, rfl⟩ | contradiction
  | unknown h0 h1 =>
    cases h' with
    | noName g => exact absurd g h0
    | unknown => exact ⟨rfl, rfl⟩
    | count _ g | mismatch _ g | returned _ g | thrown _ g => rw [h1] at g; cases g
  | count h0 h1 h2 =>
    cases h' with
    | noName g => exact absurd g h0
    | unknown _ g => rw [h1] at g; cases g
    | count _ g => rw [h1] at g; cases g; exact ⟨rfl, rfl⟩
    | mismatch _ g gf | returned _ g gf | thrown _ g gf =>
      rw [h1] at g; cases g; exact absurd (firstTaking_length gf) (h2 _ (firstTaking_member gf))
  | mismatch h0 h1 h2 h3 h4 =>
    cases h' with
    | noName g => exact absurd g h0
    | unknown _ g => rw [h1] at g; cases g
    | count _ g g2 => rw [h1] at g; cases g; exact absurd (firstTaking_length h2) (g2 _ (firstTaking_member h2))
    | mismatch _ g gf => rw [h1] at g; cases g; cases firstTaking_unique h2 gf; exact ⟨rfl, rfl⟩
    | returned _ g gf gx | thrown _ g gf gx =>
      rw [h1] at g; cases g; cases firstTaking_unique h2 gf; exact absurd (convertTo_defined gx).2 h4
  | returned h0 h1 h2 h3 h4 =>
    cases h' with
    | noName g => exact absurd g h0
    | unknown _ g => rw [h1] at g; cases g
    | count _ g g2 => rw [h1] at g; cases g; exact absurd (firstTaking_length h2) (g2 _ (firstTaking_member h2))
    | mismatch _ g gf _ ge => rw [h1] at g; cases g; cases firstTaking_unique h2 gf; exact absurd (convertTo_defined h3).2 ge
    | returned _ g gf gx gs =>
      rw [h1] at g; cases g; cases firstTaking_unique h2 gf; cases convertTo_unique h3 gx
      obtain ⟨rfl, ge, rfl⟩ := recounts_unique h4 gs
      cases ge
      exact ⟨rfl, rfl⟩
    | thrown _ g gf gx gs =>
      rw [h1] at g; cases g; cases firstTaking_unique h2 gf; cases convertTo_unique h3 gx
      obtain ⟨_, ge, _⟩ := recounts_unique h4 gs
      cases ge
  | thrown h0 h1 h2 h3 h4 =>
    cases h' with
    | noName g => exact absurd g h0
    | unknown _ g => rw [h1] at g; cases g
    | count _ g g2 => rw [h1] at g; cases g; exact absurd (firstTaking_length h2) (g2 _ (firstTaking_member h2))
    | mismatch _ g gf _ ge => rw [h1] at g; cases g; cases firstTaking_unique h2 gf; exact absurd (convertTo_defined h3).2 ge
    | returned _ g gf gx gs =>
      rw [h1] at g; cases g; cases firstTaking_unique h2 gf; cases convertTo_unique h3 gx
      obtain ⟨_, ge, _⟩ := recounts_unique h4 gs
      cases ge
    | thrown _ g gf gx gs =>
      rw [h1] at g; cases g; cases firstTaking_unique h2 gf; cases convertTo_unique h3 gx
      obtain ⟨rfl, ge, rfl⟩ := recounts_unique h4 gs
      cases ge
      exact ⟨rfl, rfl⟩

variable {cfg : LexCfg}

theorem growth_unique (hp : Proper cfg) {S S1 S2 : Standing W C D} {reqs : List Request} {o1 o2 : List ExecOut}
    (h : Growth P catching (delims cfg) S reqs o1 S1) (h' : Growth P catching (delims cfg) S reqs o2 S2) : o1 = o2 ∧ S1 = S2 := by
  induction h generalizing o2 S2 with
  | nil => cases h'; exact ⟨rfl, rfl⟩
  | wrong hm _ ih =>
    cases h' with
    | wrong hm' ht' =>
      have := (lexRead_rejects hp hm.2).symm.trans (lexRead_rejects hp hm'.2)
      obtain ⟨rfl, rfl⟩ := ih ht'
      simp_all
    | line hi _ _ =>
      have := (lexRead_rejects hp hm.2).symm.trans (lexRead_accepts hp hi.2)
      simp at this
  | line hi hr _ ih =>
    cases h' with
    | wrong hm' _ =>
      have := (lexRead_rejects hp hm'.2).symm.trans (lexRead_accepts hp hi.2)
      simp at this
    | line hi' hr' ht' =>
      cases enters_one hp hi.2 hi'.2
      obtain ⟨rfl, rfl⟩ := responds_unique hr hr'
      obtain ⟨rfl, rfl⟩ := ih ht'
      exact ⟨rfl, rfl⟩
  | input hr _ ih =>
    cases h' with
    | input hr' ht' =>
      obtain ⟨rfl, rfl⟩ := responds_unique hr hr'
      obtain ⟨rfl, rfl⟩ := ih ht'
      exact ⟨rfl, rfl⟩

theorem growth_split {a b : List Request} {S S2 : Standing W C D} {outs : List ExecOut} (h : Growth P catching d S (a ++ b) outs S2) :
    ∃ o1 o2 S1, outs = o1 ++ o2 ∧ Growth P catching d S a o1 S1 ∧ Growth P catching d S1 b o2 S2 := by
  induction a generalizing S outs with
  | nil => exact ⟨[], outs, S, rfl, .nil, h⟩
  | cons r a ih =>
    cases h with
    | wrong hm ht =>
      obtain ⟨o1, o2, w1, rfl, g1, g2⟩ := ih ht
      exact ⟨_ :: o1, o2, w1, rfl, .wrong hm g1, g2⟩
    | line hi hr ht =>
      obtain ⟨o1, o2, w1, rfl, g1, g2⟩ := ih ht
      exact ⟨_ :: o1, o2, w1, rfl, .line hi hr g1, g2⟩
    | input hr ht =>
      obtain ⟨o1, o2, w1, rfl, g1, g2⟩ := ih ht
      exact ⟨_ :: o1, o2, w1, rfl, .input hr g1, g2⟩

theorem growth_join {a b : List Request} {S S1 S2 : Standing W C D} {o1 o2 : List ExecOut} (h : Growth P catching d S a o1 S1)
    (h' : Growth P catching d S1 b o2 S2) : Growth P catching d S (a ++ b) (o1 ++ o2) S2 := by
  induction h with
  | nil => exact h'
  | wrong hm _ ih => exact .wrong hm (ih h')
  | line hi hr _ ih => exact .line hi hr (ih h')
  | input hr _ ih => exact .input hr (ih h')

theorem responds_iff {S : Standing W C D} {i : Input} : (∃ S' out, Responds P catching S i S' out) ↔ Responsive P S i := by
  constructor
  · rintro ⟨S', out, h⟩ fs f hn hfs hf
    have same : ∀ {gs : List (C × D)} {g : C × D}, S.table.functions i.name = some gs → FirstTaking P i.arguments.length gs g → g = f := by
      intro gs g h1 h2
      rw [hfs] at h1
      cases h1
      exact firstTaking_unique h2 hf
    cases h with
    | noName h0 => exact absurd h0 hn
    | unknown _ h0 => rw [h0] at hfs; cases hfs
    | count _ h1 h2 =>
      rw [h1] at hfs
      cases hfs
      exact absurd (firstTaking_length hf) (h2 f (firstTaking_member hf))
    | mismatch _ h1 h2 h3 h4 =>
      have := same h1 h2
      subst this
      exact ⟨h3, fun xs hx => absurd (convertTo_defined hx).2 h4⟩
    | returned _ h1 h2 hx hsay | thrown _ h1 h2 hx hsay =>
      have := same h1 h2
      subst this
      refine ⟨(convertTo_defined hx).1, fun ys hy => ?_⟩
      cases convertTo_unique hx hy
      exact ⟨_, _, _, hsay⟩
  · intro h
    by_cases hn : i.name = []
    · exact ⟨_, _, .noName hn⟩
    cases hf : S.table.functions i.name with
    | none => exact ⟨_, _, .unknown hn hf⟩
    | some fs =>
      rcases firstTaking_or (P := P) i.arguments.length fs with h1 | ⟨f, h1⟩
      · exact ⟨_, _, .count hn hf h1⟩
      · obtain ⟨h2, h3⟩ := h fs f hn hf h1
        by_cases he : conversionErrors (P f.1).params i.arguments = []
        · obtain ⟨xs, hx⟩ := converts_of_defined h2 he
          obtain ⟨es, e, w', hsay⟩ := h3 xs hx
          cases e with
          | ret r => exact ⟨_, _, .returned hn hf h1 hx hsay⟩
          | exn x => exact ⟨_, _, .thrown hn hf h1 hx hsay⟩
        · exact ⟨_, _, .mismatch hn hf h1 h2 he⟩

/-- One request. -/
theorem growth_one (hp : Proper cfg) {r : Request} {S : Standing W C D} : (∃ outs S', Growth P catching (delims cfg) S [r] outs S') ↔
    Enterable (delims cfg) r ∧ ∀ i, Enters (delims cfg) r i → Responsive P S i := by
  constructor
  · rintro ⟨outs, w', h⟩
    cases h with
    | @wrong _ t m _ outs _ hm ht =>
      refine ⟨⟨hm.1, fun hl => ?_⟩, fun i hi => ?_⟩
      · have := lexRead_lone hp hm.1 hl
        rw [lexRead_rejects hp hm.2] at this
        cases this
      · have := lexRead_accepts hp hi
        rw [lexRead_rejects hp hm.2] at this
        cases this
    | @line _ t i w1 out _ outs _ hi hr ht =>
      refine ⟨⟨hi.1, fun hl => ?_⟩, fun j hj => ?_⟩
      · have := lexRead_lone hp hi.1 hl
        rw [lexRead_accepts hp hi.2] at this
        cases this
      · cases enters_one hp hi.2 hj
        exact responds_iff.1 ⟨_, _, hr⟩
    | @input _ i w1 out _ outs _ hr ht =>
      refine ⟨trivial, fun j hj => ?_⟩
      cases hj
      exact responds_iff.1 ⟨_, _, hr⟩
  · rintro ⟨h1, h2⟩
    cases r with
    | input i =>
      obtain ⟨w1, out, hr⟩ := (responds_iff (catching := catching)).2 (h2 i rfl)
      exact ⟨_, _, .input hr .nil⟩
    | line t =>
      rcases command_total (d := delims cfg) t with ⟨i, hi⟩ | ⟨m, hm⟩ | hl
      · obtain ⟨w1, out, hr⟩ := (responds_iff (catching := catching)).2 (h2 i hi)
        exact ⟨_, _, .line ⟨h1.1, hi⟩ hr .nil⟩
      · exact ⟨_, _, .wrong ⟨h1.1, hm⟩ .nil⟩
      · exact absurd hl h1.2

/-- Quiet functions are growing. -/
theorem quiet_growing {R : Type} {p : Prog W C D R} (h : Quiet p) : Growing p := by
  induction h with
  | ret => exact .ret
  | throw => exact .throw
  | ub => exact .ub
  | diverge => exact .diverge
  | log _ ih => exact .log ih
  | logline _ ih => exact .logline ih
  | reportError _ ih => exact .reportError ih
  | hasErrors _ ih => exact .hasErrors ih
  | named _ ih => exact .named ih
  | setNamed _ ih => exact .setNamed ih
  | get _ ih => exact .get ih
  | set _ ih => exact .set ih
  | captured _ ih => exact .captured ih

/-- The table only gets longer. -/
theorem recounts_longer {R : Type} {x : D} {l : List Named} {me : Bytes} {past : List CtxEvent} {p : Prog W C D R} {here : Bool} {S S1 : Standing W C D}
    {es : List CtxEvent} {e : End R} (h : Recounts x l me past p here S es e S1) : ∃ more, S1.table = S.table ++ more := by
  induction h with
  | ret | throw => exact ⟨[], (List.append_nil _).symm⟩
  | log _ ih | logline _ ih | reportError _ ih | hasErrors _ ih | named _ ih | setNamed _ _ ih | get _ ih | captured _ ih => exact ih
  | set _ ih => exact ih
  | add _ ih =>
    obtain ⟨more, h⟩ := ih
    exact ⟨_ :: more, by rw [h]; simp [Standing.more]; rfl⟩

theorem growth_longer {S S1 : Standing W C D} {reqs : List Request} {outs : List ExecOut} (h : Growth P catching d S reqs outs S1) :
    ∃ more, S1.table = S.table ++ more := by
  have key : ∀ {S S1 : Standing W C D} {i : Input} {out : ExecOut}, Responds P catching S i S1 out → ∃ more, S1.table = S.table ++ more := by
    intro S S1 i out h
    cases h with
    | noName | unknown | count | mismatch => exact ⟨[], (List.append_nil _).symm⟩
    | returned _ _ _ _ h | thrown _ _ _ _ h => exact recounts_longer h
  induction h with
  | nil => exact ⟨[], (List.append_nil _).symm⟩
  | wrong _ _ ih => exact ih
  | line _ hr _ ih | input hr _ ih =>
    obtain ⟨m1, h1⟩ := key hr
    obtain ⟨m2, h2⟩ := ih
    exact ⟨m1 ++ m2, by rw [h2, h1, List.append_assoc]⟩

end Coil
