import Verif.Spec.Fixed
import Verif.Proofs.Semantics
import Verif.Proofs.EncapsulationStep

/-!
# Programs with fixed commands: the two semantics agree
-/

namespace Coil
open Spec

variable {W C D : Type} {P : C → FunctorDef W C D} {catching : Bool} {T : Table C D} {d : Delims}

theorem says_of_does {R : Type} {p : Prog W C D R} (hq : Quiet p) : ∀ {self : Inst C D} {l : List Named} {past es : List CtxEvent} {σ σ' : Scene W C D}
    {e : End R}, Does P catching self l past p σ es e σ' → Says self.data l past p σ.user es e σ'.user ∧ σ' = { σ with user := σ'.user } := by
  induction hq with
  | ret => intro _ _ _ _ _ _ _ h; cases h; exact ⟨.ret, rfl⟩
  | throw => intro _ _ _ _ _ _ _ h; cases h; exact ⟨.throw, rfl⟩
  | ub => intro _ _ _ _ _ _ _ h; cases h
  | diverge => intro _ _ _ _ _ _ _ h; cases h
  | log _ ih => intro _ _ _ _ _ _ _ h; cases h with | log h => exact ⟨.log (ih h).1, (ih h).2⟩
  | logline _ ih => intro _ _ _ _ _ _ _ h; cases h with | logline h => exact ⟨.logline (ih h).1, (ih h).2⟩
  | reportError _ ih => intro _ _ _ _ _ _ _ h; cases h with | reportError h => exact ⟨.reportError (ih h).1, (ih h).2⟩
  | hasErrors _ ih => intro _ _ _ _ _ _ _ h; cases h with | hasErrors h => exact ⟨.hasErrors (ih _ h).1, (ih _ h).2⟩
  | named _ ih => intro _ _ _ _ _ _ _ h; cases h with | named h => exact ⟨.named (ih _ h).1, (ih _ h).2⟩
  | setNamed _ ih => intro _ _ _ _ _ _ _ h; cases h with | setNamed hi h => exact ⟨.setNamed hi (ih h).1, (ih h).2⟩
  | get _ ih => intro _ _ _ _ _ _ _ h; cases h with | get h => exact ⟨.get (ih _ h).1, (ih _ h).2⟩
  | set _ ih => intro _ _ _ _ _ _ _ h; cases h with | set h => exact ⟨.set (ih h).1, (ih h).2⟩
  | captured _ ih => intro _ _ _ _ _ _ _ h; cases h with | captured _ h => exact ⟨.captured (ih _ h).1, (ih _ h).2⟩

theorem does_of_says {R : Type} {x : D} {l : List Named} {past es : List CtxEvent} {p : Prog W C D R} {w w' : W} {e : End R}
    (h : Says x l past p w es e w') : ∀ {self : Inst C D} {σ : Scene W C D}, self.data = x → σ.user = w → σ.Has self →
      Does P catching self l past p σ es e { σ with user := w' } := by
  induction h with
  | ret => intro _ _ _ hw _; subst hw; exact .ret
  | throw => intro _ _ _ hw _; subst hw; exact .throw
  | log _ ih => intro _ _ h1 h2 h3; exact .log (ih h1 h2 h3)
  | logline _ ih => intro _ _ h1 h2 h3; exact .logline (ih h1 h2 h3)
  | reportError _ ih => intro _ _ h1 h2 h3; exact .reportError (ih h1 h2 h3)
  | hasErrors _ ih => intro _ _ h1 h2 h3; exact .hasErrors (ih h1 h2 h3)
  | named _ ih => intro _ _ h1 h2 h3; exact .named (ih h1 h2 h3)
  | setNamed hi _ ih => intro _ _ h1 h2 h3; exact .setNamed hi (ih h1 h2 h3)
  | get _ ih => intro _ σ h1 h2 h3; subst h2; exact .get (ih h1 rfl h3)
  | @set _ v _ _ _ _ _ _ ih => intro _ σ h1 h2 h3; exact .set (ih (σ := { σ with user := v }) h1 rfl h3)
  | captured _ ih => intro _ _ h1 h2 h3; subst h1; exact .captured h3 (ih rfl h2 h3)

/-- The commands of a scene are those of a table. -/
structure Tabled (T : Table C D) (d : Delims) (σ : Scene W C D) : Prop where
  commands : ∀ n, (σ.commands n).map (fun fs => fs.map (fun f => (f.code, f.data))) = T.functions n
  reads : σ.reads = ReadsAs d

theorem Tabled.user {σ : Scene W C D} (h : Tabled T d σ) (w : W) : Tabled T d { σ with user := w } := ⟨h.commands, h.reads⟩

theorem firstTaking_of {n : Nat} {fs : List (Inst C D)} {f : Inst C D} (h : FirstOfArity P n fs f) :
    FirstTaking P n (fs.map (fun f => (f.code, f.data))) (f.code, f.data) := by
  obtain ⟨a, b, rfl, h1, h2⟩ := h
  refine ⟨a.map (fun f => (f.code, f.data)), b.map (fun f => (f.code, f.data)), by simp, h1, ?_⟩
  intro g hg
  obtain ⟨g', hg', rfl⟩ := List.mem_map.1 hg
  exact h2 g' hg'

theorem of_firstTaking {n : Nat} {fs : List (Inst C D)} {x : C × D} (h : FirstTaking P n (fs.map (fun f => (f.code, f.data))) x) :
    ∃ f, FirstOfArity P n fs f ∧ x = (f.code, f.data) := by
  obtain ⟨a, b, h0, h1, h2⟩ := h
  obtain ⟨a', b', rfl, ha, hb⟩ := List.map_eq_append_iff.1 h0
  obtain ⟨f, b'', rfl, hf, _⟩ := List.map_eq_cons_iff.1 hb
  refine ⟨f, ⟨a', b'', rfl, by rw [← hf] at h1; exact h1, fun g hg => ?_⟩, hf.symm⟩
  exact h2 (g.code, g.data) (by rw [← ha]; exact List.mem_map.2 ⟨g, hg, rfl⟩)

theorem functions_mem {n : Bytes} {fs : List (C × D)} (h : T.functions n = some fs) : (n, fs) ∈ T := by
  induction T with
  | nil => cases h
  | cons c rest ih =>
    obtain ⟨m, gs⟩ := c
    simp only [Table.functions] at h
    cases hr : Table.functions rest n with
    | some hs => rw [hr] at h; cases h; exact List.mem_cons_of_mem _ (ih hr)
    | none =>
      rw [hr] at h
      simp only at h
      split at h
      · rename_i e; cases h; cases e; exact List.mem_cons_self ..
      · cases h

theorem Tabled.known {σ : Scene W C D} (h : Tabled T d σ) {n : Bytes} {fs : List (Inst C D)} (hc : σ.commands n = some fs) :
    T.functions n = some (fs.map (fun f => (f.code, f.data))) := by rw [← h.commands n, hc]; rfl

theorem Tabled.unknown {σ : Scene W C D} (h : Tabled T d σ) {n : Bytes} : σ.commands n = none ↔ T.functions n = none := by
  rw [← h.commands n]; cases σ.commands n <;> simp

theorem Tabled.of {σ : Scene W C D} (h : Tabled T d σ) {n : Bytes} {gs : List (C × D)} (hc : T.functions n = some gs) :
    ∃ fs, σ.commands n = some fs ∧ gs = fs.map (fun f => (f.code, f.data)) := by
  rw [← h.commands n] at hc
  cases hf : σ.commands n with
  | none => rw [hf] at hc; cases hc
  | some fs => rw [hf] at hc; exact ⟨fs, rfl, (Option.some.inj hc).symm⟩

theorem replies_of_performs (hq : AllQuiet P) {σ σ' : Scene W C D} (ht : Tabled T d σ) {i : Input} {out : ExecOut}
    (h : Performs P catching σ (.input i) σ' out) : Replies P catching T σ.user i σ'.user out ∧ σ' = { σ with user := σ'.user } := by
  cases h with
  | noName hn => exact ⟨.noName hn, rfl⟩
  | unknown hn hc => exact ⟨.unknown hn (ht.unknown.1 hc), rfl⟩
  | @count _ _ fs hn hc hno =>
    have := Replies.count (P := P) (catching := catching) (w := σ.user) hn (ht.known hc) (fun f hf => by
      obtain ⟨g, hg, rfl⟩ := List.mem_map.1 hf; exact hno g hg)
    rw [List.map_map] at this
    exact ⟨this, rfl⟩
  | mismatch hn hc hf h1 h2 => exact ⟨.mismatch (f := (_, _)) hn (ht.known hc) (firstTaking_of hf) h1 h2, rfl⟩
  | returned hn hc hf hx hd =>
    obtain ⟨h1, h2⟩ := says_of_does (hq _ _) hd
    exact ⟨.returned (f := (_, _)) hn (ht.known hc) (firstTaking_of hf) hx h1, h2⟩
  | caught hcat hn hc hf hx hd =>
    obtain ⟨h1, h2⟩ := says_of_does (hq _ _) hd
    have := Replies.thrown (catching := catching) (f := (_, _)) hn (ht.known hc) (firstTaking_of hf) hx h1
    rw [if_pos hcat] at this
    exact ⟨this, h2⟩
  | passed hcat hn hc hf hx hd =>
    obtain ⟨h1, h2⟩ := says_of_does (hq _ _) hd
    have := Replies.thrown (catching := catching) (f := (_, _)) hn (ht.known hc) (firstTaking_of hf) hx h1
    rw [if_neg (by simp [hcat])] at this
    exact ⟨this, h2⟩

theorem performs_of_replies {σ : Scene W C D} (ht : Tabled T d σ) {i : Input} {w' : W} {out : ExecOut}
    (h : Replies P catching T σ.user i w' out) : Performs P catching σ (.input i) { σ with user := w' } out := by
  have has : ∀ {n fs} {f : Inst C D} {k}, σ.commands n = some fs → FirstOfArity P k fs f → σ.Has f := fun hc hf => ⟨_, _, hc, firstOfArity_mem hf⟩
  cases h with
  | noName hn => exact .noName hn
  | unknown hn hc => exact .unknown hn (ht.unknown.2 hc)
  | count hn hc hno =>
    obtain ⟨fs, hfs, rfl⟩ := ht.of hc
    have := Performs.count (P := P) (catching := catching) hn hfs (fun g hg => hno (g.code, g.data) (List.mem_map.2 ⟨g, hg, rfl⟩))
    rw [List.map_map]
    exact this
  | mismatch hn hc hf h1 h2 =>
    obtain ⟨fs, hfs, rfl⟩ := ht.of hc
    obtain ⟨f, hf', rfl⟩ := of_firstTaking hf
    exact .mismatch hn hfs hf' h1 h2
  | returned hn hc hf hx hs =>
    obtain ⟨fs, hfs, rfl⟩ := ht.of hc
    obtain ⟨f, hf', rfl⟩ := of_firstTaking hf
    exact .returned hn hfs hf' hx (does_of_says hs rfl rfl (has hfs hf'))
  | thrown hn hc hf hx hs =>
    obtain ⟨fs, hfs, rfl⟩ := ht.of hc
    obtain ⟨f, hf', rfl⟩ := of_firstTaking hf
    have hd := does_of_says (P := P) (catching := catching) (σ := σ) (self := f) hs rfl rfl (has hfs hf')
    cases hcat : catching with
    | true =>
      rw [hcat] at hd
      exact .caught rfl hn hfs hf' hx hd
    | false =>
      rw [hcat] at hd
      exact .passed rfl hn hfs hf' hx hd

theorem talk_of_acts (hq : AllQuiet P) {reqs : List Request} {σ σ' : Scene W C D} {outs : List ExecOut} (ht : Tabled T d σ)
    (h : Acts P catching σ (reqs.map .exec) outs σ') : Talk P catching T d σ.user reqs outs σ'.user ∧ σ' = { σ with user := σ'.user } := by
  induction reqs generalizing σ outs with
  | nil => cases h; exact ⟨.nil, rfl⟩
  | cons r rest ih =>
    cases h with
    | exec hp hr =>
      cases hp with
      | wrong hw =>
        rw [ht.reads] at hw
        obtain ⟨h1, h2⟩ := ih ht hr
        exact ⟨.wrong hw h1, h2⟩
      | line hl hp =>
        rw [ht.reads] at hl
        obtain ⟨h3, h4⟩ := replies_of_performs hq ht hp
        rw [h4] at hr
        obtain ⟨h1, h2⟩ := ih (ht.user _) hr
        exact ⟨.line hl h3 h1, h2⟩
      | noName hn => 
        obtain ⟨h1, h2⟩ := ih ht hr
        exact ⟨.input (replies_of_performs hq ht (.noName hn)).1 h1, h2⟩
      | unknown hn hc => 
        obtain ⟨h1, h2⟩ := ih ht hr
        exact ⟨.input (replies_of_performs hq ht (.unknown hn hc)).1 h1, h2⟩
      | count hn hc hno => 
        obtain ⟨h1, h2⟩ := ih ht hr
        exact ⟨.input (replies_of_performs hq ht (.count hn hc hno)).1 h1, h2⟩
      | mismatch hn hc hf h3 h4 => 
        obtain ⟨h1, h2⟩ := ih ht hr
        exact ⟨.input (replies_of_performs hq ht (.mismatch hn hc hf h3 h4)).1 h1, h2⟩
      | returned hn hc hf hx hd => 
        obtain ⟨h3, h4⟩ := replies_of_performs hq ht (.returned hn hc hf hx hd)
        rw [h4] at hr
        obtain ⟨h1, h2⟩ := ih (ht.user _) hr
        exact ⟨.input h3 h1, h2⟩
      | caught hcat hn hc hf hx hd => 
        obtain ⟨h3, h4⟩ := replies_of_performs hq ht (.caught hcat hn hc hf hx hd)
        rw [h4] at hr
        obtain ⟨h1, h2⟩ := ih (ht.user _) hr
        exact ⟨.input h3 h1, h2⟩
      | passed hcat hn hc hf hx hd => 
        obtain ⟨h3, h4⟩ := replies_of_performs hq ht (.passed hcat hn hc hf hx hd)
        rw [h4] at hr
        obtain ⟨h1, h2⟩ := ih (ht.user _) hr
        exact ⟨.input h3 h1, h2⟩

theorem acts_of_talk {reqs : List Request} {w w' : W} {outs : List ExecOut} (h : Talk P catching T d w reqs outs w') :
    ∀ {σ : Scene W C D}, Tabled T d σ → σ.user = w → Acts P catching σ (reqs.map .exec) outs { σ with user := w' } := by
  induction h with
  | nil => intro σ _ hw; subst hw; exact .done
  | wrong hr _ ih => intro σ ht hw; exact .exec (.wrong (by rw [ht.reads]; exact hr)) (ih ht hw)
  | line hr hp _ ih =>
    intro σ ht hw
    subst hw
    exact .exec (.line (by rw [ht.reads]; exact hr) (performs_of_replies ht hp)) (ih (ht.user _) rfl)
  | input hp _ ih =>
    intro σ ht hw
    subst hw
    exact .exec (performs_of_replies ht hp) (ih (ht.user _) rfl)

/-- The scene after registering a table. -/
def Scene.adding (σ : Scene W C D) : Table C D → Scene W C D
  | [] => σ
  | c :: rest => Scene.adding (σ.add c.1 c.2) rest

theorem acts_adding {σ σ' : Scene W C D} {acts : List (Action W C D)} {outs : List ExecOut} :
    Acts P catching σ (T.map (fun c => .add c.1 c.2) ++ acts) outs σ' ↔ Acts P catching (Scene.adding σ T) acts outs σ' := by
  induction T generalizing σ with
  | nil => exact Iff.rfl
  | cons c rest ih => exact ⟨fun h => by cases h with | add h => exact ih.1 h, fun h => .add (ih.2 h)⟩

theorem numbered_pairs (n : Nat) (fs : List (C × D)) : (Scene.numbered n fs).map (fun f => (f.code, f.data)) = fs := by
  simp only [Scene.numbered, List.map_map]
  have : ((fun f : Inst C D => (f.code, f.data)) ∘ fun x : (C × D) × Nat => ⟨x.2, x.1.1, x.1.2⟩) = Prod.fst := rfl
  rw [this, List.zipIdx_map_fst]

theorem adding_props (σ : Scene W C D) : (Scene.adding σ T).reads = σ.reads ∧ (Scene.adding σ T).user = σ.user ∧
    (∀ n, ((Scene.adding σ T).commands n).map (fun fs => fs.map (fun f => (f.code, f.data))) =
      (T.functions n).orElse (fun _ => (σ.commands n).map (fun fs => fs.map (fun f => (f.code, f.data))))) ∧
    ∃ more, (Scene.adding σ T).changes = σ.changes ++ more ∧ ∀ ev ∈ more, ∃ n fs, ev = .added n fs := by
  induction T generalizing σ with
  | nil => exact ⟨rfl, rfl, fun n => rfl, [], by simp [Scene.adding], by simp⟩
  | cons c rest ih =>
    obtain ⟨h1, h2, h3, more, h4, h5⟩ := ih (σ.add c.1 c.2)
    refine ⟨h1, h2, fun n => ?_, _ :: more, by simp only [Scene.adding]; rw [h4]; simp [Scene.add]; rfl, ?_⟩
    · simp only [Scene.adding]
      rw [h3 n]
      simp only [Table.functions]
      cases Table.functions rest n with
      | some gs => rfl
      | none =>
        simp only [Scene.add, Option.orElse_none]
        by_cases e : n = c.1
        · rw [if_pos e, if_pos e.symm]
          simp [numbered_pairs]
        · rw [if_neg e, if_neg (fun h => e h.symm)]
          rfl
    · intro ev hev
      rcases List.mem_cons.1 hev with rfl | h
      · exact ⟨_, _, rfl⟩
      · exact h5 ev h

theorem tabled_start (d : Delims) (w : W) : Tabled T d (Scene.adding (Scene.start d w) T) := by
  obtain ⟨h1, _, h3, _⟩ := adding_props (T := T) (Scene.start (C := C) (D := D) d w)
  refine ⟨fun n => ?_, h1⟩
  rw [h3 n]
  cases Table.functions T n <;> rfl

theorem adds_safe {h : List (RegEvent C D)} (hh : ∀ ev ∈ h, ∃ n fs, ev = .added n fs) : SafeHistory h := by
  unfold SafeHistory
  generalize Phase.calm = ph
  generalize ([] : List (Bytes × Command C D)) = l
  induction h generalizing ph l with
  | nil => trivial
  | cons ev h ih =>
    obtain ⟨n, fs, rfl⟩ := hh ev (List.mem_cons_self ..)
    exact ⟨trivial, ih (fun ev' h' => hh ev' (List.mem_cons_of_mem _ h')) _ _⟩

theorem conversions_total {ps : List Param} (hps : ∀ p ∈ ps, ∀ v, ∃ r, p.conv.fromString v = .ok r) :
    ∀ {as : List Value}, ps.length = as.length → ConversionsDefined ps as ∧ (conversionErrors ps as = [] → ∃ xs, ConvertTo ps as xs) := by
  induction ps with
  | nil =>
    intro as h
    cases as with
    | nil => exact ⟨trivial, fun _ => ⟨(), trivial⟩⟩
    | cons => cases h
  | cons p ps ih =>
    intro as h
    cases as with
    | nil => cases h
    | cons a as =>
      obtain ⟨h1, h2⟩ := ih (fun q hq => hps q (List.mem_cons_of_mem _ hq)) (as := as) (by simpa using h)
      obtain ⟨r, hr⟩ := hps p List.mem_cons_self a
      refine ⟨⟨⟨r, hr⟩, h1⟩, fun he => ?_⟩
      cases r with
      | error m => simp [conversionErrors, hr] at he
      | ok x =>
        simp only [conversionErrors, hr] at he
        obtain ⟨xs, hxs⟩ := h2 he
        exact ⟨(x, xs), hr, hxs⟩

theorem firstTaking_or (n : Nat) (fs : List (C × D)) : (∀ f ∈ fs, (P f.1).params.length ≠ n) ∨ ∃ f, FirstTaking P n fs f := by
  induction fs with
  | nil => exact .inl (by simp)
  | cons f fs ih =>
    by_cases h : (P f.1).params.length = n
    · exact .inr ⟨f, [], fs, rfl, h, by simp⟩
    · rcases ih with h' | ⟨g, a, b, rfl, h1, h2⟩
      · refine .inl fun g hg => ?_
        rcases List.mem_cons.1 hg with rfl | hg
        · exact h
        · exact h' g hg
      · refine .inr ⟨g, f :: a, b, rfl, h1, fun x hx => ?_⟩
        rcases List.mem_cons.1 hx with rfl | hx
        · exact h
        · exact h2 x hx

theorem replies_total (ht : TotalTable P T) (w : W) (i : Input) : ∃ w' out, Replies P catching T w i w' out := by
  by_cases hn : i.name = []
  · exact ⟨_, _, .noName hn⟩
  cases hf : T.functions i.name with
  | none => exact ⟨_, _, .unknown hn hf⟩
  | some fs =>
    rcases firstTaking_or (P := P) i.arguments.length fs with h | ⟨f, h⟩
    · exact ⟨_, _, .count hn hf h⟩
    · have hmem : f ∈ fs := by obtain ⟨a, b, rfl, _⟩ := h; simp
      obtain ⟨h1, h2⟩ := ht _ (functions_mem hf) f hmem
      obtain ⟨h3, h4⟩ := conversions_total h1 (as := i.arguments) (by obtain ⟨_, _, _, h, _⟩ := h; exact h)
      by_cases he : conversionErrors (P f.1).params i.arguments = []
      · obtain ⟨xs, hxs⟩ := h4 he
        obtain ⟨es, e, w', hs⟩ := h2 xs i.namedArguments w
        cases e with
        | ret r => exact ⟨_, _, .returned hn hf h hxs hs⟩
        | exn x => exact ⟨_, _, .thrown hn hf h hxs hs⟩
      · exact ⟨_, _, .mismatch hn hf h h3 he⟩

theorem talk_total (ht : TotalTable P T) {reqs : List Request} (hr : ∀ r ∈ reqs, Enterable d r) (w : W) :
    ∃ outs w', Talk P catching T d w reqs outs w' := by
  induction reqs generalizing w with
  | nil => exact ⟨[], w, .nil⟩
  | cons r rest ih =>
    have hrest := fun r' hr' => hr r' (List.mem_cons_of_mem _ hr')
    cases r with
    | input i =>
      obtain ⟨w1, o, h1⟩ := replies_total (catching := catching) ht w i
      obtain ⟨outs, w', h2⟩ := ih hrest w1
      exact ⟨_, _, .input h1 h2⟩
    | line t =>
      obtain ⟨hlen, hq⟩ := hr _ List.mem_cons_self
      rcases command_total (d := d) t with ⟨i, hi⟩ | ⟨m, hm⟩ | hl
      · obtain ⟨w1, o, h1⟩ := replies_total (catching := catching) ht w i
        obtain ⟨outs, w', h2⟩ := ih hrest w1
        exact ⟨_, _, .line ⟨hlen, hi⟩ h1 h2⟩
      · obtain ⟨outs, w', h2⟩ := ih hrest w
        exact ⟨_, _, .wrong ⟨hlen, hm⟩ h2⟩
      · exact absurd hl hq

variable {S : Type} {ops : RegOps S C D}

theorem runs_history {R : Type} {p : Prog W C D R} (hq : Quiet p) : ∀ {ne : Nested S W C D} {self : Inst C D} {l : List Named} {past es : List CtxEvent}
    {s s' : Sys S W C D} {e : End R}, Runs ops ne self l past p s es e s' → s'.history = s.history := by
  induction hq with
  | ret => intro _ _ _ _ _ _ _ _ h; cases h; rfl
  | throw => intro _ _ _ _ _ _ _ _ h; cases h; rfl
  | ub => intro _ _ _ _ _ _ _ _ h; cases h
  | diverge => intro _ _ _ _ _ _ _ _ h; cases h
  | log _ ih => intro _ _ _ _ _ _ _ _ h; cases h with | log h => exact ih h
  | logline _ ih => intro _ _ _ _ _ _ _ _ h; cases h with | logline h => exact ih h
  | reportError _ ih => intro _ _ _ _ _ _ _ _ h; cases h with | reportError h => exact ih h
  | hasErrors _ ih => intro _ _ _ _ _ _ _ _ h; cases h with | hasErrors h => exact ih _ h
  | named _ ih => intro _ _ _ _ _ _ _ _ h; cases h with | named h => exact ih _ h
  | setNamed _ ih => intro _ _ _ _ _ _ _ _ h; cases h with | setNamed _ h => exact ih h
  | get _ ih => intro _ _ _ _ _ _ _ _ h; cases h with | get h => exact ih _ h
  | set _ ih => intro _ _ _ _ _ _ _ _ h; cases h with | set h => have := ih h; exact this
  | captured _ ih => intro _ _ _ _ _ _ _ _ h; cases h with | captured _ h => exact ih _ h

theorem exec_history (hq : AllQuiet P) {fuel depth : Nat} {s s' : Sys S W C D} {req : Request} {out : ExecOut}
    (h : (nested P ops catching fuel depth).exec s req = .ok (s', out)) : s'.history = s.history := by
  obtain ⟨_, _, h⟩ := exec_ok h
  rcases h with ⟨_, _, _, _, _, _, rfl, _⟩ | ⟨i, _, h⟩
  · rfl
  · rcases executeInput_cases h with ⟨_, rfl, _⟩ | ⟨_, _, rfl, _⟩ | ⟨_, _, _, _, rfl, _⟩ | ⟨_, _, _, _, _, _, _, _, rfl, _⟩ |
      ⟨_, _, _, _, _, _, _, _, _, _, hr, _⟩
    · rfl
    · rfl
    · rfl
    · rfl
    · have := runs_history (hq _ _) hr
      exact this

theorem fixed_history (hq : AllQuiet P) {fuel : Nat} {reqs : List Request} {s s' : Sys S W C D} {outs : List ExecOut}
    (h : actsOut P ops catching fuel s (fixedProgram T reqs) = .ok (s', outs)) (h0 : ∀ ev ∈ s.history, ∃ n fs, ev = .added n fs) :
    ∀ ev ∈ s'.history, ∃ n fs, ev = .added n fs := by
  unfold fixedProgram at h
  induction T generalizing s outs with
  | nil =>
    simp only [List.map_nil, List.nil_append] at h
    induction reqs generalizing s outs with
    | nil => cases h; exact h0
    | cons r reqs ih =>
      simp only [List.map_cons, actsOut] at h
      obtain ⟨⟨s1, o1⟩, h1, h⟩ := Res.bind_eq_ok.1 h
      obtain ⟨⟨s2, o2⟩, h2, h⟩ := Res.bind_eq_ok.1 h
      cases h
      simp only [actOut] at h1
      obtain ⟨⟨s3, o⟩, g1, g2⟩ := Res.bind_eq_ok.1 h1
      cases g2
      exact ih (by rw [exec_history hq (depth := 0) g1]; exact h0) h2
  | cons c T ih =>
    simp only [List.map_cons, List.cons_append, actsOut] at h
    obtain ⟨⟨s1, o1⟩, h1, h⟩ := Res.bind_eq_ok.1 h
    obtain ⟨⟨s2, o2⟩, h2, h⟩ := Res.bind_eq_ok.1 h
    cases h
    simp only [actOut] at h1
    obtain ⟨s3, g1, g2⟩ := Res.bind_eq_ok.1 h1
    cases g2
    simp only [bindingsAdd] at g1
    obtain ⟨old, _, g1⟩ := Res.bind_eq_ok.1 g1
    obtain ⟨reg, _, g1⟩ := Res.bind_eq_ok.1 g1
    cases g1
    refine ih h2 fun ev hev => ?_
    rcases List.mem_append.1 hev with h | h
    · exact h0 ev h
    · exact ⟨_, _, by simpa using h⟩

end Coil
