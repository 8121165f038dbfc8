import Verif.Proofs.ViewsLift

/-!
# The command in the result, at the level of views (C93)
-/

namespace Coil
open Vw Vw.Spec

variable {S W C D : Type} {V : C → VDef W C D} {ops : RegOps S C D} {catching : Bool} {lex : VLexer} {cfg : LexCfg}
  {m : Mem} {cmd : Ref} {t : Bytes}

theorem Vw.run_input {ne : VNested S W C D} (self : Inst C D) {R : Type} (v : VProg W C D R) :
    ∀ (s : VSys S W C D) (c : VCtx) s' c' e, v.run ops ne self s c = .ok (s', c', e) →
      c'.input.name = c.input.name ∧ c'.input.arguments = c.input.arguments ∧ (LeavesNamed v → c'.input = c.input) := by
  induction v with
  | ret r => intro s c s' c' e h; cases h; exact ⟨rfl, rfl, fun _ => rfl⟩
  | throw e => intro s c s' c' e h; cases h; exact ⟨rfl, rfl, fun _ => rfl⟩
  | ub w => intro s c s' c' e h; cases h
  | diverge => intro s c s' c' e h; cases h
  | log t k ih => intro s c s' c' e h; simp only [VProg.run] at h; have := ih _ _ _ _ _ h; exact this
  | logline t k ih => intro s c s' c' e h; simp only [VProg.run] at h; have := ih _ _ _ _ _ h; exact this
  | reportError t k ih => intro s c s' c' e h; simp only [VProg.run] at h; have := ih _ _ _ _ _ h; exact this
  | hasErrors k ih => intro s c s' c' e h; have := ih _ _ _ _ _ _ h; exact ⟨this.1, this.2.1, fun hl => this.2.2 (hl _)⟩
  | named k ih => intro s c s' c' e h; have := ih _ _ _ _ _ _ h; exact ⟨this.1, this.2.1, fun hl => this.2.2 (hl _)⟩
  | setNamed i x k ih =>
    intro s c s' c' e h
    simp only [VProg.run, VCtx.setNamed, Res.bind_eq_ok] at h
    obtain ⟨c1, ⟨l, _, h2⟩, h3⟩ := h
    cases h2
    have := ih _ _ _ _ _ h3
    exact ⟨this.1, this.2.1, fun hl => hl.elim⟩
  | get k ih => intro s c s' c' e h; have := ih _ _ _ _ _ _ h; exact ⟨this.1, this.2.1, fun hl => this.2.2 (hl _)⟩
  | set w k ih => intro s c s' c' e h; simp only [VProg.run] at h; exact ih _ _ _ _ _ h
  | captured k ih =>
    intro s c s' c' e h
    simp only [VProg.run] at h
    split at h
    · cases h
    · have := ih _ _ _ _ _ _ h
      exact ⟨this.1, this.2.1, fun hl => this.2.2 (hl _)⟩
  | add n fs k ih =>
    intro s c s' c' e h
    simp only [VProg.run, Res.bind_eq_ok] at h
    obtain ⟨_, _, h⟩ := h
    exact ih _ _ _ _ _ h
  | remove n k ih =>
    intro s c s' c' e h
    simp only [VProg.run, Res.bind_eq_ok] at h
    obtain ⟨_, _, h⟩ := h
    exact ih _ _ _ _ _ h
  | clear k ih => intro s c s' c' e h; simp only [VProg.run] at h; exact ih _ _ _ _ _ h
  | execLine t k ih =>
    intro s c s' c' e h
    simp only [VProg.run, Res.bind_eq_ok] at h
    obtain ⟨_, _, h⟩ := h
    have := ih _ _ _ _ _ _ h
    exact ⟨this.1, this.2.1, fun hl => this.2.2 (hl _)⟩
  | execInput t k ih =>
    intro s c s' c' e h
    simp only [VProg.run, Res.bind_eq_ok] at h
    obtain ⟨_, _, h⟩ := h
    have := ih _ _ _ _ _ _ h
    exact ⟨this.1, this.2.1, fun hl => this.2.2 (hl _)⟩
  | make t k ih => intro s c s' c' e h; have := ih _ _ _ _ _ _ h; exact ⟨this.1, this.2.1, fun hl => this.2.2 (hl _)⟩
  | write b t k ih =>
    intro s c s' c' e h
    simp only [VProg.run, Res.bind_eq_ok] at h
    obtain ⟨_, _, h⟩ := h
    exact ih _ _ _ _ _ h
  | free b k ih =>
    intro s c s' c' e h
    simp only [VProg.run, Res.bind_eq_ok] at h
    obtain ⟨_, _, h⟩ := h
    exact ih _ _ _ _ _ h
  | read r k ih =>
    intro s c s' c' e h
    simp only [VProg.run, Res.bind_eq_ok] at h
    obtain ⟨_, _, h⟩ := h
    have := ih _ _ _ _ _ _ h
    exact ⟨this.1, this.2.1, fun hl => this.2.2 (hl _)⟩

theorem Vw.report_input {vs : List VParam} (es : VExpecteds vs) (c : VCtx) : (vreport vs es c).input = c.input := by
  induction vs generalizing c with
  | nil => rfl
  | cons v vs ih =>
    obtain ⟨e, es⟩ := es
    cases e with
    | error x => exact ih es (c.reportError x)
    | ok x => exact ih es c

theorem Vw.handle_input (c : VCtx) (e : Option Exn) : (vhandle catching c e).1.input = c.input := by
  match e with
  | none => rfl
  | some (.std w) => cases catching <;> rfl
  | some .other => cases catching <;> rfl

/-- The functions do not assign to their named arguments. -/
def Vw.NoAssignments (V : C → VDef W C D) : Prop := ∀ c a, LeavesNamed ((V c).body a)

theorem Vw.executeInput_input {ne : VNested S W C D} {depth : Nat} {s s' : VSys S W C D} {i : GInput Ref} {r : VResult}
    (h : vexecuteInput V ops catching ne depth s i = .ok (s', .ok r)) :
    r.input.name = i.name ∧ r.input.arguments = i.arguments ∧ (NoAssignments V → r.input = i) := by
  simp only [vexecuteInput, Res.bind_eq_ok] at h
  obtain ⟨⟨s1, c, e⟩, h1, h2⟩ := h
  cases e with
  | some e => cases h2
  | none =>
    cases h2
    dsimp only
    suffices H : c.input.name = i.name ∧ c.input.arguments = i.arguments ∧ (NoAssignments V → c.input = i) from H
    unfold vexecuteCtx at h1
    split at h1
    · cases h1; exact ⟨rfl, rfl, fun _ => rfl⟩
    · simp only [Res.bind_eq_ok] at h1
      obtain ⟨n, _, o, _, h1⟩ := h1
      cases o with
      | none => cases h1; exact ⟨rfl, rfl, fun _ => rfl⟩
      | some cm =>
        dsimp only at h1
        split at h1
        · simp only [Res.bind_eq_ok] at h1
          obtain ⟨⟨s2, c2, e2⟩, h3, h4⟩ := h1
          have hc : c.input = c2.input := by
            have h4 : (Res.ok (s2, (vhandle catching c2 e2).1, (vhandle catching c2 e2).2) : Res (VSys S W C D × VCtx × Option Exn)) = .ok (s1, c, none) := h4
            simp only [Res.ok.injEq, Prod.mk.injEq] at h4
            rw [← h4.2.1]
            exact handle_input c2 e2
          rw [hc]
          unfold vinvoke at h3
          split at h3
          · cases h3
          · simp only [Res.bind_eq_ok] at h3
            obtain ⟨es, _, h3⟩ := h3
            split at h3
            · cases h3
              rw [report_input]
              exact ⟨rfl, rfl, fun _ => rfl⟩
            · simp only [Res.bind_eq_ok] at h3
              obtain ⟨args, _, ⟨s5, c5, e5⟩, h6, ⟨c6, e6⟩, h7, h8⟩ := h3
              simp only [Res.ok.injEq, Prod.mk.injEq] at h8
              have hr := run_input _ _ _ _ _ _ _ h6
              have hc5 : c2.input = c5.input := by
                rw [← h8.2.1]
                cases e5 with
                | exn x => cases h7; rfl
                | ret x =>
                  simp only [vstore, Res.bind_eq_ok] at h7
                  obtain ⟨_, _, h7⟩ := h7
                  split at h7 <;> cases h7 <;> rfl
              rw [hc5]
              exact ⟨hr.1, hr.2.1, fun hn => hr.2.2 (hn _ _)⟩
        · cases h1; exact ⟨rfl, rfl, fun _ => rfl⟩

theorem Vw.within_of_read {v : View} {x : Bytes} (hr : m.read cmd = .ok t) (h : v.read t = .ok x) : Within (cmd.sub v) cmd := by
  have hl : t.length = cmd.len := by
    unfold Mem.read at hr
    split at hr
    · rename_i h0; cases hr; exact h0.symm
    · split at hr
      · split at hr
        · rename_i hle; cases hr; rw [List.length_take, List.length_drop]; omega
        · cases hr
      · cases hr
      · cases hr
  unfold View.read at h
  split at h
  · rename_i hle
    rw [hl] at hle
    exact ⟨rfl, Nat.le_add_right _ _, by simp only [Ref.sub]; omega⟩
  · cases h

theorem Vw.within_list {vs : List View} {xs : List Bytes} (hr : m.read cmd = .ok t) (h : readViews t vs = .ok xs) :
    ∀ r ∈ vs.map cmd.sub, Within r cmd := by
  induction vs generalizing xs with
  | nil => intro r hm; cases hm
  | cons v vs ih =>
    simp only [readViews, Res.bind_eq_ok] at h
    obtain ⟨b, h1, bs, h2, h3⟩ := h
    intro r hm
    rcases List.mem_cons.1 hm with rfl | hm
    · exact within_of_read hr h1
    · exact ih h2 r hm

theorem Vw.within_value {v : GValue View} {x : Value} (hr : m.read cmd = .ok t) (h : v.read t = .ok x) :
    ∀ r ∈ (cmd.value v).subvalues, Within r cmd := by
  simp only [GValue.read, Res.bind_eq_ok] at h
  obtain ⟨xs, h1, h2⟩ := h
  exact within_list hr h1

theorem Vw.within_input {i : GInput View} {x : Input} (hr : m.read cmd = .ok t) (h : i.read t = .ok x) : ∀ r ∈ viewsOf (cmd.input i), Within r cmd := by
  simp only [GInput.read, Res.bind_eq_ok] at h
  obtain ⟨n, h1, a, h2, na, h3, h4⟩ := h
  intro r hm
  rcases List.mem_cons.1 hm with rfl | hm
  · exact within_of_read hr h1
  rcases List.mem_append.1 hm with hm | hm
  · clear h1 h3 h4
    simp only [Ref.input, List.mem_flatMap, List.mem_map] at hm
    obtain ⟨_, ⟨v, hv, rfl⟩, hm⟩ := hm
    generalize i.arguments = l at h2 hv
    induction l generalizing a with
    | nil => cases hv
    | cons w l ih =>
      simp only [readArgs, Res.bind_eq_ok] at h2
      obtain ⟨b, g1, bs, g2, g3⟩ := h2
      rcases List.mem_cons.1 hv with rfl | hv
      · exact within_value hr g1 _ hm
      · exact ih _ g2 hv
  · clear h1 h2 h4
    simp only [Ref.input, List.mem_flatMap, List.mem_map] at hm
    obtain ⟨_, ⟨v, hv, rfl⟩, hm⟩ := hm
    generalize i.namedArguments = l at h3 hv
    induction l generalizing na with
    | nil => cases hv
    | cons w l ih =>
      simp only [readNamed, Res.bind_eq_ok] at h3
      obtain ⟨k, g0, b, g1, bs, g2, g3⟩ := h3
      rcases List.mem_cons.1 hv with rfl | hv
      · rcases List.mem_cons.1 hm with rfl | hm
        · exact within_of_read hr g0
        · exact within_value hr g1 _ hm
      · exact ih _ g2 hv

theorem Vw.lexRead_parse {x : Input} (h : lexRead cfg t = .ok (.ok x)) : ∃ i, lexParse cfg t = .ok (.ok i) ∧ i.read t = .ok x := by
  simp only [lexRead, Res.bind_eq_ok] at h
  obtain ⟨o, h1, h2⟩ := h
  cases o with
  | error e => cases h2
  | ok i =>
    simp only [Res.bind_eq_ok] at h2
    obtain ⟨x', h3, h4⟩ := h2
    cases h4
    exact ⟨i, h1, h3⟩

end Coil
