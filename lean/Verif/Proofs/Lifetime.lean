import Verif.Spec.Lifetime
import Verif.Proofs.VecProg

/-! # Optionals, expecteds and owners: simulation by plain values -/

namespace Coil
namespace Life
open Spec
open Vec (get_setv)

section
variable {β γ : Type}

theorem valueOf_some {e : List (Option β)} {v : Nat} {x : β} : valueOf e v = some x ↔ e[v]? = some (some x) := by
  unfold valueOf
  cases e[v]? with
  | none => simp
  | some o => simp

theorem live_map (f : β → γ) {e : List (Option β)} {v : Nat} {x : β} (h : valueOf e v = some x) :
    live (e.map (Option.map f)) v = .ok (f x) := by
  simp [live, valueOf_some.1 h]

theorem contained_append (full : β → Bool) (e e' : List (Option β)) :
    contained full (e ++ e') = contained full e + contained full e' := by
  simp [contained]

theorem contained_set (full : β → Bool) {e : List (Option β)} {v : Nat} {x : β} (h : e[v]? = some (some x)) (y : Option β) :
    contained full (e.set v y) + (if full x then 1 else 0) = contained full e + contained full [y] := by
  induction e generalizing v with
  | nil => simp at h
  | cons a e ih =>
    cases v with
    | zero =>
      simp only [List.getElem?_cons_zero, Option.some.injEq] at h
      subst h
      simp only [contained, List.set_cons_zero, List.map_cons, List.sum_cons, List.map_nil, List.sum_nil]
      omega
    | succ v =>
      simp only [List.getElem?_cons_succ] at h
      have := ih h
      simp only [contained, List.set_cons_succ, List.map_cons, List.sum_cons, List.map_nil, List.sum_nil] at *
      omega

theorem set_same {e : List (Option β)} {v : Nat} {x : β} (h : e[v]? = some (some x)) : e.set v (some x) = e := by
  apply List.ext_getElem?
  intro j
  rw [get_setv h]
  split
  · rename_i hj
    rw [hj, h]
  · rfl

end

section
variable {α ε : Type}

/-- The object that represents an optional value. -/
def enc (o : Option α) : OptObj α := ⟨o.isSome, o⟩

/-- The state that represents the values `e`, with balanced counters. -/
def OptRel (s : OptState α) (e : List (Option (Option α))) : Prop :=
  s.vars = e.map (Option.map enc) ∧ s.counts.ctors = s.counts.dtors + contained Option.isSome e

theorem OptRel.mk {c : Counts} {e : List (Option (Option α))} {vars : List (Option (OptObj α))} (h1 : vars = e.map (Option.map enc))
    (h2 : c.ctors = c.dtors + contained Option.isSome e) : OptRel ⟨vars, c⟩ e := ⟨h1, h2⟩

theorem map_set_enc (e : List (Option (Option α))) (v : Nat) (o : Option (Option α)) :
    (e.set v o).map (Option.map enc) = (e.map (Option.map enc)).set v (o.map enc) := by
  rw [List.map_set]

theorem optStep_spec (ty : Ty α) {s : OptState α} {e e' : List (Option (Option α))} (h : OptRel s e) {op : OptOp α}
    (hs : optSpec ty e op = some e') : ∃ s', optStep ty s op = .ok s' ∧ OptRel s' e' := by
  obtain ⟨vars, c⟩ := s
  obtain ⟨h1, h2⟩ := h
  simp only at h1 h2
  subst h1
  cases op with
  | create =>
    simp only [optSpec, Option.some.injEq] at hs
    subst hs
    refine ⟨_, rfl, by simp [enc, OptObj.empty], ?_⟩
    rw [contained_append]
    simpa [contained] using h2
  | ofValue x fail =>
    simp only [optSpec, Option.some.injEq] at hs
    subst hs
    cases fail
    · refine ⟨_, rfl, by simp [enc], ?_⟩
      simp only [Bool.false_eq_true, if_false]
      rw [contained_append]
      simp [contained] at h2 ⊢
      omega
    · exact ⟨_, rfl, rfl, h2⟩
  | copyNew src fail =>
    simp only [optSpec, Option.map_eq_some_iff] at hs
    obtain ⟨r, hr, rfl⟩ := hs
    have hl := live_map enc hr
    simp only [optStep, hl, Res.bind_ok]
    cases r with
    | none =>
      refine ⟨_, rfl, by simp [enc, OptObj.empty], ?_⟩
      simp only [Option.isSome_none, Bool.and_false, Bool.false_eq_true, if_false]
      rw [contained_append]
      simpa [contained] using h2
    | some x =>
      cases fail
      · refine ⟨_, rfl, by simp [enc, OptObj.construct], ?_⟩
        simp only [OptObj.construct, Bool.false_and, Bool.false_eq_true, if_false]
        rw [contained_append]
        simp [contained] at h2 ⊢
        omega
      · exact ⟨_, rfl, rfl, h2⟩
  | moveNew src =>
    simp only [optSpec, Option.map_eq_some_iff] at hs
    obtain ⟨r, hr, rfl⟩ := hs
    have hl := live_map enc hr
    simp only [optStep, hl, Res.bind_ok]
    have hg := valueOf_some.1 hr
    cases r with
    | none =>
      refine ⟨_, rfl, ?_, ?_⟩
      · simp only [Option.map_none, set_same hg]
        simp [enc, OptObj.empty]
      · simp only [Option.map_none, set_same hg]
        rw [contained_append]
        simpa [contained] using h2
    | some x =>
      refine ⟨_, rfl, ?_, ?_⟩
      · simp [enc, OptObj.construct, List.map_set]
      · have := contained_set Option.isSome hg (some (some (ty.moved x)))
        simp only [OptObj.construct]
        rw [contained_append]
        simp [contained] at h2 this ⊢
        omega
  | copyAssign dst src fail =>
    simp only [optSpec, Option.map_eq_some_iff, Option.bind_eq_some_iff] at hs
    obtain ⟨d, hd, r, hr, rfl⟩ := hs
    simp only [optStep, live_map enc hd, live_map enc hr, Res.bind_ok]
    have hg := valueOf_some.1 hd
    have hc := contained_set Option.isSome hg (some (optAssigned ty fail d r))
    cases d with
    | none =>
      cases r with
      | none =>
        refine ⟨_, rfl, ?_, ?_⟩
        · simp only [optAssigned, set_same hg]
        · simp only [optAssigned, set_same hg]
          exact h2
      | some x =>
        cases fail
        · refine ⟨_, rfl, ?_, ?_⟩
          · simp [enc, OptObj.construct, List.map_set, optAssigned]
          · simp [OptObj.construct, optAssigned, contained] at h2 hc ⊢
            omega
        · refine ⟨_, rfl, ?_, ?_⟩
          · simp only [optAssigned, if_true, set_same hg]
          · simp only [optAssigned, if_true, set_same hg]
            exact h2
    | some old =>
      cases r with
      | none =>
        refine ⟨_, rfl, ?_, ?_⟩
        · simp [enc, List.map_set, optAssigned]
        · simp [optAssigned, contained] at h2 hc ⊢
          omega
      | some x =>
        refine ⟨_, rfl, ?_, ?_⟩
        · simp [enc, List.map_set, optAssigned]
        · simp [optAssigned, contained] at h2 hc ⊢
          omega
  | moveAssign dst src =>
    simp only [optSpec, Option.map_eq_some_iff, Option.bind_eq_some_iff] at hs
    obtain ⟨d, hd, r, hr, rfl⟩ := hs
    simp only [optStep, live_map enc hd, live_map enc hr, Res.bind_ok]
    have hg := valueOf_some.1 hd
    have hgr := valueOf_some.1 hr
    by_cases hds : dst = src
    · subst hds
      have hdr : d = r := by
        rw [hd] at hr
        exact Option.some.inj hr
      subst hdr
      simp only [if_true]
      have hc := contained_set Option.isSome hg (some (d.map ty.selfMoved))
      cases d with
      | none =>
        refine ⟨_, rfl, ?_, ?_⟩
        · simp only [Option.map_none, set_same hg]
        · simp only [Option.map_none, set_same hg]
          exact h2
      | some x =>
        refine ⟨_, rfl, ?_, ?_⟩
        · simp [enc, List.map_set]
        · simp [contained] at h2 hc ⊢
          omega
    · simp only [if_neg hds]
      have hc1 := contained_set Option.isSome hgr (some (r.map ty.moved))
      have hg2 : (e.set src (some (r.map ty.moved)))[dst]? = some (some d) := by
        rw [List.getElem?_set_ne (Ne.symm hds)]
        exact hg
      have hc2 := contained_set Option.isSome hg2 (some r)
      cases d with
      | none =>
        cases r with
        | none =>
          refine ⟨_, rfl, ?_, ?_⟩
          · simp only [Option.map_none, set_same hgr, set_same hg]
          · simp only [Option.map_none, set_same hgr, set_same hg]
            exact h2
        | some x =>
          refine ⟨_, rfl, ?_, ?_⟩
          · simp [enc, OptObj.construct, List.map_set]
          · simp [OptObj.construct, contained] at h2 hc1 hc2 ⊢
            omega
      | some old =>
        cases r with
        | none =>
          refine ⟨_, rfl, ?_, ?_⟩
          · simp only [Option.map_none, set_same hgr]
            simp [enc, List.map_set]
          · simp [contained] at h2 hc1 hc2 ⊢
            omega
        | some x =>
          refine ⟨_, rfl, ?_, ?_⟩
          · simp [enc, List.map_set]
          · simp [contained] at h2 hc1 hc2 ⊢
            omega
  | write v x fail =>
    simp only [optSpec, Option.bind_eq_some_iff, Option.map_eq_some_iff] at hs
    obtain ⟨o, ho, old, rfl, rfl⟩ := hs
    simp only [optStep, live_map enc ho, Res.bind_ok]
    have hc := contained_set Option.isSome (valueOf_some.1 ho) (some (some (if fail then ty.torn old x else x)))
    refine ⟨_, rfl, ?_, ?_⟩
    · simp [enc, List.map_set]
    · simp [contained] at h2 hc ⊢
      omega
  | destroy v =>
    simp only [optSpec, Option.map_eq_some_iff] at hs
    obtain ⟨o, ho, rfl⟩ := hs
    simp only [optStep, live_map enc ho, Res.bind_ok]
    have hc := contained_set Option.isSome (valueOf_some.1 ho) none
    cases o with
    | none =>
      refine ⟨_, rfl, ?_, ?_⟩
      · simp [List.map_set]
      · simp [contained] at h2 hc ⊢
        omega
    | some x =>
      refine ⟨_, rfl, ?_, ?_⟩
      · simp [List.map_set]
      · simp [contained] at h2 hc ⊢
        omega

theorem optRun_spec (ty : Ty α) {s : OptState α} {e e' : List (Option (Option α))} (h : OptRel s e) {ops : List (OptOp α)}
    (hs : optSpecRun ty e ops = some e') : ∃ s', optRun ty s ops = .ok s' ∧ OptRel s' e' := by
  induction ops generalizing s e with
  | nil =>
    simp only [optSpecRun, Option.some.injEq] at hs
    subst hs
    exact ⟨s, rfl, h⟩
  | cons op ops ih =>
    simp only [optSpecRun, Option.bind_eq_some_iff] at hs
    obtain ⟨e1, h1, h2⟩ := hs
    obtain ⟨s1, g1, g2⟩ := optStep_spec ty h h1
    obtain ⟨s', k1, k2⟩ := ih g2 h2
    exact ⟨s', by simp only [optRun, g1, Res.bind_ok, k1], k2⟩

/-! ## Expected -/

/-- The object that represents an expected value. -/
def encE (x : α ⊕ ε) : ExpObj α ε := ⟨some x, x.isLeft⟩

/-- The state that represents the values `e`, with balanced counters. -/
def ExpRel (s : ExpState α ε) (e : List (Option (α ⊕ ε))) : Prop :=
  s.vars = e.map (Option.map encE) ∧ s.counts.ctors = s.counts.dtors + contained (fun _ => true) e

theorem expStep_spec (ta : Ty α) (te : Ty ε) {s : ExpState α ε} {e e' : List (Option (α ⊕ ε))} (h : ExpRel s e) {op : ExpOp α ε}
    (hm : ¬ MixedThrow e op) (hs : expSpec ta te e op = some e') : ∃ s', expStep ta te s op = .ok s' ∧ ExpRel s' e' := by
  obtain ⟨vars, c⟩ := s
  obtain ⟨h1, h2⟩ := h
  simp only at h1 h2
  subst h1
  cases op with
  | ofValue x =>
    simp only [expSpec, Option.some.injEq] at hs
    subst hs
    refine ⟨_, rfl, by simp [encE], ?_⟩
    rw [contained_append]
    simp [contained] at h2 ⊢
    omega
  | ofError x =>
    simp only [expSpec, Option.some.injEq] at hs
    subst hs
    refine ⟨_, rfl, by simp [encE], ?_⟩
    rw [contained_append]
    simp [contained] at h2 ⊢
    omega
  | copyNew src fail =>
    simp only [expSpec, Option.map_eq_some_iff] at hs
    obtain ⟨r, hr, rfl⟩ := hs
    simp only [expStep, live_map encE hr, Res.bind_ok]
    cases fail
    · cases r <;> refine ⟨_, rfl, by simp [encE], ?_⟩
      · simp only [Bool.false_eq_true, if_false]
        rw [contained_append]
        simp [contained] at h2 ⊢
        omega
      · simp only [Bool.false_eq_true, if_false]
        rw [contained_append]
        simp [contained] at h2 ⊢
        omega
    · cases r <;> exact ⟨_, rfl, rfl, h2⟩
  | moveNew src =>
    simp only [expSpec, Option.map_eq_some_iff] at hs
    obtain ⟨r, hr, rfl⟩ := hs
    simp only [expStep, live_map encE hr, Res.bind_ok]
    have hg := valueOf_some.1 hr
    have hc := contained_set (fun _ => true) hg (some (expMoved ta te r))
    cases r <;> refine ⟨_, rfl, by simp [encE, expMoved, List.map_set], ?_⟩
    · simp only [contained_append]
      simp [contained, expMoved] at h2 hc ⊢
      omega
    · simp only [contained_append]
      simp [contained, expMoved] at h2 hc ⊢
      omega
  | copyAssign dst src fail =>
    simp only [expSpec, Option.map_eq_some_iff, Option.bind_eq_some_iff] at hs
    obtain ⟨d, hd, r, hr, rfl⟩ := hs
    simp only [expStep, live_map encE hd, live_map encE hr, Res.bind_ok]
    have hg := valueOf_some.1 hd
    have hc := contained_set (fun _ => true) hg (some (expAssigned ta te fail d r))
    cases d <;> cases r
    · refine ⟨_, rfl, by simp [encE, expAssigned, List.map_set], ?_⟩
      simp [contained, expAssigned] at h2 hc ⊢
      omega
    · cases fail
      · refine ⟨_, rfl, by simp [encE, expAssigned, List.map_set], ?_⟩
        simp [contained, expAssigned] at h2 hc ⊢
        omega
      · exact absurd ⟨rfl, _, _, hd, hr, by simp⟩ hm
    · cases fail
      · refine ⟨_, rfl, by simp [encE, expAssigned, List.map_set], ?_⟩
        simp [contained, expAssigned] at h2 hc ⊢
        omega
      · exact absurd ⟨rfl, _, _, hd, hr, by simp⟩ hm
    · refine ⟨_, rfl, by simp [encE, expAssigned, List.map_set], ?_⟩
      simp [contained, expAssigned] at h2 hc ⊢
      omega
  | moveAssign dst src =>
    simp only [expSpec, Option.map_eq_some_iff, Option.bind_eq_some_iff] at hs
    obtain ⟨d, hd, r, hr, rfl⟩ := hs
    simp only [expStep, live_map encE hd, live_map encE hr, Res.bind_ok]
    have hg := valueOf_some.1 hd
    have hgr := valueOf_some.1 hr
    by_cases hds : dst = src
    · subst hds
      have hdr : d = r := by
        rw [hd] at hr
        exact Option.some.inj hr
      subst hdr
      simp only [if_true]
      have hc := contained_set (fun _ => true) hg (some (expSelfMoved ta te d))
      cases d <;> refine ⟨_, rfl, by simp [encE, expSelfMoved, List.map_set], ?_⟩
      · simp [contained, expSelfMoved] at h2 hc ⊢
        omega
      · simp [contained, expSelfMoved] at h2 hc ⊢
        omega
    · simp only [if_neg hds]
      have hc1 := contained_set (fun _ => true) hgr (some (expMoved ta te r))
      have hg2 : (e.set src (some (expMoved ta te r)))[dst]? = some (some d) := by
        rw [List.getElem?_set_ne (Ne.symm hds)]
        exact hg
      have hc2 := contained_set (fun _ => true) hg2 (some r)
      cases d <;> cases r <;> refine ⟨_, rfl, by simp [encE, expMoved, List.map_set], ?_⟩ <;>
      · simp [contained, expMoved] at h2 hc1 hc2 ⊢
        omega
  | destroy v =>
    simp only [expSpec, Option.map_eq_some_iff] at hs
    obtain ⟨o, ho, rfl⟩ := hs
    simp only [expStep, live_map encE ho, Res.bind_ok]
    have hc := contained_set (fun _ => true) (valueOf_some.1 ho) none
    cases o <;> refine ⟨_, rfl, by simp [List.map_set], ?_⟩ <;>
    · simp [contained] at h2 hc ⊢
      omega

theorem expRun_spec (ta : Ty α) (te : Ty ε) {s : ExpState α ε} {e e' : List (Option (α ⊕ ε))} (h : ExpRel s e)
    {ops : List (ExpOp α ε)} (hm : NoMixedThrow ta te e ops) (hs : expSpecRun ta te e ops = some e') :
    ∃ s', expRun ta te s ops = .ok s' ∧ ExpRel s' e' := by
  induction ops generalizing s e with
  | nil =>
    simp only [expSpecRun, Option.some.injEq] at hs
    subst hs
    exact ⟨s, rfl, h⟩
  | cons op ops ih =>
    simp only [expSpecRun, Option.bind_eq_some_iff] at hs
    obtain ⟨e1, h1, h2⟩ := hs
    obtain ⟨s1, g1, g2⟩ := expStep_spec ta te h hm.1 h1
    obtain ⟨s', k1, k2⟩ := ih g2 (hm.2 e1 h1) h2
    exact ⟨s', by simp only [expRun, g1, Res.bind_ok, k1], k2⟩

end

/-! ## UniquePtr -/

/-- Live objects are owned by exactly one live variable; the others were deleted, once each. -/
structure PtrInv (s : PtrState) (e : Owners) : Prop where
  vars : s.vars = e.vars
  made : s.objs.length = e.made
  owned : ∀ (v : Nat) i, s.vars[v]? = some (some (some i)) → s.objs[i]? = some true
  dist : ∀ (v w i : Nat), s.vars[v]? = some (some (some i)) → s.vars[w]? = some (some (some i)) → v = w
  live : ∀ i : Nat, s.objs[i]? = some true → ∃ v : Nat, s.vars[v]? = some (some (some i))
  dead : ∀ i : Nat, i ∈ s.deleted ↔ s.objs[i]? = some false
  once : s.deleted.Nodup

theorem live_vars {vars : List (Option (Option Nat))} {v : Nat} {p : Option Nat} (h : valueOf vars v = some p) :
    Life.live vars v = .ok p := by
  simp [Life.live, valueOf_some.1 h]

/-- Exchanging what the variables own along a permutation of the variables keeps the invariant. -/
theorem PtrInv.permute {s : PtrState} {e : Owners} (h : PtrInv s e) {vars : List (Option (Option Nat))} (f g : Nat → Nat)
    (hf : ∀ v i : Nat, vars[v]? = some (some (some i)) → s.vars[f v]? = some (some (some i)))
    (hg : ∀ v i : Nat, s.vars[v]? = some (some (some i)) → vars[g v]? = some (some (some i)))
    (hgf : ∀ v i : Nat, vars[v]? = some (some (some i)) → g (f v) = v) :
    PtrInv { s with vars := vars } { e with vars := vars } := by
  refine ⟨rfl, h.made, fun v i hv => h.owned _ i (hf v i hv), ?_, ?_, h.dead, h.once⟩
  · intro v w i hv hw
    have := h.dist _ _ i (hf v i hv) (hf w i hw)
    rw [← hgf v i hv, this, hgf w i hw]
  · intro i hi
    obtain ⟨v, hv⟩ := h.live i hi
    exact ⟨g v, hg v i hv⟩

theorem PtrInv.moveNew {s : PtrState} {e : Owners} (h : PtrInv s e) {src : Nat} {p : Option Nat}
    (hsrc : s.vars[src]? = some (some p)) :
    PtrInv { s with vars := s.vars.set src (some none) ++ [some p] } { e with vars := s.vars.set src (some none) ++ [some p] } := by
  have hlt := (List.getElem?_eq_some_iff.1 hsrc).1
  have hget : ∀ v : Nat, (s.vars.set src (some none) ++ [some p])[v]? =
      if v = s.vars.length then some (some p) else if v = src then some (some none) else s.vars[v]? := by
    intro v
    by_cases h1 : v < s.vars.length
    · rw [List.getElem?_append_left (by simpa using h1), get_setv hsrc]
      have : v ≠ s.vars.length := by omega
      simp only [if_neg this]
    · rw [List.getElem?_append_right (by simpa using h1)]
      by_cases h2 : v = s.vars.length
      · simp [h2]
      · rw [if_neg h2, if_neg (by omega), List.getElem?_eq_none (l := s.vars) (by omega)]
        simp
        omega
  apply h.permute (fun v => if v = s.vars.length then src else v) (fun v => if v = src then s.vars.length else v)
  · intro v i hv
    rw [hget] at hv
    split at hv
    · rename_i h1
      rw [if_pos h1, hsrc]
      exact hv
    · rename_i h1
      rw [if_neg h1]
      split at hv
      · simp at hv
      · exact hv
  · intro v i hv
    rw [hget]
    by_cases h1 : v = src
    · rw [if_pos h1, if_pos rfl]
      rw [h1, hsrc] at hv
      exact hv
    · have := (List.getElem?_eq_some_iff.1 hv).1
      rw [if_neg h1, if_neg (by omega), if_neg h1]
      exact hv
  · intro v i hv
    rw [hget] at hv
    by_cases h1 : v = s.vars.length
    · simp [h1]
    · rw [if_neg h1] at hv ⊢
      rw [if_neg]
      rintro rfl
      simp at hv

theorem ptrStep_spec {s : PtrState} {e e' : Owners} (h : PtrInv s e) {op : PtrOp} (hs : ptrSpec e op = some e') :
    ∃ s', ptrStep s op = .ok s' ∧ PtrInv s' e' := by
  have hv' := h.vars
  cases op with
  | create =>
    simp only [ptrSpec, Option.some.injEq] at hs
    subst hs
    refine ⟨_, rfl, ?_⟩
    rw [← hv']
    have hget : ∀ (v i : Nat), (s.vars ++ [some none])[v]? = some (some (some i)) ↔ s.vars[v]? = some (some (some i)) := by
      intro v i
      by_cases hl : v < s.vars.length
      · rw [List.getElem?_append_left hl]
      · rw [List.getElem?_append_right (by omega), List.getElem?_eq_none (l := s.vars) (by omega)]
        cases v - s.vars.length <;> simp
    exact h.permute (fun v => v) (fun v => v) (fun v i hv => (hget v i).1 hv) (fun v i hv => (hget v i).2 hv) (fun _ _ _ => rfl)
  | makeUnique =>
    simp only [ptrSpec, Option.some.injEq] at hs
    subst hs
    have hvget : ∀ (v i : Nat), (s.vars ++ [some (some s.objs.length)])[v]? = some (some (some i)) ↔
        (s.vars[v]? = some (some (some i)) ∨ (v = s.vars.length ∧ i = s.objs.length)) := by
      intro v i
      by_cases hl : v < s.vars.length
      · rw [List.getElem?_append_left hl]
        constructor
        · exact .inl
        · rintro (h1 | ⟨h1, _⟩)
          · exact h1
          · omega
      · rw [List.getElem?_append_right (by omega), List.getElem?_eq_none (l := s.vars) (by omega)]
        by_cases h2 : v = s.vars.length
        · simp [h2, eq_comm]
        · have h3 : v - s.vars.length ≠ 0 := by omega
          obtain ⟨k, hk⟩ := Nat.exists_eq_succ_of_ne_zero h3
          simp [hk, h2]
    have hoget : ∀ (i : Nat) (b : Bool), (s.objs ++ [true])[i]? = some b ↔ (s.objs[i]? = some b ∨ (i = s.objs.length ∧ b = true)) := by
      intro i b
      by_cases hl : i < s.objs.length
      · rw [List.getElem?_append_left hl]
        constructor
        · exact .inl
        · rintro (h1 | ⟨h1, _⟩)
          · exact h1
          · omega
      · rw [List.getElem?_append_right (by omega), List.getElem?_eq_none (l := s.objs) (by omega)]
        by_cases h2 : i = s.objs.length
        · simp [h2, eq_comm]
        · have h3 : i - s.objs.length ≠ 0 := by omega
          obtain ⟨k, hk⟩ := Nat.exists_eq_succ_of_ne_zero h3
          simp [hk, h2]
    have hfresh : ∀ v : Nat, s.vars[v]? ≠ some (some (some s.objs.length)) := by
      intro v hv
      have := h.owned v _ hv
      rw [List.getElem?_eq_none (Nat.le_refl _)] at this
      simp at this
    refine ⟨_, rfl, by simp only; rw [hv', h.made], by simp [h.made], ?_, ?_, ?_, ?_, h.once⟩
    · intro v i hv
      simp only at hv ⊢
      rw [hoget]
      rcases (hvget v i).1 hv with h1 | ⟨_, h1⟩
      · exact .inl (h.owned v i h1)
      · exact .inr ⟨h1, rfl⟩
    · intro v w i hv hw
      rcases (hvget v i).1 hv with h1 | ⟨h1, h2⟩
      · rcases (hvget w i).1 hw with h3 | ⟨h3, h4⟩
        · exact h.dist v w i h1 h3
        · subst h4
          exact absurd h1 (hfresh v)
      · rcases (hvget w i).1 hw with h3 | ⟨h3, h4⟩
        · subst h2
          exact absurd h3 (hfresh w)
        · omega
    · intro i hi
      rcases (hoget i true).1 hi with h1 | ⟨h1, _⟩
      · obtain ⟨v, hv⟩ := h.live i h1
        exact ⟨v, (hvget v i).2 (.inl hv)⟩
      · exact ⟨s.vars.length, (hvget _ i).2 (.inr ⟨rfl, h1⟩)⟩
    · intro i
      simp only
      rw [hoget, h.dead]
      simp
  | moveNew src =>
    simp only [ptrSpec, Option.map_eq_some_iff] at hs
    obtain ⟨p, hp, rfl⟩ := hs
    rw [← hv'] at hp ⊢
    exact ⟨_, by simp only [ptrStep, live_vars hp, Res.bind_ok], h.moveNew (valueOf_some.1 hp)⟩
  | convert src =>
    simp only [ptrSpec, Option.map_eq_some_iff] at hs
    obtain ⟨p, hp, rfl⟩ := hs
    rw [← hv'] at hp ⊢
    exact ⟨_, by simp only [ptrStep, live_vars hp, Res.bind_ok], h.moveNew (valueOf_some.1 hp)⟩
  | moveAssign dst src =>
    simp only [ptrSpec, Option.map_eq_some_iff, Option.bind_eq_some_iff] at hs
    obtain ⟨q, hq, p, hp, rfl⟩ := hs
    rw [← hv'] at hp hq ⊢
    refine ⟨{ s with vars := (s.vars.set src (some q)).set dst (some p) }, by simp only [ptrStep, live_vars hp, live_vars hq, Res.bind_ok], ?_⟩
    have gp := valueOf_some.1 hp
    have gq := valueOf_some.1 hq
    have hget : ∀ v : Nat, ((s.vars.set src (some q)).set dst (some p))[v]? =
        s.vars[if v = dst then src else if v = src then dst else v]? := by
      intro v
      have h1 : (s.vars.set src (some q))[dst]? = some (some q) := by
        rw [get_setv gp]
        split
        · rfl
        · exact gq
      rw [get_setv h1, get_setv gp]
      split
      · exact gp.symm
      · split
        · exact gq.symm
        · rfl
    have hinv : ∀ v : Nat, (if (if v = dst then src else if v = src then dst else v) = dst then src
        else if (if v = dst then src else if v = src then dst else v) = src then dst
        else (if v = dst then src else if v = src then dst else v)) = v := by
      intro v
      by_cases h1 : v = dst
      · subst h1
        simp
      · by_cases h2 : v = src
        · subst h2
          rw [if_neg h1, if_pos rfl, if_pos rfl]
        · rw [if_neg h1, if_neg h2, if_neg h1, if_neg h2]
    apply h.permute (fun v => if v = dst then src else if v = src then dst else v)
      (fun v => if v = dst then src else if v = src then dst else v)
    · intro v i hv
      rw [hget] at hv
      exact hv
    · intro v i hv
      rw [hget, hinv]
      exact hv
    · intro v i _
      exact hinv v
  | destroy v =>
    simp only [ptrSpec, Option.map_eq_some_iff] at hs
    obtain ⟨p, hp, rfl⟩ := hs
    rw [← hv'] at hp ⊢
    have gp := valueOf_some.1 hp
    cases p with
    | none =>
      refine ⟨_, by simp only [ptrStep, live_vars hp, Res.bind_ok]; rfl, ?_⟩
      have hget : ∀ (w i : Nat), (s.vars.set v none)[w]? = some (some (some i)) ↔ s.vars[w]? = some (some (some i)) := by
        intro w i
        rw [get_setv gp]
        split
        · rename_i hw
          rw [hw, gp]
          simp
        · rfl
      exact h.permute (fun v => v) (fun v => v) (fun v i hv => (hget v i).1 hv) (fun v i hv => (hget v i).2 hv) (fun _ _ _ => rfl)
    | some i =>
      have hi := h.owned v i gp
      refine ⟨⟨s.objs.set i false, s.deleted ++ [i], s.vars.set v none⟩, ?_, rfl, by simp [h.made], ?_, ?_, ?_, ?_, ?_⟩
      · simp only [ptrStep, live_vars hp, Res.bind_ok, deleteObj, hi]
      · intro w j hw
        simp only at hw ⊢
        rw [get_setv gp] at hw
        split at hw
        · simp at hw
        · rename_i hne
          rw [get_setv hi, if_neg]
          · exact h.owned w j hw
          · rintro rfl
            exact hne (h.dist w v j hw gp)
      · intro w x j hw hx
        simp only at hw hx
        rw [get_setv gp] at hw hx
        split at hw
        · simp at hw
        · split at hx
          · simp at hx
          · exact h.dist w x j hw hx
      · intro j hj
        simp only at hj ⊢
        rw [get_setv hi] at hj
        split at hj
        · simp at hj
        · rename_i hne
          obtain ⟨w, hw⟩ := h.live j hj
          refine ⟨w, ?_⟩
          rw [get_setv gp, if_neg]
          · exact hw
          · rintro rfl
            rw [gp] at hw
            simp at hw
            exact hne hw.symm
      · intro j
        simp only
        rw [get_setv hi]
        simp only [List.mem_append, List.mem_singleton]
        by_cases hj : j = i
        · simp [hj]
        · rw [if_neg hj, h.dead]
          simp [hj]
      · simp only
        rw [List.nodup_append]
        refine ⟨h.once, by simp, ?_⟩
        intro a ha b hb hab
        simp at hb
        subst hb
        subst hab
        rw [h.dead, hi] at ha
        simp at ha

theorem ptrRun_spec {s : PtrState} {e e' : Owners} (h : PtrInv s e) {ops : List PtrOp} (hs : ptrSpecRun e ops = some e') :
    ∃ s', ptrRun s ops = .ok s' ∧ PtrInv s' e' := by
  induction ops generalizing s e with
  | nil =>
    simp only [ptrSpecRun, Option.some.injEq] at hs
    subst hs
    exact ⟨s, rfl, h⟩
  | cons op ops ih =>
    simp only [ptrSpecRun, Option.bind_eq_some_iff] at hs
    obtain ⟨e1, h1, h2⟩ := hs
    obtain ⟨s1, g1, g2⟩ := ptrStep_spec h h1
    obtain ⟨s', k1, k2⟩ := ih g2 h2
    exact ⟨s', by simp only [ptrRun, g1, Res.bind_ok, k1], k2⟩

theorem PtrInv.init : PtrInv ⟨[], [], []⟩ ⟨0, []⟩ :=
  ⟨rfl, rfl, by simp, by simp, by simp, by simp, by simp⟩

end Life
end Coil
