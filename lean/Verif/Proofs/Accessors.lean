import Verif.Proofs.Lifetime
import Verif.Spec.Accessors

/-!
# Reading optionals, expecteds and owners: the model agrees with the plain verdict
-/

namespace Coil
namespace Life
open Spec

/-- The outcome of the model is the one of the verdict: the same is shown, or the program ends with an assertion (in a build
with assertions, unless it is silent) or with `bad`. -/
def Agrees {S σ ω : Type} (chk : Bool) (bad : UB) (R : S → σ → Prop) (x : Res (S × List ω)) : Verdict (σ × List ω) → Prop
  | .proper r => ∃ s, x = .ok (s, r.2) ∧ R s r.1
  | .wrong silent => x = .ub (if chk && !silent then .assertion else bad)
  | .dead => True
  | .torn => True

theorem useAll_agrees {S σ υ ω : Type} {chk : Bool} {bad : UB} {R : S → σ → Prop} {step : S → υ → Res (S × List ω)}
    {spec : σ → υ → Verdict (σ × List ω)} (h : ∀ s e u, R s e → Agrees chk bad R (step s u) (spec e u)) {s : S} {e : σ} (hr : R s e)
    (us : List υ) : Agrees chk bad R (useAll step s us) (runAll spec e us) := by
  induction us generalizing s e with
  | nil => exact ⟨s, rfl, hr⟩
  | cons u us ih =>
    have h1 := h s e u hr
    simp only [runAll, useAll]
    cases hv : spec e u with
    | proper r =>
      rw [hv] at h1
      obtain ⟨s1, g1, g2⟩ := h1
      have h2 := ih g2
      simp only [Verdict.andThen, g1, Res.bind_ok]
      cases hw : runAll spec r.1 us with
      | proper r' =>
        rw [hw] at h2
        obtain ⟨s2, k1, k2⟩ := h2
        exact ⟨s2, by rw [k1]; rfl, k2⟩
      | wrong b =>
        rw [hw] at h2
        simp only [Agrees] at h2 ⊢
        rw [h2]; rfl
      | dead => trivial
      | torn => trivial
    | wrong b =>
      rw [hv] at h1
      simp only [Agrees] at h1
      simp only [Verdict.andThen, Agrees]
      rw [h1]; rfl
    | dead => trivial
    | torn => trivial

/-- If no statement is silent, no program is. -/
theorem runAll_not_silent {σ υ ω : Type} {spec : σ → υ → Verdict (σ × List ω)} (h : ∀ e u, spec e u ≠ .wrong true) {e : σ} {us : List υ}
    {silent : Bool} (hs : runAll spec e us = .wrong silent) : silent = false := by
  induction us generalizing e with
  | nil => cases hs
  | cons u us ih =>
    simp only [runAll] at hs
    cases hv : spec e u with
    | proper r =>
      rw [hv] at hs
      simp only [Verdict.andThen] at hs
      cases hw : runAll spec r.1 us with
      | proper r' => rw [hw] at hs; cases hs
      | wrong b =>
        rw [hw] at hs
        cases hs
        exact ih hw
      | dead => rw [hw] at hs; cases hs
      | torn => rw [hw] at hs; cases hs
    | wrong b =>
      rw [hv] at hs
      cases hs
      cases hb : silent
      · rfl
      · subst hb; exact absurd hv (h e u)
    | dead => rw [hv] at hs; cases hs
    | torn => rw [hv] at hs; cases hs

theorem using_not_silent {β σ : Type} {e : List (Option β)} {v : Nat} {k : β → Verdict σ} (h : ∀ b, k b ≠ .wrong true) :
    using' e v k ≠ .wrong true := by
  unfold using'
  cases valueOf e v with
  | none => simp
  | some b => exact h b

/-- Using a variable that may not be alive. -/
theorem agrees_using {S σ β ω : Type} {chk : Bool} {bad : UB} {R : S → σ → Prop} {x : Res (S × List ω)} {e : List (Option β)} {v : Nat}
    {k : β → Verdict (σ × List ω)} (h : ∀ b, valueOf e v = some b → Agrees chk bad R x (k b)) : Agrees chk bad R x (using' e v k) := by
  unfold using'
  cases hv : valueOf e v with
  | none => trivial
  | some b => exact h b hv

theorem guardThat_true {chk : Bool} {c : Prop} [Decidable c] (h : c) : guardThat chk c = .ok () := by
  cases chk <;> simp [guardThat, assertThat, h]

/-! ## Optional -/

section
variable {α β : Type} (chk : Bool) (ty : Ty α) (eq : α → α → Bool) (eqTo : α → β → Bool)

theorem deref_some (x : α) : OptObj.deref chk (enc (some x)) = .ok x := by
  cases chk <;> rfl

theorem deref_none : OptObj.deref chk (enc (none : Option α)) = .ub (if chk && !false then .assertion else .deadObject) := by
  cases chk <;> rfl

theorem optObj_equal (a b : Option α) : (enc a).equal eq (enc b) = .ok (optSame eq a b) := by
  cases a <;> cases b <;> rfl

theorem optObj_equalTo (a : Option α) (y : β) : (enc a).equalTo eqTo y = .ok (a.any (fun x => eqTo x y)) := by
  cases a <;> rfl

theorem optUse_agrees {s : OptState α} {e : List (Option (Option α))} (u : OptUse α β) (h : OptRel s e) :
    Agrees chk .deadObject OptRel (optUse chk ty eq eqTo s u) (optUseSpec ty eq eqTo e u) := by
  have hl : ∀ {v o}, valueOf e v = some o → live s.vars v = .ok (enc o) := by
    intro v o hv
    rw [h.1]; exact live_map enc hv
  have hop : ∀ o : OptOp α, Agrees chk .deadObject OptRel (do let s' ← optStep ty s o; .ok (s', ([] : List (Seen α Unit Unit))))
      (match optSpec ty e o with | some e' => .proper (e', []) | none => .dead) := by
    intro o
    cases hs : optSpec ty e o with
    | none => trivial
    | some e' =>
      obtain ⟨s', g1, g2⟩ := optStep_spec ty h hs
      exact ⟨s', by rw [g1]; rfl, g2⟩
  cases u with
  | op o =>
    cases o with
    | write v x fail =>
      refine agrees_using (fun b hv => ?_)
      simp only [optUse, hl hv, Res.bind_ok]
      cases b with
      | none => rw [deref_none]; rfl
      | some old =>
        have hs : optSpec ty e (.write v x fail) = some (e.set v (some (some (if fail then ty.torn old x else x)))) := by
          simp [optSpec, hv]
        obtain ⟨s', g1, g2⟩ := optStep_spec ty h hs
        rw [deref_some]
        exact ⟨s', by simp only [Res.bind_ok, g1], g2⟩
    | create => exact hop _
    | ofValue x fail => exact hop _
    | copyNew src fail => exact hop _
    | moveNew src => exact hop _
    | copyAssign dst src fail => exact hop _
    | moveAssign dst src => exact hop _
    | destroy v => exact hop _
  | hasValue v =>
    refine agrees_using (fun b hv => ?_)
    simp only [optUse, hl hv, Res.bind_ok]
    exact ⟨s, rfl, h⟩
  | read v =>
    refine agrees_using (fun b hv => ?_)
    simp only [optUse, hl hv, Res.bind_ok]
    cases b with
    | none => rw [deref_none]; rfl
    | some x => rw [deref_some]; exact ⟨s, rfl, h⟩
  | arrow v =>
    refine agrees_using (fun b hv => ?_)
    simp only [optUse, hl hv, Res.bind_ok]
    cases b with
    | none => simp only [Agrees, Bool.not_true, Bool.and_false]; rfl
    | some x => exact ⟨s, rfl, h⟩
  | take v =>
    refine agrees_using (fun b hv => ?_)
    simp only [optUse, hl hv, Res.bind_ok]
    cases b with
    | none => rw [deref_none]; rfl
    | some x =>
      rw [deref_some]
      refine ⟨_, rfl, ?_⟩
      have hg := valueOf_some.1 hv
      have hc := contained_set Option.isSome hg (some (some (ty.moved x)))
      refine ⟨?_, ?_⟩
      · simp [h.1, List.map_set, enc]
      · have := h.2
        simp [contained] at this hc ⊢
        omega
  | equal v w =>
    refine agrees_using (fun a hv => agrees_using (fun b hw => ?_))
    simp only [optUse, hl hv, hl hw, Res.bind_ok, optObj_equal]
    exact ⟨s, rfl, h⟩
  | notEqual v w =>
    refine agrees_using (fun a hv => agrees_using (fun b hw => ?_))
    simp only [optUse, hl hv, hl hw, Res.bind_ok, optObj_equal]
    exact ⟨s, rfl, h⟩
  | equalTo v y =>
    refine agrees_using (fun a hv => ?_)
    simp only [optUse, hl hv, Res.bind_ok, optObj_equalTo]
    exact ⟨s, rfl, h⟩
  | notEqualTo v y =>
    refine agrees_using (fun a hv => ?_)
    simp only [optUse, hl hv, Res.bind_ok, optObj_equalTo]
    exact ⟨s, rfl, h⟩

end

/-! ## Expected -/

section
variable {α ε υ β δ : Type} (chk : Bool) (ta : Ty α) (te : Ty ε) (tu : Ty υ) (conv : υ → ε) (cmp : Compare α ε β δ)

theorem valueC_inl (x : α) : ExpObj.valueC chk (encE (.inl x : α ⊕ ε)) = .ok x := by
  cases chk <;> rfl

theorem valueC_inr (x : ε) : ExpObj.valueC chk (encE (.inr x : α ⊕ ε)) = .ub (if chk && !false then .assertion else .deadObject) := by
  cases chk <;> rfl

theorem errorC_inr (x : ε) : ExpObj.errorC chk (encE (.inr x : α ⊕ ε)) = .ok x := by
  cases chk <;> rfl

theorem errorC_inl (x : α) : ExpObj.errorC chk (encE (.inl x : α ⊕ ε)) = .ub (if chk && !false then .assertion else .deadObject) := by
  cases chk <;> rfl

theorem expObj_equal {α' ε' : Type} (val : α → α' → Bool) (err : ε → ε' → Bool) (a : α ⊕ ε) (b : α' ⊕ ε') :
    (encE a).equal chk val err (encE b) = .ok (expSame val err a b) := by
  cases chk <;> cases a <;> cases b <;> rfl

theorem fresh_encE {α' ε' : Type} (x : α' ⊕ ε') : ExpObj.fresh x = encE x := by
  cases x <;> rfl

/-- The state that represents the plain variables. -/
def VarsRel (s : ExpVars α ε υ) (e : Plain α ε υ) : Prop := ExpRel s.exp e.exp ∧ s.unex = e.unex

theorem ExpRel.set_same_alt {s : ExpState α ε} {e : List (Option (α ⊕ ε))} (h : ExpRel s e) {v : Nat} {o : α ⊕ ε}
    (hv : valueOf e v = some o) (o' : α ⊕ ε) : ExpRel { s with vars := s.vars.set v (some (encE o')) } (e.set v (some o')) := by
  have hc := contained_set (fun _ => true) (valueOf_some.1 hv) (some o')
  refine ⟨?_, ?_⟩
  · simp [h.1, List.map_set]
  · have := h.2
    simp [contained] at this hc ⊢
    omega

theorem not_mixed_of_tearing {e : List (Option (α ⊕ ε))} {o : ExpOp α ε} (h : tearing e o = false) : ¬ MixedThrow e o := by
  cases o with
  | copyAssign dst src fail =>
    rintro ⟨rfl, d, r, hd, hr, hne⟩
    simp only [tearing, hd, hr, Bool.true_and] at h
    simp at h
    exact hne h
  | ofValue _ => exact id
  | ofError _ => exact id
  | copyNew _ _ => exact id
  | moveNew _ => exact id
  | moveAssign _ _ => exact id
  | destroy _ => exact id

theorem agrees_payload {S σ ω : Type} {chk : Bool} {bad : UB} {R : S → σ → Prop} {x : Res (S × List ω)} {l : List υ} {i : Nat}
    {k : υ → Verdict (σ × List ω)} (h : ∀ b, l[i]? = some b → Agrees chk bad R x (k b)) : Agrees chk bad R x (payloadOf l i k) := by
  unfold payloadOf
  cases hv : l[i]? with
  | none => trivial
  | some b => exact h b hv

theorem expUse_agrees {s : ExpVars α ε υ} {e : Plain α ε υ} (u : ExpUse α ε υ β δ) (h : VarsRel s e) :
    Agrees chk .deadObject VarsRel (expUse chk ta te tu conv cmp s u) (expUseSpec ta te tu conv cmp e u) := by
  have hl : ∀ {v o}, valueOf e.exp v = some o → live s.exp.vars v = .ok (encE o) := by
    intro v o hv
    rw [h.1.1]; exact live_map encE hv
  have hp : ∀ {i x}, e.unex[i]? = some x → readAt s.unex i = .ok x := by
    intro i x hx
    simp [readAt, h.2, hx]
  cases u with
  | op o =>
    simp only [expUseSpec]
    cases ht : tearing e.exp o with
    | true => trivial
    | false =>
      cases hs : expSpec ta te e.exp o with
      | none => trivial
      | some e' =>
        obtain ⟨s', g1, g2⟩ := expStep_spec ta te h.1 (not_mixed_of_tearing ht) hs
        exact ⟨{ s with exp := s' }, by simp only [expUse, g1, Res.bind_ok], g2, h.2⟩
  | hasValue v =>
    refine agrees_using (fun b hv => ?_)
    simp only [expUse, hl hv, Res.bind_ok]
    exact ⟨s, rfl, h⟩
  | value v =>
    refine agrees_using (fun b hv => ?_)
    simp only [expUse, hl hv, Res.bind_ok]
    cases b with
    | inl x => rw [valueC_inl]; exact ⟨s, rfl, h⟩
    | inr x => rw [valueC_inr]; rfl
  | arrow v =>
    refine agrees_using (fun b hv => ?_)
    simp only [expUse, hl hv, Res.bind_ok]
    cases b with
    | inl x => rw [valueC_inl]; exact ⟨s, rfl, h⟩
    | inr x => rw [valueC_inr]; rfl
  | error v =>
    refine agrees_using (fun b hv => ?_)
    simp only [expUse, hl hv, Res.bind_ok]
    cases b with
    | inl x => rw [errorC_inl]; rfl
    | inr x => rw [errorC_inr]; exact ⟨s, rfl, h⟩
  | takeValue v =>
    refine agrees_using (fun b hv => ?_)
    simp only [expUse, hl hv, Res.bind_ok]
    cases b with
    | inl x => rw [valueC_inl]; exact ⟨_, rfl, h.1.set_same_alt hv (.inl (ta.moved x)), h.2⟩
    | inr x => rw [valueC_inr]; rfl
  | takeError v =>
    refine agrees_using (fun b hv => ?_)
    simp only [expUse, hl hv, Res.bind_ok]
    cases b with
    | inl x => rw [errorC_inl]; rfl
    | inr x => rw [errorC_inr]; exact ⟨_, rfl, h.1.set_same_alt hv (.inr (te.moved x)), h.2⟩
  | setValue v y =>
    refine agrees_using (fun b hv => ?_)
    simp only [expUse, hl hv, Res.bind_ok]
    cases b with
    | inl x => rw [valueC_inl]; exact ⟨_, rfl, h.1.set_same_alt hv (.inl y), h.2⟩
    | inr x => rw [valueC_inr]; rfl
  | setError v y =>
    refine agrees_using (fun b hv => ?_)
    simp only [expUse, hl hv, Res.bind_ok]
    cases b with
    | inl x => rw [errorC_inl]; rfl
    | inr x => rw [errorC_inr]; exact ⟨_, rfl, h.1.set_same_alt hv (.inr y), h.2⟩
  | equal v w =>
    refine agrees_using (fun a hv => agrees_using (fun b hw => ?_))
    simp only [expUse, hl hv, hl hw, Res.bind_ok, expObj_equal]
    exact ⟨s, rfl, h⟩
  | equalOther v y =>
    refine agrees_using (fun a hv => ?_)
    simp only [expUse, hl hv, Res.bind_ok, fresh_encE, expObj_equal]
    exact ⟨s, rfl, h⟩
  | equalTo v y =>
    refine agrees_using (fun a hv => ?_)
    simp only [expUse, hl hv, Res.bind_ok]
    cases a with
    | inl x =>
      refine ⟨s, ?_, h⟩
      cases chk <;> rfl
    | inr x => exact ⟨s, rfl, h⟩
  | equalError v y =>
    refine agrees_using (fun a hv => ?_)
    simp only [expUse, hl hv, Res.bind_ok]
    cases a with
    | inl x => exact ⟨s, rfl, h⟩
    | inr x =>
      refine ⟨s, ?_, h⟩
      cases chk <;> rfl
  | makeUnexpected x => exact ⟨_, rfl, h.1, by simp [h.2]⟩
  | payload i =>
    refine agrees_payload (fun x hx => ?_)
    simp only [expUse, hp hx, Res.bind_ok]
    exact ⟨s, rfl, h⟩
  | convert i f move =>
    refine agrees_payload (fun x hx => ?_)
    simp only [expUse, hp hx, Res.bind_ok]
    exact ⟨_, rfl, h.1, by simp [h.2]⟩
  | ofUnexpected i move =>
    refine agrees_payload (fun x hx => ?_)
    simp only [expUse, hp hx, Res.bind_ok]
    obtain ⟨s', g1, g2⟩ := expStep_spec ta te h.1 (op := .ofError (conv x)) id rfl
    rw [g1]
    exact ⟨_, rfl, g2, by simp [h.2]⟩

theorem expRun_not_silent {e : Plain α ε υ} {us : List (ExpUse α ε υ β δ)} {silent : Bool}
    (hs : runAll (expUseSpec ta te tu conv cmp) e us = .wrong silent) : silent = false := by
  refine runAll_not_silent (fun e u => ?_) hs
  cases u with
  | op o =>
    simp only [expUseSpec]
    split
    · simp
    · split <;> simp
  | hasValue v => exact using_not_silent (by simp)
  | value v => exact using_not_silent (fun b => by cases b <;> simp)
  | arrow v => exact using_not_silent (fun b => by cases b <;> simp)
  | error v => exact using_not_silent (fun b => by cases b <;> simp)
  | takeValue v => exact using_not_silent (fun b => by cases b <;> simp)
  | takeError v => exact using_not_silent (fun b => by cases b <;> simp)
  | setValue v x => exact using_not_silent (fun b => by cases b <;> simp)
  | setError v x => exact using_not_silent (fun b => by cases b <;> simp)
  | equal v w => exact using_not_silent (fun b => using_not_silent (by simp))
  | equalOther v y => exact using_not_silent (by simp)
  | equalTo v y => exact using_not_silent (by simp)
  | equalError v y => exact using_not_silent (by simp)
  | makeUnexpected x => simp [expUseSpec]
  | payload i => simp only [expUseSpec, payloadOf]; split <;> simp
  | convert i f m => simp only [expUseSpec, payloadOf]; split <;> simp
  | ofUnexpected i m => simp only [expUseSpec, payloadOf]; split <;> simp

end

/-! ## UniquePtr -/

theorem ptrRun_not_silent {e : Owners} {us : List PtrUse} {silent : Bool} (hs : runAll ptrUseSpec e us = .wrong silent) :
    silent = false := by
  refine runAll_not_silent (fun e u => ?_) hs
  cases u with
  | op o => simp only [ptrUseSpec]; split <;> simp
  | get v => exact using_not_silent (by simp)
  | owns v => exact using_not_silent (by simp)
  | deref v => exact using_not_silent (fun b => by cases b <;> simp)
  | arrow v => exact using_not_silent (fun b => by cases b <;> simp)

theorem ptrUse_agrees (chk : Bool) {s : PtrState} {e : Owners} (u : PtrUse) (h : PtrInv s e) :
    Agrees chk .nullDeref PtrInv (ptrUse chk s u) (ptrUseSpec e u) := by
  have hl : ∀ {v p}, valueOf e.vars v = some p → live s.vars v = .ok p := by
    intro v p hv
    rw [h.vars]; exact live_vars hv
  have hu : ∀ {v i}, valueOf e.vars v = some (some i) → useObj s (some i) = .ok i := by
    intro v i hv
    have := h.owned v i (by rw [h.vars]; exact valueOf_some.1 hv)
    simp [useObj, this]
  cases u with
  | op o =>
    simp only [ptrUseSpec]
    cases hs : ptrSpec e o with
    | none => trivial
    | some e' =>
      obtain ⟨s', g1, g2⟩ := ptrStep_spec h hs
      exact ⟨s', by simp only [ptrUse, g1, Res.bind_ok], g2⟩
  | get v =>
    refine agrees_using (fun b hv => ?_)
    simp only [ptrUse, hl hv, Res.bind_ok]
    exact ⟨s, rfl, h⟩
  | owns v =>
    refine agrees_using (fun b hv => ?_)
    simp only [ptrUse, hl hv, Res.bind_ok]
    exact ⟨s, rfl, h⟩
  | deref v =>
    refine agrees_using (fun b hv => ?_)
    simp only [ptrUse, hl hv, Res.bind_ok]
    cases b with
    | none => cases chk <;> rfl
    | some i =>
      rw [guardThat_true (by rfl), Res.bind_ok, hu hv]
      exact ⟨s, rfl, h⟩
  | arrow v =>
    refine agrees_using (fun b hv => ?_)
    simp only [ptrUse, hl hv, Res.bind_ok]
    cases b with
    | none => cases chk <;> rfl
    | some i =>
      rw [guardThat_true (by rfl), Res.bind_ok, hu hv]
      exact ⟨s, rfl, h⟩

end Life
end Coil
