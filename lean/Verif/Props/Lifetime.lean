import Verif.Proofs.Lifetime

/-!
# Lifetime properties of `Optional`, `Expected` and `UniquePtr` (C44, C45, C46)

A program is a list of statements on any number of variables. The specifications (`Spec.optSpecRun` and so on) treat the
variables as plain values; they say `none` for programs that use variables that are not alive. The contained types and
the points where a copy throws are arbitrary.
-/

namespace Coil
open Spec Life

variable {α ε : Type}

/-! ## C44 -/

/-- What the public interface shows of an optional. -/
def Life.OptShows (s : OptState α) (v : Nat) (o : Option α) : Prop :=
  ∃ obj, live s.vars v = .ok obj ∧ obj.hasValue = o.isSome ∧ ∀ x, o = some x → obj.value = .ok x

/-- **C44 (values).** After any program every live optional is empty or holds the value that the plain specification says, also if copies
throw in between; no object is used outside of its lifetime. -/
theorem C44_values (ty : Ty α) (ops : List (OptOp α)) {e : List (Option (Option α))} (hs : optSpecRun ty [] ops = some e) :
    ∃ s, optRun ty ⟨[], ⟨0, 0⟩⟩ ops = .ok s ∧ ∀ v o, valueOf e v = some o → OptShows s v o := by
  obtain ⟨s, h1, h2⟩ := optRun_spec ty (s := ⟨[], ⟨0, 0⟩⟩) (e := []) ⟨rfl, rfl⟩ hs
  refine ⟨s, h1, fun v o hv => ⟨enc o, ?_, rfl, ?_⟩⟩
  · rw [h2.1]
    exact live_map enc hv
  · rintro x rfl
    rfl

/-- The parameters for the examples: a moved-from number is 0, a failed assignment leaves 99. -/
def Life.demoTy : Ty Nat := ⟨fun _ => 0, id, fun _ _ => 99⟩

/-- A program for the examples. -/
def Life.demoOpt : List (OptOp Nat) :=
  [.create, .ofValue 5 false, .copyAssign 0 1 true, .copyNew 1 false, .copyAssign 0 1 false, .moveNew 1, .write 1 7 false,
    .moveAssign 0 1, .create, .copyAssign 2 4 false, .copyAssign 3 0 true, .copyNew 0 true, .destroy 4]

example : optSpecRun demoTy [] demoOpt = some [some (some 7), some (some 0), some none, some (some 99), none] ∧
    (optRun demoTy ⟨[], ⟨0, 0⟩⟩ demoOpt).bind (fun s => .ok s.counts) = .ok ⟨4, 1⟩ := by
  refine ⟨?_, ?_⟩ <;> decide +kernel

/-- **C44 (lifetime).** At any time the number of constructed contained objects minus the destroyed ones is the number of optionals that
hold a value. -/
theorem C44_balance (ty : Ty α) (ops : List (OptOp α)) {e : List (Option (Option α))} (hs : optSpecRun ty [] ops = some e) :
    ∃ s, optRun ty ⟨[], ⟨0, 0⟩⟩ ops = .ok s ∧ s.counts.ctors = s.counts.dtors + contained Option.isSome e := by
  obtain ⟨s, h1, h2⟩ := optRun_spec ty (s := ⟨[], ⟨0, 0⟩⟩) (e := []) ⟨rfl, rfl⟩ hs
  exact ⟨s, h1, h2.2⟩

theorem Life.contained_none {β : Type} (full : β → Bool) {e : List (Option β)} (h : ∀ v : Nat, valueOf e v = none) :
    contained full e = 0 := by
  have : ∀ o ∈ e, o = none := by
    intro o ho
    obtain ⟨v, hv⟩ := List.getElem?_of_mem ho
    have := h v
    rw [valueOf, hv] at this
    simpa using this
  induction e with
  | nil => rfl
  | cons o e ih =>
    have ho := this o (by simp)
    subst ho
    have := ih (fun v => by simpa [valueOf] using h (v + 1)) (fun o ho => this o (by simp [ho]))
    simpa [contained] using this

/-- **C44 (end).** When all optionals are destroyed, every contained object that was constructed has been destroyed: together with
`C44_values` (destroying twice would be undefined behaviour) exactly once. -/
theorem C44_all_destroyed (ty : Ty α) (ops : List (OptOp α)) {e : List (Option (Option α))} (hs : optSpecRun ty [] ops = some e)
    (hd : ∀ v : Nat, valueOf e v = none) :
    ∃ s, optRun ty ⟨[], ⟨0, 0⟩⟩ ops = .ok s ∧ s.counts.ctors = s.counts.dtors := by
  obtain ⟨s, h1, h2⟩ := C44_balance ty ops hs
  rw [contained_none _ hd] at h2
  exact ⟨s, h1, h2⟩

example : (optRun demoTy ⟨[], ⟨0, 0⟩⟩ (demoOpt ++ [.destroy 0, .destroy 3, .destroy 1, .destroy 2])).bind
    (fun s => .ok s.counts) = .ok ⟨4, 4⟩ := by
  decide +kernel

/-- **C44 (equality).** After any program, `a == b` holds for two optionals exactly if both are empty or both have values that compare
equal. -/
theorem C44_equality (ty : Ty α) (eq : α → α → Bool) (ops : List (OptOp α)) {e : List (Option (Option α))}
    (hs : optSpecRun ty [] ops = some e) {v w : Nat} {a b : Option α} (hv : valueOf e v = some a) (hw : valueOf e w = some b) :
    ∃ s x y r, optRun ty ⟨[], ⟨0, 0⟩⟩ ops = .ok s ∧ live s.vars v = .ok x ∧ live s.vars w = .ok y ∧ x.equal eq y = .ok r ∧
      (r = true ↔ (a = none ∧ b = none) ∨ ∃ p q, a = some p ∧ b = some q ∧ eq p q = true) := by
  obtain ⟨s, h1, h2⟩ := optRun_spec ty (s := ⟨[], ⟨0, 0⟩⟩) (e := []) ⟨rfl, rfl⟩ hs
  have g1 : live s.vars v = .ok (enc a) := by rw [h2.1]; exact live_map enc hv
  have g2 : live s.vars w = .ok (enc b) := by rw [h2.1]; exact live_map enc hw
  cases a with
  | none =>
    cases b with
    | none => exact ⟨s, _, _, _, h1, g1, g2, rfl, by simp⟩
    | some q => exact ⟨s, _, _, _, h1, g1, g2, rfl, by simp⟩
  | some p =>
    cases b with
    | none => exact ⟨s, _, _, _, h1, g1, g2, rfl, by simp⟩
    | some q => exact ⟨s, _, _, _, h1, g1, g2, rfl, by simp⟩

/-! ## C45 -/

/-- What the public interface shows of an expected. -/
def Life.ExpShows (s : ExpState α ε) (v : Nat) (x : α ⊕ ε) : Prop :=
  ∃ obj, live s.vars v = .ok obj ∧ obj.hasValue = x.isLeft ∧ (∀ a, x = .inl a → obj.value = .ok a) ∧
    ∀ b, x = .inr b → obj.error = .ok b

/-- **C45 (values, partial).** After any program in which no copy assignment between a value and an error throws, every live expected holds
the alternative that the plain specification says. Missing: such a throwing assignment (`C45_throw_false`). -/
theorem C45_values_partial (ta : Ty α) (te : Ty ε) (ops : List (ExpOp α ε)) {e : List (Option (α ⊕ ε))}
    (hm : NoMixedThrow ta te [] ops) (hs : expSpecRun ta te [] ops = some e) :
    ∃ s, expRun ta te ⟨[], ⟨0, 0⟩⟩ ops = .ok s ∧ ∀ v x, valueOf e v = some x → ExpShows s v x := by
  obtain ⟨s, h1, h2⟩ := expRun_spec ta te (s := ⟨[], ⟨0, 0⟩⟩) (e := []) ⟨rfl, rfl⟩ hm hs
  refine ⟨s, h1, fun v x hv => ⟨encE x, ?_, rfl, ?_, ?_⟩⟩
  · rw [h2.1]
    exact live_map encE hv
  · rintro a rfl
    rfl
  · rintro b rfl
    rfl

/-- **C45 (lifetime, partial).** The number of constructed contained objects minus the destroyed ones is the number of live expecteds; when
all are destroyed, every contained object has been destroyed. -/
theorem C45_balance_partial (ta : Ty α) (te : Ty ε) (ops : List (ExpOp α ε)) {e : List (Option (α ⊕ ε))}
    (hm : NoMixedThrow ta te [] ops) (hs : expSpecRun ta te [] ops = some e) :
    ∃ s, expRun ta te ⟨[], ⟨0, 0⟩⟩ ops = .ok s ∧ s.counts.ctors = s.counts.dtors + contained (fun _ => true) e ∧
      ((∀ v : Nat, valueOf e v = none) → s.counts.ctors = s.counts.dtors) := by
  obtain ⟨s, h1, h2⟩ := expRun_spec ta te (s := ⟨[], ⟨0, 0⟩⟩) (e := []) ⟨rfl, rfl⟩ hm hs
  refine ⟨s, h1, h2.2, fun hd => ?_⟩
  have := h2.2
  rw [contained_none _ hd] at this
  exact this

/-- A program for the examples. -/
def Life.demoExp : List (ExpOp Nat Nat) :=
  [.ofValue 5, .ofError 6, .copyNew 0 false, .copyNew 0 true, .copyAssign 0 1 false, .moveAssign 1 2, .copyAssign 1 2 true, .destroy 2]

example : expSpecRun demoTy demoTy [] demoExp = some [some (.inr 6), some (.inl 99), none] ∧
    (expRun demoTy demoTy ⟨[], ⟨0, 0⟩⟩ demoExp).bind (fun s => .ok s.counts) = .ok ⟨5, 3⟩ := by
  refine ⟨?_, ?_⟩ <;> decide +kernel

/-- **C45 (disagreement).** For every program and every two variables with different alternatives: if the copy in an assignment between
them throws, the target is left without any contained object, and its destructor has undefined behaviour. -/
theorem C45_throw_false (ta : Ty α) (te : Ty ε) (ops : List (ExpOp α ε)) {e : List (Option (α ⊕ ε))}
    (hm : NoMixedThrow ta te [] ops) (hs : expSpecRun ta te [] ops = some e) {dst src : Nat} {d r : α ⊕ ε}
    (hd : valueOf e dst = some d) (hr : valueOf e src = some r) (hdr : d.isLeft ≠ r.isLeft) :
    ∃ s s', expRun ta te ⟨[], ⟨0, 0⟩⟩ ops = .ok s ∧ expStep ta te s (.copyAssign dst src true) = .ok s' ∧
      (∃ obj, live s'.vars dst = .ok obj ∧ obj.cell = none) ∧ expStep ta te s' (.destroy dst) = .ub .deadObject := by
  obtain ⟨s, h1, h2⟩ := expRun_spec ta te (s := ⟨[], ⟨0, 0⟩⟩) (e := []) ⟨rfl, rfl⟩ hm hs
  have gd : live s.vars dst = .ok (encE d) := by rw [h2.1]; exact live_map encE hd
  have gr : live s.vars src = .ok (encE r) := by rw [h2.1]; exact live_map encE hr
  have hlt : dst < s.vars.length := by
    rw [h2.1]
    simpa using (List.getElem?_eq_some_iff.1 (valueOf_some.1 hd)).1
  have hlive : live (s.vars.set dst (some ⟨none, r.isLeft⟩)) dst = .ok (⟨none, r.isLeft⟩ : ExpObj α ε) := by
    simp [live, hlt]
  refine ⟨s, ⟨s.vars.set dst (some ⟨none, r.isLeft⟩), { s.counts with dtors := s.counts.dtors + 1 }⟩, h1, ?_,
    ⟨⟨none, r.isLeft⟩, hlive, rfl⟩, ?_⟩
  · simp only [expStep, gd, gr, Res.bind_ok]
    cases d <;> cases r
    · simp at hdr
    · rfl
    · rfl
    · simp at hdr
  · simp only [expStep, hlive, Res.bind_ok]
    cases r <;> rfl

example : (expRun demoTy demoTy ⟨[], ⟨0, 0⟩⟩ [.ofValue 5, .ofError 6, .copyAssign 0 1 true, .destroy 0]).bind
    (fun s => .ok s.counts) = .ub .deadObject := by
  decide +kernel

/-! ## C46 -/

/-- **C46 (unique).** After any program on owners, no two live owners own the same object, every owned object is alive, every live object has
an owner, and the owners own what the plain specification says. -/
theorem C46_unique (ops : List PtrOp) {e : Owners} (hs : ptrSpecRun ⟨0, []⟩ ops = some e) :
    ∃ s, ptrRun ⟨[], [], []⟩ ops = .ok s ∧ (∀ v, valueOf e.vars v = valueOf s.vars v) ∧
      (∀ v w i, valueOf s.vars v = some (some i) → valueOf s.vars w = some (some i) → v = w) ∧
      ∀ i : Nat, s.objs[i]? = some true ↔ ∃ v, valueOf s.vars v = some (some i) := by
  obtain ⟨s, h1, h2⟩ := ptrRun_spec PtrInv.init hs
  refine ⟨s, h1, fun v => by rw [h2.vars], ?_, ?_⟩
  · intro v w i hv hw
    exact h2.dist v w i (valueOf_some.1 hv) (valueOf_some.1 hw)
  · intro i
    constructor
    · intro hi
      obtain ⟨v, hv⟩ := h2.live i hi
      exact ⟨v, valueOf_some.2 hv⟩
    · rintro ⟨v, hv⟩
      exact h2.owned v i (valueOf_some.1 hv)

/-- **C46 (deleted once).** At any time, an object has been deleted exactly once if no live owner owns it, and not at all otherwise; so when all
owners are destroyed every object has been deleted exactly once. -/
theorem C46_deleted_once (ops : List PtrOp) {e : Owners} (hs : ptrSpecRun ⟨0, []⟩ ops = some e) :
    ∃ s, ptrRun ⟨[], [], []⟩ ops = .ok s ∧
      (∀ i v, valueOf e.vars v = some (some i) → s.deleted.count i = 0) ∧
      (∀ i, i < e.made → (∀ v, valueOf e.vars v ≠ some (some i)) → s.deleted.count i = 1) ∧
      ((∀ v, valueOf e.vars v = none) → ∀ i, i < e.made → s.deleted.count i = 1) := by
  obtain ⟨s, h1, h2⟩ := ptrRun_spec PtrInv.init hs
  have key : ∀ i, i < e.made → (∀ v, valueOf e.vars v ≠ some (some i)) → s.deleted.count i = 1 := by
    intro i hi hv
    have hlt : i < s.objs.length := by rw [h2.made]; exact hi
    cases hb : s.objs[i] with
    | true =>
      obtain ⟨v, hv'⟩ := h2.live i (by simp [hlt, hb])
      rw [h2.vars] at hv'
      exact absurd (valueOf_some.2 hv') (hv v)
    | false =>
      have hm : i ∈ s.deleted := (h2.dead i).2 (by simp [hlt, hb])
      have := h2.once.count (a := i)
      rw [this, if_pos hm]
  refine ⟨s, h1, ?_, key, fun hd i hi => key i hi (fun v hv => by rw [hd v] at hv; simp at hv)⟩
  intro i v hv
  rw [← h2.vars] at hv
  have := h2.owned v i (valueOf_some.1 hv)
  apply List.count_eq_zero.2
  rw [h2.dead, this]
  simp

/-- A program for the examples: two objects, an owner moved to itself, ownership exchanged by assignment. -/
def Life.demoPtr : List PtrOp :=
  [.makeUnique, .makeUnique, .moveAssign 0 0, .moveNew 0, .moveAssign 2 1, .convert 1, .destroy 0, .destroy 2]

example : ptrSpecRun ⟨0, []⟩ demoPtr = some ⟨2, [none, some none, none, some (some 0)]⟩ ∧
    ptrRun ⟨[], [], []⟩ demoPtr = .ok ⟨[true, false], [1], [none, some none, none, some (some 0)]⟩ := by
  refine ⟨?_, ?_⟩ <;> decide +kernel

end Coil
