import Verif.Proofs.Functor

/-!
# Function holders: `FunctionWrapper` and `AnyFunctor` (C61)

A program is a list of statements on any number of holders. The specification (`Spec.funSpecRun`) says which function each holder
holds; it says `none` for programs that use dead variables or call empty holders.
-/

namespace Coil
open Spec Fun
open Life (live)

variable {C : Type}

/-- **C61 (calls).** Any program runs without undefined behaviour; the calls reach exactly the functions (and objects) that the specification
says, in order; every live `AnyFunctor` that holds a function shows its parameter and return types. -/
theorem C61_calls (ops : List (FunOp C)) {e : Holders C} (hs : funSpecRun Holders.init ops = some e) :
    ∃ s, funRun FunState.init ops = .ok s ∧ s.calls = e.calls ∧
      ∀ v i f, valueOf e.anys v = some (some i) → e.fns[i]? = some f →
        ∃ a, live s.anys v = .ok a ∧ a.params = f.params ∧ a.ret = f.ret ∧ a.arity = f.params.length := by
  obtain ⟨s, h1, h2⟩ := funRun_spec FunInv.init hs
  refine ⟨s, h1, h2.calls, fun v i f hv hf => ?_⟩
  obtain ⟨a, _, hl, hr⟩ := h2.getAny hv
  simp only [ARel] at hr
  split at hr
  · simp at hr
  · obtain ⟨w, b, _, _, h3⟩ := hr
    obtain ⟨f', h4, _, h5, h6⟩ := h3 i rfl
    rw [hf] at h4
    cases h4
    exact ⟨a, hl, h5, h6, by simp [AnyFn.arity, h5]⟩

/-- **C61 (one holder).** No two live holders hold the same function. -/
theorem C61_one_holder (ops : List (FunOp C)) {e : Holders C} (hs : funSpecRun Holders.init ops = some e) (i : Nat) :
    (∀ v w, valueOf e.wraps v = some (some i) → valueOf e.wraps w = some (some i) → v = w) ∧
    (∀ v w, valueOf e.anys v = some (some i) → valueOf e.anys w = some (some i) → v = w) ∧
    ∀ v w, ¬ (valueOf e.wraps v = some (some i) ∧ valueOf e.anys w = some (some i)) := by
  obtain ⟨s, h1, h2⟩ := funRun_spec FunInv.init hs
  have h3 := h2.owned i
  have h4 : (alive s.funcs i).toNat ≤ 1 := by cases alive s.funcs i <;> simp
  have two : ∀ (l : List (Option (Option Nat))) (v w : Nat), l[v]? = some (some (some i)) → l[w]? = some (some (some i)) →
      l.countP (holds i) ≤ 1 → v = w := by
    intro l v w hv hw hl
    apply Classical.byContradiction
    intro hne
    have h5 := countP_setv (holds i) hv none
    have h6 : (l.set v none)[w]? = some (some (some i)) := by rw [List.getElem?_set_ne hne]; exact hw
    have h7 : 0 < (l.set v none).countP (holds i) := countP_pos h6 (by simp [holds])
    have h8 : holds i (some (some i)) = true := by simp [holds]
    have h9 : holds i none = false := by simp [holds]
    rw [h8, h9] at h5
    simp only [Bool.toNat_true, Bool.toNat_false] at h5
    omega
  refine ⟨fun v w hv hw => two _ v w (Life.valueOf_some.1 hv) (Life.valueOf_some.1 hw) (by omega),
    fun v w hv hw => two _ v w (Life.valueOf_some.1 hv) (Life.valueOf_some.1 hw) (by omega), ?_⟩
  rintro v w ⟨hv, hw⟩
  have h5 : 0 < e.wraps.countP (holds i) := countP_pos (Life.valueOf_some.1 hv) (by simp [holds])
  have h6 : 0 < e.anys.countP (holds i) := countP_pos (Life.valueOf_some.1 hw) (by simp [holds])
  omega

/-- **C61 (deleted once).** At any time a function has been deleted exactly once if no live holder holds it, and not at all otherwise. -/
theorem C61_deleted_once (ops : List (FunOp C)) {e : Holders C} (hs : funSpecRun Holders.init ops = some e) :
    ∃ s, funRun FunState.init ops = .ok s ∧
      (∀ i, e.held i → s.deleted.count i = 0) ∧ ∀ i, i < e.fns.length → ¬ e.held i → s.deleted.count i = 1 := by
  obtain ⟨s, h1, h2⟩ := funRun_spec FunInv.init hs
  have hlen : s.funcs.length = e.fns.length := by
    have := congrArg List.length h2.codes
    simpa using this
  refine ⟨s, h1, ?_, ?_⟩
  · intro i hi
    have ha : alive s.funcs i = true := by
      rcases hi with ⟨v, hv⟩ | ⟨v, hv⟩
      · exact h2.heldW (Life.valueOf_some.1 hv)
      · exact h2.heldA (Life.valueOf_some.1 hv)
    have := h2.once i
    rw [ha] at this
    have hle : (decide (i < s.funcs.length)).toNat ≤ 1 := by cases decide (i < s.funcs.length) <;> simp
    simp only [Bool.toNat_true] at this
    omega
  · intro i hlt hi
    have h3 := h2.owned i
    have z : ∀ (l : List (Option (Option Nat))), (¬ ∃ v, valueOf l v = some (some i)) → l.countP (holds i) = 0 := by
      intro l hl
      apply List.countP_eq_zero.2
      intro x hx hh
      simp only [holds, decide_eq_true_eq] at hh
      subst hh
      obtain ⟨v, hv⟩ := List.getElem?_of_mem hx
      exact hl ⟨v, Life.valueOf_some.2 hv⟩
    rw [z _ (fun h => hi (.inl h)), z _ (fun h => hi (.inr h))] at h3
    have h4 := h2.once i
    rw [← h3] at h4
    have : decide (i < s.funcs.length) = true := by simp [hlen, hlt]
    rw [this] at h4
    simpa using h4

/-- **C61 (no leak).** When all holders are destroyed, every function and every storage has been released. -/
theorem C61_no_leak (ops : List (FunOp C)) {e : Holders C} (hs : funSpecRun Holders.init ops = some e)
    (hw : ∀ v, valueOf e.wraps v = none) (ha : ∀ v, valueOf e.anys v = none) :
    ∃ s, funRun FunState.init ops = .ok s ∧ (∀ x ∈ s.funcs, x.2 = false) ∧ ∀ x ∈ s.stores, x.2 = false := by
  obtain ⟨s, h1, h2⟩ := funRun_spec FunInv.init hs
  have dead : ∀ {α : Type} (l : List (α × Bool)), (∀ i, alive l i = false) → ∀ x ∈ l, x.2 = false := by
    intro α l hl x hx
    obtain ⟨i, hi⟩ := List.getElem?_of_mem hx
    have := hl i
    obtain ⟨y, b⟩ := x
    cases b
    · rfl
    · simp [alive, hi] at this
  have z : ∀ (l : List (Option (Option Nat))), (∀ v, valueOf l v = none) → ∀ i, l.countP (holds i) = 0 := by
    intro l hl i
    apply List.countP_eq_zero.2
    intro x hx hh
    simp only [holds, decide_eq_true_eq] at hh
    subst hh
    obtain ⟨v, hv⟩ := List.getElem?_of_mem hx
    have := Life.valueOf_some.2 hv
    rw [hl v] at this
    simp at this
  refine ⟨s, h1, dead _ (fun i => ?_), dead _ (fun j => ?_)⟩
  · have := h2.owned i
    rw [z _ hw, z _ ha] at this
    cases hb : alive s.funcs i
    · rfl
    · rw [hb] at this; simp at this
  · have := h2.stored j
    have h0 : s.anys.countP (points j) = 0 := by
      apply List.countP_eq_zero.2
      intro x hx hh
      obtain ⟨v, hv⟩ := List.getElem?_of_mem hx
      cases x with
      | none => simp [points] at hh
      | some a =>
        have hlt : v < e.anys.length := by
          have hl : ∀ {l : List (Option AnyFn)} {l' : List (Option (Option Nat))} {R}, Forall2 R l l' → l.length = l'.length := by
            intro l l' R h
            induction h with
            | nil => rfl
            | cons _ _ ih => simp [ih]
          rw [← hl h2.anys]
          exact (List.getElem?_eq_some_iff.1 hv).1
        obtain ⟨y, hy, hr⟩ := f2_get h2.anys (List.getElem?_eq_getElem hlt)
        have hn : e.anys[v] = none := by
          have := ha v
          simpa [valueOf, hlt] using this
        rw [hv] at hy
        cases hy
        rw [hn] at hr
        simp [ARel] at hr
    rw [h0] at this
    cases hb : alive s.stores j
    · rfl
    · rw [hb] at this; simp at this

/-- **C61 (moved-from).** Calling a holder that has been moved from dereferences a null pointer. -/
theorem C61_moved_from (ops : List (FunOp C)) {e : Holders C} (hs : funSpecRun Holders.init ops = some e) (v : Nat) :
    (valueOf e.wraps v = some none → funRun FunState.init (ops ++ [.callWrap v]) = .ub .nullDeref) ∧
    (valueOf e.anys v = some none → funRun FunState.init (ops ++ [.callAny v]) = .ub .nullDeref) := by
  obtain ⟨s, h1, h2⟩ := funRun_spec FunInv.init hs
  have app : ∀ (s0 : FunState C) (op : FunOp C), funRun s0 ops = .ok s → funRun s0 (ops ++ [op]) = (funStep s op >>= fun s' => .ok s') := by
    intro s0 op h
    clear hs h1
    induction ops generalizing s0 with
    | nil => cases h; rfl
    | cons o ops ih =>
      obtain ⟨s1, h3, h4⟩ := Res.bind_eq_ok.1 h
      simp only [List.cons_append, funRun, h3, Res.bind_ok]
      exact ih s1 h4
  constructor
  · intro hv
    obtain ⟨w, _, hl, hr⟩ := h2.getWrap hv
    simp only [WRel] at hr
    rw [app _ _ h1]
    simp only [funStep, hl, Res.bind_ok, invokeWrapper, hr.1]
    rfl
  · intro hv
    obtain ⟨a, ha, hl, hr⟩ := h2.getAny hv
    simp only [ARel] at hr
    rw [app _ _ h1]
    simp only [funStep, hl, Res.bind_ok, invokeAny]
    split at hr
    · rename_i hs'
      simp only [hs']
      rfl
    · rename_i j hs'
      obtain ⟨w, b, hw, hf, _⟩ := hr
      have hal := h2.store ha hs'
      obtain ⟨x, hx⟩ := alive_get hal
      rw [hw] at hx
      simp only [Option.some.injEq, Prod.mk.injEq] at hx
      simp only [hs', readStore, hw, hx.2, Res.bind_ok, invokeWrapper, hf]
      rfl

/-- A function is wrapped, made into an `AnyFunctor`, moved twice, called and destroyed. -/
example : (funRun FunState.init ([.wrap 7 (some 3) [lit "int"] (lit "void"), .toAny 0, .moveAny 0, .moveAny 1, .callAny 2, .dropAny 0,
    .dropAny 2, .dropWrap 0, .dropAny 1] : List (FunOp Nat)) >>= fun s => Res.ok (s.calls, s.deleted)) = .ok ([(7, some 3)], [0]) := by
  decide +kernel

end Coil
