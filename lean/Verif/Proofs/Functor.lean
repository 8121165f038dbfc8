import Verif.Spec.Functor
import Verif.Proofs.Lifetime
import Verif.Spec.Lexer

/-! # Function holders: simulation by the specification -/

namespace Coil
namespace Fun
open Spec
open Life (live)

section
variable {α β : Type} {R : α → β → Prop}

theorem f2_get {l : List α} {l' : List β} (h : Forall2 R l l') {v : Nat} {y : β} (hy : l'[v]? = some y) :
    ∃ x, l[v]? = some x ∧ R x y := by
  induction h generalizing v with
  | nil => simp at hy
  | cons h1 _ ih =>
    cases v with
    | zero => simp at hy; subst hy; exact ⟨_, rfl, h1⟩
    | succ v => simpa using ih (by simpa using hy)

theorem f2_set {l : List α} {l' : List β} (h : Forall2 R l l') (v : Nat) {x : α} {y : β} (hr : R x y) :
    Forall2 R (l.set v x) (l'.set v y) := by
  induction h generalizing v with
  | nil => exact .nil
  | cons h1 h2 ih =>
    cases v with
    | zero => exact .cons hr h2
    | succ v => exact .cons h1 (ih v)

theorem f2_snoc {l : List α} {l' : List β} (h : Forall2 R l l') {x : α} {y : β} (hr : R x y) :
    Forall2 R (l ++ [x]) (l' ++ [y]) := by
  induction h with
  | nil => exact .cons hr .nil
  | cons h1 _ ih => exact .cons h1 ih

theorem f2_imp {l : List α} {l' : List β} {R' : α → β → Prop} (h : Forall2 R l l') (hi : ∀ x y, R x y → R' x y) :
    Forall2 R' l l' := by
  induction h with
  | nil => exact .nil
  | cons h1 _ ih => exact .cons (hi _ _ h1) ih

theorem countP_setv (p : α → Bool) {l : List α} {v : Nat} {x : α} (h : l[v]? = some x) (y : α) :
    (l.set v y).countP p + (p x).toNat = l.countP p + (p y).toNat := by
  induction l generalizing v with
  | nil => simp at h
  | cons a l ih =>
    cases v with
    | zero =>
      simp at h; subst h
      cases ha : p a <;> cases hy : p y <;> simp [ha, hy]
    | succ v =>
      have := ih (by simpa using h)
      simp only [List.set_cons_succ, List.countP_cons]
      omega

theorem countP_snoc (p : α → Bool) (l : List α) (y : α) : (l ++ [y]).countP p = l.countP p + (p y).toNat := by
  cases hy : p y <;> simp [List.countP_append, hy]

theorem countP_pos {p : α → Bool} {l : List α} {v : Nat} {x : α} (h : l[v]? = some x) (hp : p x = true) : 0 < l.countP p :=
  List.countP_pos_iff.2 ⟨x, List.mem_of_getElem? h, hp⟩

/-- Is the object alive? -/
def alive (l : List (α × Bool)) (i : Nat) : Bool :=
  match l[i]? with
  | some (_, true) => true
  | _ => false

theorem alive_snoc (l : List (α × Bool)) (x : α) (i : Nat) : alive (l ++ [(x, true)]) i = (alive l i || decide (i = l.length)) := by
  unfold alive
  rcases Nat.lt_trichotomy i l.length with h | h | h
  · rw [List.getElem?_append_left h]
    have : decide (i = l.length) = false := by simp; omega
    rw [this, Bool.or_false]
  · subst h; simp
  · rw [List.getElem?_append_right (by omega)]
    have : decide (i = l.length) = false := by simp; omega
    rw [this]
    have h1 : [(x, true)][i - l.length]? = none := by simp; omega
    have h2 : l[i]? = none := by simp; omega
    rw [h1, h2]; rfl

theorem alive_set {l : List (α × Bool)} {i : Nat} (h : i < l.length) (x : α) (j : Nat) :
    alive (l.set i (x, false)) j = (alive l j && decide (j ≠ i)) := by
  unfold alive
  by_cases hj : j = i
  · subst hj; simp [h]
  · rw [List.getElem?_set_ne (by omega)]
    simp [hj]

theorem alive_lt {l : List (α × Bool)} {i : Nat} (h : alive l i = true) : i < l.length := by
  unfold alive at h
  rcases Nat.lt_or_ge i l.length with h1 | h1
  · exact h1
  · rw [List.getElem?_eq_none (by omega)] at h; simp at h

theorem alive_get {l : List (α × Bool)} {i : Nat} (h : alive l i = true) : ∃ x, l[i]? = some (x, true) := by
  unfold alive at h
  split at h
  · rename_i x hx; exact ⟨x, hx⟩
  · simp at h

end

variable {C : Type}

/-- The variable holds function `i`. -/
def holds (i : Nat) (o : Option (Option Nat)) : Bool := decide (o = some (some i))

/-- The variable points to storage `j`. -/
def points (j : Nat) : Option AnyFn → Bool
  | some a => decide (a.storage = some j)
  | none => false

/-- A wrapper and what it holds. -/
def WRel (fns : List (Fn C)) : Option Wrapper → Option (Option Nat) → Prop
  | none, none => True
  | some w, some c => w.func = c ∧ ∀ i, c = some i → ∃ f, fns[i]? = some f ∧ w.obj = f.obj ∧ w.params = f.params ∧ w.ret = f.ret
  | _, _ => False

/-- An `AnyFunctor` and what it holds. -/
def ARel (fns : List (Fn C)) (stores : List (Wrapper × Bool)) : Option AnyFn → Option (Option Nat) → Prop
  | none, none => True
  | some a, some c =>
    match a.storage with
    | none => c = none
    | some j => ∃ w b, stores[j]? = some (w, b) ∧ w.func = c ∧
      ∀ i, c = some i → ∃ f, fns[i]? = some f ∧ w.obj = f.obj ∧ a.params = f.params ∧ a.ret = f.ret
  | _, _ => False

structure FunInv (s : FunState C) (e : Holders C) : Prop where
  codes : s.funcs.map Prod.fst = e.fns.map Fn.code
  calls : s.calls = e.calls
  wraps : Forall2 (WRel e.fns) s.wraps e.wraps
  anys : Forall2 (ARel e.fns s.stores) s.anys e.anys
  owned : ∀ i, e.wraps.countP (holds i) + e.anys.countP (holds i) = (alive s.funcs i).toNat
  stored : ∀ j, s.anys.countP (points j) = (alive s.stores j).toNat
  once : ∀ i, s.deleted.count i + (alive s.funcs i).toNat = (decide (i < s.funcs.length)).toNat

theorem FunInv.init : FunInv (FunState.init : FunState C) Holders.init :=
  ⟨rfl, rfl, .nil, .nil, fun i => by simp [Holders.init, FunState.init, alive],
    fun j => by simp [FunState.init, alive], fun i => by simp [FunState.init, alive]⟩

theorem WRel.grow {fns : List (Fn C)} (f : Fn C) (x : Option Wrapper) (y : Option (Option Nat)) (h : WRel fns x y) :
    WRel (fns ++ [f]) x y := by
  cases x <;> cases y <;> simp only [WRel] at h ⊢
  refine ⟨h.1, fun i hi => ?_⟩
  obtain ⟨g, hg, h2⟩ := h.2 i hi
  exact ⟨g, by rw [List.getElem?_append_left (List.getElem?_eq_some_iff.1 hg).1]; exact hg, h2⟩

theorem ARel.grow {fns : List (Fn C)} {st : List (Wrapper × Bool)} (f : Fn C) (x : Option AnyFn) (y : Option (Option Nat))
    (h : ARel fns st x y) : ARel (fns ++ [f]) st x y := by
  cases x <;> cases y <;> simp only [ARel] at h ⊢
  split at h
  · exact h
  · rename_i j hs
    obtain ⟨w, b, h1, h2, h3⟩ := h
    refine ⟨w, b, h1, h2, fun i hi => ?_⟩
    obtain ⟨g, hg, h4⟩ := h3 i hi
    exact ⟨g, by rw [List.getElem?_append_left (List.getElem?_eq_some_iff.1 hg).1]; exact hg, h4⟩

theorem ARel.stores {fns : List (Fn C)} {st st' : List (Wrapper × Bool)}
    (hst : ∀ (j : Nat) w b, st[j]? = some (w, b) → ∃ b', st'[j]? = some (w, b')) (x : Option AnyFn) (y : Option (Option Nat))
    (h : ARel fns st x y) : ARel fns st' x y := by
  cases x <;> cases y <;> simp only [ARel] at h ⊢
  split at h
  · exact h
  · rename_i j hs
    obtain ⟨w, b, h1, h2⟩ := h
    obtain ⟨b', h1'⟩ := hst j w b h1
    exact ⟨w, b', h1', h2⟩

theorem FunInv.getWrap {s : FunState C} {e : Holders C} (h : FunInv s e) {v : Nat} {c : Option Nat} (hv : valueOf e.wraps v = some c) :
    ∃ w, s.wraps[v]? = some (some w) ∧ live s.wraps v = .ok w ∧ WRel e.fns (some w) (some c) := by
  obtain ⟨x, hx, hr⟩ := f2_get h.wraps (Life.valueOf_some.1 hv)
  cases x with
  | none => simp [WRel] at hr
  | some w => exact ⟨w, hx, by simp [live, hx], hr⟩

theorem FunInv.getAny {s : FunState C} {e : Holders C} (h : FunInv s e) {v : Nat} {c : Option Nat} (hv : valueOf e.anys v = some c) :
    ∃ a, s.anys[v]? = some (some a) ∧ live s.anys v = .ok a ∧ ARel e.fns s.stores (some a) (some c) := by
  obtain ⟨x, hx, hr⟩ := f2_get h.anys (Life.valueOf_some.1 hv)
  cases x with
  | none => simp [ARel] at hr
  | some w => exact ⟨w, hx, by simp [live, hx], hr⟩

/-- A function that is held is alive. -/
theorem FunInv.heldW {s : FunState C} {e : Holders C} (h : FunInv s e) {v i : Nat} (hv : e.wraps[v]? = some (some (some i))) :
    alive s.funcs i = true := by
  have h1 : 0 < e.wraps.countP (holds i) := countP_pos hv (by simp [holds])
  have h2 := h.owned i
  cases ha : alive s.funcs i
  · rw [ha] at h2; simp at h2
    have := h2.1 _ (List.mem_of_getElem? hv)
    simp [holds] at this
  · rfl

theorem FunInv.heldA {s : FunState C} {e : Holders C} (h : FunInv s e) {v i : Nat} (hv : e.anys[v]? = some (some (some i))) :
    alive s.funcs i = true := by
  have h2 := h.owned i
  cases ha : alive s.funcs i
  · rw [ha] at h2; simp at h2
    have := h2.2 _ (List.mem_of_getElem? hv)
    simp [holds] at this
  · rfl

theorem FunInv.store {s : FunState C} {e : Holders C} (h : FunInv s e) {v j : Nat} {a : AnyFn} (hv : s.anys[v]? = some (some a))
    (ha : a.storage = some j) : alive s.stores j = true := by
  have h2 := h.stored j
  cases hb : alive s.stores j
  · rw [hb] at h2; simp at h2
    have := h2 _ (List.mem_of_getElem? hv)
    simp [points, ha] at this
  · rfl

theorem FunInv.code {s : FunState C} {e : Holders C} (h : FunInv s e) {i : Nat} {f : Fn C} (hf : e.fns[i]? = some f)
    (ha : alive s.funcs i = true) : s.funcs[i]? = some (f.code, true) := by
  obtain ⟨x, hx⟩ := alive_get ha
  have := congrArg (fun l => l[i]?) h.codes
  simp only [List.getElem?_map, hx, hf, Option.map_some, Option.some.injEq] at this
  rw [hx, this]

/-- Calling a function that is held. -/
theorem invoke_spec {s : FunState C} {e e' : Holders C} (h : FunInv s e) {w : Wrapper} {c : Option Nat}
    (hw : w.func = c) (hf : ∀ i, c = some i → alive s.funcs i = true ∧ ∃ f, e.fns[i]? = some f ∧ w.obj = f.obj)
    (hs : e.call c = some e') : ∃ s', invokeWrapper s w = .ok s' ∧ FunInv s' e' := by
  cases c with
  | none => simp [Holders.call] at hs
  | some i =>
    obtain ⟨h1, f, h2, h3⟩ := hf i rfl
    simp only [Holders.call, Option.bind_some, h2, Option.map_some, Option.some.injEq] at hs
    subst hs
    simp only [invokeWrapper, hw, h.code h2 h1]
    refine ⟨_, rfl, h.codes, ?_, h.wraps, h.anys, h.owned, h.stored, h.once⟩
    simp [h.calls, h3]

/-- Destroying what a variable holds: what changes in the heap. -/
theorem destroy_spec {s : FunState C} {w : Wrapper} (hf : ∀ i, w.func = some i → alive s.funcs i = true)
    (ho : ∀ i, s.deleted.count i + (alive s.funcs i).toNat = (decide (i < s.funcs.length)).toNat) :
    ∃ fs dl, destroyWrapper s w = .ok { s with funcs := fs, deleted := dl } ∧ fs.map Prod.fst = s.funcs.map Prod.fst ∧
      (∀ i, alive fs i = (alive s.funcs i && decide (w.func ≠ some i))) ∧
      ∀ i, dl.count i + (alive fs i).toNat = (decide (i < fs.length)).toNat := by
  cases hw : w.func with
  | none => exact ⟨s.funcs, s.deleted, by simp [destroyWrapper, hw], rfl, fun i => by simp, ho⟩
  | some i =>
    have ha := hf i hw
    obtain ⟨x, hx⟩ := alive_get ha
    have hlt := alive_lt ha
    refine ⟨s.funcs.set i (x, false), s.deleted ++ [i], by simp [destroyWrapper, hw, deleteFunc, hx], ?_, ?_, ?_⟩
    · rw [List.map_set]
      apply List.ext_getElem?
      intro j
      by_cases hj : j = i
      · subst hj; simp [hlt]
        have := (List.getElem?_eq_some_iff.1 hx).2
        rw [this]
      · rw [List.getElem?_set_ne (by omega)]
    · intro j
      rw [alive_set hlt]
      congr 1
      simp [eq_comm]
    · intro j
      have := ho j
      rw [alive_set hlt, List.count_append, List.length_set]
      by_cases hji : j = i
      · subst hji
        rw [ha] at this
        simp [hlt] at this ⊢
        exact this
      · have h0 : List.count j [i] = 0 := by
          apply List.count_eq_zero.2; simpa using hji
        have h1 : decide (j ≠ i) = true := by simpa using hji
        rw [h0, h1, Bool.and_true]
        exact this

theorem holds_some (i : Nat) (c : Option Nat) : holds i (some c) = decide (c = some i) := by simp [holds]

theorem funStep_spec {s : FunState C} {e e' : Holders C} (h : FunInv s e) {op : FunOp C} (hs : funSpec e op = some e') :
    ∃ s', funStep s op = .ok s' ∧ FunInv s' e' := by
  cases op with
  | wrap code obj params ret =>
    simp only [funSpec, Option.some.injEq] at hs
    subst hs
    have hlen : s.funcs.length = e.fns.length := by
      have := congrArg List.length h.codes
      simpa using this
    refine ⟨_, rfl, by simp [h.codes], h.calls, ?_, f2_imp h.anys (ARel.grow _), ?_, h.stored, ?_⟩
    · refine f2_snoc (f2_imp h.wraps (WRel.grow _)) ?_
      simp only [WRel]
      refine ⟨by rw [hlen], fun i hi => ⟨⟨code, obj, params, ret⟩, ?_, rfl, rfl, rfl⟩⟩
      cases hi
      simp
    · intro i
      have h1 := h.owned i
      rw [countP_snoc, alive_snoc, holds_some]
      by_cases hi : i = s.funcs.length
      · have h2 : alive s.funcs i = false := by
          cases ha : alive s.funcs i
          · rfl
          · exact absurd (alive_lt ha) (by omega)
        rw [h2] at h1
        have h3 : decide (some e.fns.length = some i) = true := by simp [hi, hlen]
        have h4 : decide (i = s.funcs.length) = true := by simp [hi]
        rw [h3, h4]
        simp only [Bool.toNat_true, Bool.or_true, Bool.toNat_false] at h1 ⊢
        omega
      · have h3 : decide (some e.fns.length = some i) = false := by simp [← hlen]; omega
        have h4 : decide (i = s.funcs.length) = false := by simp [hi]
        rw [h3, h4, Bool.or_false]
        simpa using h1
    · intro i
      have h1 := h.once i
      rw [alive_snoc]
      simp only [List.length_append, List.length_singleton]
      by_cases hi : i = s.funcs.length
      · subst hi
        simp at h1 ⊢
        exact h1.1
      · have h2 : decide (i < s.funcs.length + 1) = decide (i < s.funcs.length) := by
          congr 1; apply propext; omega
        have h4 : decide (i = s.funcs.length) = false := by simp [hi]
        rw [h2, h4, Bool.or_false]
        exact h1
  | moveWrap src =>
    simp only [funSpec, Option.map_eq_some_iff] at hs
    obtain ⟨c, hc, rfl⟩ := hs
    obtain ⟨w, hw, hl, hr⟩ := h.getWrap hc
    simp only [funStep, hl, Res.bind_ok]
    refine ⟨_, rfl, h.codes, h.calls, ?_, h.anys, ?_, h.stored, h.once⟩
    · exact f2_snoc (f2_set h.wraps src (by simp [WRel, Wrapper.moveOut])) hr
    · intro i
      have h1 := countP_setv (holds i) (Life.valueOf_some.1 hc) (some none)
      have h2 := h.owned i
      rw [countP_snoc]
      simp only [holds_some] at h1 ⊢
      simp only [reduceCtorEq, decide_false, Bool.toNat_false] at h1
      omega
  | dropWrap v =>
    simp only [funSpec, Option.map_eq_some_iff] at hs
    obtain ⟨c, hc, rfl⟩ := hs
    obtain ⟨w, hw, hl, hr⟩ := h.getWrap hc
    have hg := Life.valueOf_some.1 hc
    simp only [WRel] at hr
    obtain ⟨hr1, hr2⟩ := hr
    obtain ⟨fs, dl, h1, h2, h3, h4⟩ := destroy_spec (s := s) (w := w)
      (fun i hi => h.heldW (v := v) (i := i) (by rw [hg, ← hr1, hi])) h.once
    simp only [funStep, hl, Res.bind_ok, h1]
    refine ⟨_, rfl, by simp [h2, h.codes], h.calls, f2_set h.wraps v (by simp [WRel]), h.anys, ?_, h.stored, h4⟩
    intro i
    have h5 := countP_setv (holds i) hg none
    have h6 := h.owned i
    simp only [holds_some] at h5
    simp only [h3, hr1]
    have h7 : holds i none = false := by simp [holds]
    rw [h7] at h5
    by_cases hi : c = some i
    · have := h.heldW (v := v) (i := i) (by rw [hg, hi])
      rw [this] at h6
      simp only [hi, decide_true, decide_false, not_true_eq_false, ne_eq, Bool.and_false, Bool.toNat_true, Bool.toNat_false] at h5 h6 ⊢
      omega
    · simp only [hi, decide_false, decide_true, not_false_eq_true, ne_eq, Bool.and_true, Bool.toNat_false] at h5 ⊢
      omega
  | callWrap v =>
    simp only [funSpec, Option.bind_eq_some_iff] at hs
    obtain ⟨c, hc, hs⟩ := hs
    obtain ⟨w, hw, hl, hr⟩ := h.getWrap hc
    have hg := Life.valueOf_some.1 hc
    simp only [funStep, hl, Res.bind_ok]
    simp only [WRel] at hr
    refine invoke_spec h hr.1 (fun i hi => ⟨h.heldW (v := v) (by rw [hg, hi]), ?_⟩) hs
    obtain ⟨f, h1, h2, _⟩ := hr.2 i hi
    exact ⟨f, h1, h2⟩
  | toAny src =>
    simp only [funSpec, Option.map_eq_some_iff] at hs
    obtain ⟨c, hc, rfl⟩ := hs
    obtain ⟨w, hw, hl, hr⟩ := h.getWrap hc
    simp only [funStep, hl, Res.bind_ok, Wrapper.moveOut, destroyWrapper]
    have hst : ∀ (j : Nat) w' b, s.stores[j]? = some (w', b) → ∃ b', (s.stores ++ [(w, true)])[j]? = some (w', b') := by
      intro j w' b hj
      exact ⟨b, by rw [List.getElem?_append_left (List.getElem?_eq_some_iff.1 hj).1]; exact hj⟩
    refine ⟨_, rfl, h.codes, h.calls, f2_set h.wraps src (by simp [WRel]), ?_, ?_, ?_, h.once⟩
    · refine f2_snoc (f2_imp h.anys (ARel.stores hst)) ?_
      simp only [WRel] at hr
      simp only [ARel]
      refine ⟨w, true, by simp, hr.1, hr.2⟩
    · intro i
      have h1 := countP_setv (holds i) (Life.valueOf_some.1 hc) (some none)
      have h2 := h.owned i
      rw [countP_snoc]
      simp only [holds_some] at h1 ⊢
      simp only [reduceCtorEq, decide_false, Bool.toNat_false] at h1
      omega
    · intro j
      have h1 := h.stored j
      rw [countP_snoc, alive_snoc]
      simp only [points, Option.some.injEq]
      by_cases hj : j = s.stores.length
      · have h2 : alive s.stores j = false := by
          cases ha : alive s.stores j
          · rfl
          · exact absurd (alive_lt ha) (by omega)
        rw [h2] at h1
        simp [hj] at h1 ⊢
        exact h1
      · have : ¬ s.stores.length = j := by omega
        simp [hj, this]
        exact h1
  | moveAny src =>
    simp only [funSpec, Option.map_eq_some_iff] at hs
    obtain ⟨c, hc, rfl⟩ := hs
    obtain ⟨a, ha, hl, hr⟩ := h.getAny hc
    simp only [funStep, hl, Res.bind_ok]
    refine ⟨_, rfl, h.codes, h.calls, h.wraps, ?_, ?_, ?_, h.once⟩
    · exact f2_snoc (f2_set h.anys src (by simp [ARel])) hr
    · intro i
      have h1 := countP_setv (holds i) (Life.valueOf_some.1 hc) (some none)
      have h2 := h.owned i
      rw [countP_snoc]
      simp only [holds_some] at h1 ⊢
      simp only [reduceCtorEq, decide_false, Bool.toNat_false] at h1
      omega
    · intro j
      have h1 := countP_setv (points j) ha (some ⟨none, [], []⟩)
      have h2 := h.stored j
      have h3 : points j (some ⟨none, [], []⟩) = false := by simp [points]
      rw [h3] at h1
      rw [countP_snoc]
      simp only [Bool.toNat_false] at h1
      simp only
      omega
  | dropAny v =>
    simp only [funSpec, Option.map_eq_some_iff] at hs
    obtain ⟨c, hc, rfl⟩ := hs
    obtain ⟨a, ha, hl, hr⟩ := h.getAny hc
    have hg := Life.valueOf_some.1 hc
    simp only [ARel] at hr
    cases hj : a.storage with
    | none =>
      rw [hj] at hr
      simp only at hr
      simp only [funStep, hl, Res.bind_ok, destroyAny, hj]
      refine ⟨_, rfl, h.codes, h.calls, h.wraps, f2_set h.anys v (by simp [ARel]), ?_, ?_, h.once⟩
      · intro i
        have h1 := countP_setv (holds i) hg none
        have h2 := h.owned i
        subst hr
        have h3 : holds i (some none) = false := by simp [holds]
        have h4 : holds i none = false := by simp [holds]
        rw [h3, h4] at h1
        simp only
        omega
      · intro j
        have h1 := countP_setv (points j) ha none
        have h2 := h.stored j
        have h3 : points j (some a) = false := by simp [points, hj]
        have h4 : points j none = false := rfl
        rw [h3, h4] at h1
        simp only
        omega
    | some j =>
      rw [hj] at hr
      simp only at hr
      obtain ⟨w, b, hw, hr1, hr2⟩ := hr
      have hal := h.store ha hj
      have hb : b = true := by
        obtain ⟨x, hx⟩ := alive_get hal
        rw [hw] at hx
        simp at hx
        exact hx.2
      subst hb
      obtain ⟨fs, dl, h1, h2, h3, h4⟩ := destroy_spec (s := s) (w := w)
        (fun i hi => h.heldA (v := v) (i := i) (by rw [hg, ← hr1, hi])) h.once
      simp only [funStep, hl, Res.bind_ok, destroyAny, hj, readStore, hw, h1]
      have hst : ∀ (k : Nat) w' b, s.stores[k]? = some (w', b) → ∃ b', (s.stores.set j (w, false))[k]? = some (w', b') := by
        intro k w' b hk
        by_cases hkj : k = j
        · subst hkj
          rw [hw] at hk
          simp at hk
          exact ⟨false, by simp [alive_lt hal, hk.1]⟩
        · exact ⟨b, by rw [List.getElem?_set_ne (by omega)]; exact hk⟩
      refine ⟨_, rfl, by simp [h2, h.codes], h.calls, h.wraps,
        f2_set (f2_imp h.anys (ARel.stores hst)) v (by simp [ARel]), ?_, ?_, h4⟩
      · intro i
        have h5 := countP_setv (holds i) hg none
        have h6 := h.owned i
        simp only [holds_some] at h5
        simp only [h3, hr1]
        have h7 : holds i none = false := by simp [holds]
        rw [h7] at h5
        by_cases hi : c = some i
        · have := h.heldA (v := v) (i := i) (by rw [hg, hi])
          rw [this] at h6
          simp only [hi, decide_true, decide_false, not_true_eq_false, ne_eq, Bool.and_false, Bool.toNat_true, Bool.toNat_false] at h5 h6 ⊢
          omega
        · simp only [hi, decide_false, decide_true, not_false_eq_true, ne_eq, Bool.and_true, Bool.toNat_false] at h5 ⊢
          omega
      · intro k
        have h5 := countP_setv (points k) ha none
        have h6 := h.stored k
        rw [alive_set (alive_lt hal)]
        have h7 : points k none = false := rfl
        rw [h7] at h5
        simp only [points, hj, Option.some.injEq] at h5
        by_cases hk : j = k
        · subst hk
          rw [hal] at h6
          simp only [decide_true, decide_false, not_true_eq_false, ne_eq, Bool.and_false, Bool.toNat_true, Bool.toNat_false] at h5 h6 ⊢
          omega
        · have : ¬ k = j := by omega
          simp only [hk, this, decide_false, decide_true, not_false_eq_true, ne_eq, Bool.and_true, Bool.toNat_false] at h5 ⊢
          omega
  | callAny v =>
    simp only [funSpec, Option.bind_eq_some_iff] at hs
    obtain ⟨c, hc, hs⟩ := hs
    obtain ⟨a, ha, hl, hr⟩ := h.getAny hc
    have hg := Life.valueOf_some.1 hc
    simp only [ARel] at hr
    cases hj : a.storage with
    | none =>
      rw [hj] at hr
      simp only at hr
      subst hr
      simp [Holders.call] at hs
    | some j =>
      rw [hj] at hr
      simp only at hr
      obtain ⟨w, b, hw, hr1, hr2⟩ := hr
      have hal := h.store ha hj
      have hb : b = true := by
        obtain ⟨x, hx⟩ := alive_get hal
        rw [hw] at hx
        simp at hx
        exact hx.2
      subst hb
      simp only [funStep, hl, Res.bind_ok, invokeAny, hj, readStore, hw]
      refine invoke_spec h hr1 (fun i hi => ⟨h.heldA (v := v) (by rw [hg, hi]), ?_⟩) hs
      obtain ⟨f, h1, h2, _⟩ := hr2 i hi
      exact ⟨f, h1, h2⟩

theorem funRun_spec {s : FunState C} {e e' : Holders C} (h : FunInv s e) {ops : List (FunOp C)} (hs : funSpecRun e ops = some e') :
    ∃ s', funRun s ops = .ok s' ∧ FunInv s' e' := by
  induction ops generalizing s e with
  | nil => simp only [funSpecRun, Option.some.injEq] at hs; subst hs; exact ⟨s, rfl, h⟩
  | cons op ops ih =>
    simp only [funSpecRun, Option.bind_eq_some_iff] at hs
    obtain ⟨e1, h1, h2⟩ := hs
    obtain ⟨s1, h3, h4⟩ := funStep_spec h h1
    obtain ⟨s', h5, h6⟩ := ih h4 h2
    exact ⟨s', by simp [funRun, h3, h5], h6⟩

end Fun
end Coil
