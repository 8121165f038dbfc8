import Verif.Model.UMap

/-!
# Running out of fuel means a real endless loop

The loops of `findNodeIndex` and `insertNode` get one step more than there are nodes. If that is not enough then no
number of steps is.
-/

namespace Coil
namespace UMap

variable {K V : Type}

/-- Pigeonhole. -/
theorem pigeonhole (n : Nat) (f : Nat → Nat) (h : ∀ t, t ≤ n → f t < n) : ∃ a b, a < b ∧ b ≤ n ∧ f a = f b := by
  induction n generalizing f with
  | zero => exact absurd (h 0 (by omega)) (by omega)
  | succ n ih =>
    by_cases hx : ∃ t, t ≤ n ∧ f t = f (n + 1)
    · obtain ⟨t, h1, h2⟩ := hx
      exact ⟨t, n + 1, by omega, by omega, h2⟩
    · have hx' : ∀ t, t ≤ n → f t ≠ f (n + 1) := fun t ht he => hx ⟨t, ht, he⟩
      obtain ⟨a, b, h1, h2, h3⟩ := ih (fun t => if f t > f (n + 1) then f t - 1 else f t) (by
        intro t ht
        have := hx' t ht
        have := h t (by omega)
        have := h (n + 1) (by omega)
        split <;> omega)
      refine ⟨a, b, h1, by omega, ?_⟩
      have ha := hx' a (by omega)
      have hb := hx' b (by omega)
      split at h3 <;> split at h3 <;> omega

/-- The link of a node. -/
def nextOf (nodes : List (UNode K V)) (o : Option Nat) : Option Nat :=
  o.bind (fun i => (nodes[i]?).bind (·.next))

/-- The place after `t` links. -/
def walk (nodes : List (UNode K V)) (s : Option Nat) : Nat → Option Nat
  | 0 => s
  | t + 1 => walk nodes (nextOf nodes s) t

theorem walk_succ (nodes : List (UNode K V)) (s : Option Nat) (t : Nat) :
    walk nodes s (t + 1) = nextOf nodes (walk nodes s t) := by
  induction t generalizing s with
  | zero => rfl
  | succ t ih =>
    rw [walk, ih]
    rfl

/-- If the first steps all meet `P` nodes then all steps do. -/
theorem walk_forever {nodes : List (UNode K V)} {s : Option Nat} {P : Nat → Prop}
    (h : ∀ t, t ≤ nodes.length → ∃ i, walk nodes s t = some i ∧ i < nodes.length ∧ P i) :
    ∀ t, ∃ i, walk nodes s t = some i ∧ i < nodes.length ∧ P i := by
  obtain ⟨a, b, h1, h2, h3⟩ := pigeonhole nodes.length (fun t => (walk nodes s t).getD 0) (by
    intro t ht
    obtain ⟨i, hi, hl, _⟩ := h t ht
    simp only [hi, Option.getD_some]
    exact hl)
  have hab : walk nodes s a = walk nodes s b := by
    obtain ⟨i, hi, _⟩ := h a (by omega)
    obtain ⟨j, hj, _⟩ := h b h2
    simp only [hi, hj, Option.getD_some] at h3
    rw [hi, hj, h3]
  have hshift : ∀ t, walk nodes s (a + t) = walk nodes s (b + t) := by
    intro t
    induction t with
    | zero => exact hab
    | succ t ih =>
      rw [← Nat.add_assoc, ← Nat.add_assoc, walk_succ, walk_succ, ih]
  intro t
  induction t using Nat.strongRecOn with
  | ind t ih =>
    by_cases ht : t ≤ nodes.length
    · exact h t ht
    · obtain ⟨c, hc⟩ : ∃ c, t = b + c := ⟨t - b, by omega⟩
      rw [hc, ← hshift c]
      exact ih (a + c) (by omega)

variable [DecidableEq K]

theorem findLoop_diverge_iff {nodes : List (UNode K V)} {k : K} {fuel : Nat} {s : Option Nat} :
    findLoop nodes k fuel s = .diverge ↔
      (∀ t, t < fuel → ∃ i, walk nodes s t = some i ∧ i < nodes.length ∧
        ∀ nd, nodes[i]? = some nd → nd.key ≠ k) ∧ walk nodes s fuel ≠ none := by
  induction fuel generalizing s with
  | zero =>
    cases s with
    | none => simp [findLoop, walk]
    | some i => simp [findLoop, walk]
  | succ fuel ih =>
    cases s with
    | none =>
      simp only [findLoop, reduceCtorEq, false_iff, not_and]
      intro h
      obtain ⟨i, hi, _⟩ := h 0 (by omega)
      simp [walk] at hi
    | some i =>
      simp only [findLoop]
      cases hn : nodes[i]? with
      | none =>
        simp only [readAt, hn, Res.bind_ub, reduceCtorEq, false_iff, not_and]
        intro h
        obtain ⟨j, hj, hl, _⟩ := h 0 (by omega)
        simp only [walk, Option.some.injEq] at hj
        subst hj
        simp at hn
        omega
      | some nd =>
        have hl := (List.getElem?_eq_some_iff.1 hn).1
        simp only [readAt, hn, Res.bind_ok]
        by_cases hk : nd.key = k
        · rw [if_pos hk]
          simp only [reduceCtorEq, false_iff, not_and]
          intro h
          obtain ⟨j, hj, _, hx⟩ := h 0 (by omega)
          simp only [walk, Option.some.injEq] at hj
          subst hj
          exact absurd hk (hx nd hn)
        · rw [if_neg hk, ih]
          have hnx : nextOf nodes (some i) = nd.next := by simp [nextOf, hn]
          constructor
          · rintro ⟨h1, h2⟩
            refine ⟨?_, by rw [walk, hnx]; exact h2⟩
            intro t ht
            cases t with
            | zero => exact ⟨i, rfl, hl, fun nd' h' => by rw [hn] at h'; cases h'; exact hk⟩
            | succ t =>
              rw [walk, hnx]
              exact h1 t (by omega)
          · rintro ⟨h1, h2⟩
            rw [walk, hnx] at h2
            refine ⟨?_, h2⟩
            intro t ht
            have := h1 (t + 1) (by omega)
            rwa [walk, hnx] at this

/-- If the look-up does not end within the given number of steps, it never ends. -/
theorem findLoop_never {nodes : List (UNode K V)} {k : K} {s : Option Nat}
    (h : findLoop nodes k (nodes.length + 1) s = .diverge) (fuel : Nat) : findLoop nodes k fuel s = .diverge := by
  obtain ⟨h1, _⟩ := findLoop_diverge_iff.1 h
  have h2 := walk_forever (P := fun i => ∀ nd : UNode K V, nodes[i]? = some nd → nd.key ≠ k)
    (fun t ht => h1 t (by omega))
  refine findLoop_diverge_iff.2 ⟨fun t _ => h2 t, ?_⟩
  obtain ⟨i, hi, _⟩ := h2 fuel
  rw [hi]
  simp

omit [DecidableEq K] in
theorem insertLoop_diverge_iff {nodes : List (UNode K V)} {new : Nat} {fuel : Nat} {s : Nat} :
    insertLoop nodes new fuel s = .diverge ↔
      (∀ t, t < fuel → ∃ i, walk nodes (some s) t = some i ∧ i < nodes.length ∧ True) ∧
        walk nodes (some s) fuel ≠ none := by
  induction fuel generalizing s with
  | zero => simp [insertLoop, walk]
  | succ fuel ih =>
    simp only [insertLoop]
    cases hn : nodes[s]? with
    | none =>
      simp only [readAt, hn, Res.bind_ub, reduceCtorEq, false_iff, not_and]
      intro h
      obtain ⟨j, hj, hl, _⟩ := h 0 (by omega)
      simp only [walk, Option.some.injEq] at hj
      subst hj
      simp at hn
      omega
    | some nd =>
      have hl := (List.getElem?_eq_some_iff.1 hn).1
      have hnx : nextOf nodes (some s) = nd.next := by simp [nextOf, hn]
      simp only [readAt, hn, Res.bind_ok]
      cases hx : nd.next with
      | none =>
        have : (do
            let nodes1 ← modifyAt nodes s (fun n => { n with next := some new })
            modifyAt nodes1 new (fun n => { n with prev := some s })) ≠ Res.diverge := by
          simp only [modifyAt, hn, Res.bind_ok]
          split <;> simp
        simp only [this, false_iff, not_and]
        intro _ h
        rw [walk, hnx, hx] at h
        apply h
        have : ∀ t, walk nodes none t = none := by
          intro t
          induction t with
          | zero => rfl
          | succ t ih => rw [walk]; exact ih
        exact this fuel
      | some j =>
        simp only
        rw [ih]
        rw [hx] at hnx
        constructor
        · rintro ⟨h1, h2⟩
          refine ⟨?_, by rw [walk, hnx]; exact h2⟩
          intro t ht
          cases t with
          | zero => exact ⟨s, rfl, hl, trivial⟩
          | succ t =>
            rw [walk, hnx]
            exact h1 t (by omega)
        · rintro ⟨h1, h2⟩
          rw [walk, hnx] at h2
          refine ⟨?_, h2⟩
          intro t ht
          have := h1 (t + 1) (by omega)
          rwa [walk, hnx] at this

omit [DecidableEq K] in
/-- If the search for the end of the chain does not end within the given number of steps, it never ends. -/
theorem insertLoop_never {nodes : List (UNode K V)} {new s : Nat}
    (h : insertLoop nodes new (nodes.length + 1) s = .diverge) (fuel : Nat) :
    insertLoop nodes new fuel s = .diverge := by
  obtain ⟨h1, _⟩ := insertLoop_diverge_iff.1 h
  have h2 := walk_forever (P := fun _ => True) (fun t ht => h1 t (by omega))
  refine insertLoop_diverge_iff.2 ⟨fun t _ => h2 t, ?_⟩
  obtain ⟨i, hi, _⟩ := h2 fuel
  rw [hi]
  simp

end UMap
end Coil
