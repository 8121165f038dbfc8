import Verif.Proofs.UMapRefine

/-!
# The map as it is against the repaired map

`erase` as it is leaves `prev` links behind that point to where the predecessor used to be. The two maps are the same up
to such stale links as long as no removal reads one.
-/

namespace Coil
open Spec

/-- Two computations end in the same way, with related results. -/
inductive RRel {α β : Type} (R : α → β → Prop) : Res α → Res β → Prop
  | ok {a : α} {b : β} : R a b → RRel R (.ok a) (.ok b)
  | ub {u : UB} : RRel R (.ub u) (.ub u)
  | diverge : RRel R .diverge .diverge

theorem RRel.bind {α β γ δ : Type} {R : α → β → Prop} {Q : γ → δ → Prop} {x : Res α} {y : Res β} {f : α → Res γ} {g : β → Res δ}
    (h : RRel R x y) (hf : ∀ a b, x = .ok a → y = .ok b → R a b → RRel Q (f a) (g b)) : RRel Q (x >>= f) (y >>= g) := by
  cases h with
  | ok h => exact hf _ _ rfl rfl h
  | ub => exact .ub
  | diverge => exact .diverge

theorem RRel.of_ok {α β : Type} {R : α → β → Prop} {x : Res α} {b : β} (h : RRel R x (.ok b)) : ∃ a, x = .ok a ∧ R a b := by
  cases h with
  | ok h => exact ⟨_, rfl, h⟩

namespace UMap

variable {K V : Type}

/-- Equal up to a stale `prev` link; `exact` excludes a stale link. A stale link points further than the right one. -/
structure NRel (exact : Prop) (a b : UNode K V) : Prop where
  key : a.key = b.key
  value : a.value = b.value
  bucket : a.bucket = b.bucket
  next : a.next = b.next
  prev : a.prev = b.prev ∨ (¬ exact ∧ ∃ x y, a.prev = some x ∧ b.prev = some y ∧ y < x)

/-- Equal node vectors up to stale links; no stale links at the indices in `E`. -/
structure LRel (E : Nat → Prop) (l l' : List (UNode K V)) : Prop where
  len : l.length = l'.length
  get : ∀ (j : Nat) (a b : UNode K V), l[j]? = some a → l'[j]? = some b → NRel (E j) a b

/-- Equal maps up to stale links. -/
structure MRel (E : Nat → Prop) (m m' : UMap K V) : Prop where
  buckets : m.buckets = m'.buckets
  nodes : LRel E m.nodes m'.nodes

theorem LRel.some {E : Nat → Prop} {l l' : List (UNode K V)} (h : LRel E l l') {j : Nat} {b : UNode K V} (hb : l'[j]? = Option.some b) :
    ∃ a, l[j]? = Option.some a ∧ NRel (E j) a b := by
  have hj := (List.getElem?_eq_some_iff.1 hb).1
  have ha : l[j]? = Option.some (l[j]'(by rw [h.len]; exact hj)) := by simp
  exact ⟨_, ha, h.get j _ _ ha hb⟩

theorem LRel.some' {E : Nat → Prop} {l l' : List (UNode K V)} (h : LRel E l l') {j : Nat} {a : UNode K V} (ha : l[j]? = Option.some a) :
    ∃ b, l'[j]? = Option.some b ∧ NRel (E j) a b := by
  have hj := (List.getElem?_eq_some_iff.1 ha).1
  have hb : l'[j]? = Option.some (l'[j]'(by rw [← h.len]; exact hj)) := by simp
  exact ⟨_, hb, h.get j _ _ ha hb⟩

theorem LRel.none {E : Nat → Prop} {l l' : List (UNode K V)} (h : LRel E l l') {j : Nat} :
    l[j]? = Option.none ↔ l'[j]? = Option.none := by
  rw [List.getElem?_eq_none_iff, List.getElem?_eq_none_iff, h.len]

theorem LRel.mono {E E' : Nat → Prop} {l l' : List (UNode K V)} (h : LRel E l l') (hE : ∀ j, E' j → E j) : LRel E' l l' :=
  ⟨h.len, fun j a b ha hb =>
    have r := h.get j a b ha hb
    ⟨r.key, r.value, r.bucket, r.next, r.prev.imp id (fun ⟨x, y⟩ => ⟨fun e => x (hE j e), y⟩)⟩⟩

theorem readAt_rel {E : Nat → Prop} {l l' : List (UNode K V)} (h : LRel E l l') (i : Nat) :
    RRel (NRel (E i)) (readAt l i) (readAt l' i) := by
  cases hl : l'[i]? with
  | none =>
    have := h.none.2 hl
    simp [readAt, hl, this]
    exact .ub
  | some b =>
    obtain ⟨a, ha, hr⟩ := h.some hl
    rw [readAt_ok ha, readAt_ok hl]
    exact .ok hr

theorem modifyAt_rel {E E' : Nat → Prop} {l l' : List (UNode K V)} (h : LRel E l l') {i : Nat} {f g : UNode K V → UNode K V}
    (hE : ∀ j, j ≠ i → E' j → E j) (hf : ∀ a b, NRel (E i) a b → NRel (E' i) (f a) (g b)) :
    RRel (LRel E') (modifyAt l i f) (modifyAt l' i g) := by
  cases hl : l'[i]? with
  | none =>
    have := h.none.2 hl
    simp only [modifyAt, hl, this]
    exact .ub
  | some b =>
    obtain ⟨a, ha, hr⟩ := h.some hl
    rw [modifyAt_ok ha, modifyAt_ok hl]
    refine .ok ⟨by simp [h.len], fun j x y hx hy => ?_⟩
    rw [get_set ha] at hx
    rw [get_set hl] at hy
    by_cases hj : j = i
    · subst hj
      simp at hx hy
      subst hx hy
      exact hf a b hr
    · simp only [hj, if_false] at hx hy
      have r := h.get j x y hx hy
      exact ⟨r.key, r.value, r.bucket, r.next, r.prev.imp id (fun ⟨u, v⟩ => ⟨fun e => u (hE j hj e), v⟩)⟩

theorem writeAt_rel {E E' : Nat → Prop} {l l' : List (UNode K V)} (h : LRel E l l') {i : Nat} {a b : UNode K V}
    (hE : ∀ j, j ≠ i → E' j → E j) (hab : NRel (E' i) a b) :
    RRel (LRel E') (writeAt l i a) (writeAt l' i b) := by
  unfold writeAt
  by_cases hi : i < l.length
  · have hi' : i < l'.length := by rw [← h.len]; exact hi
    rw [if_pos hi, if_pos hi']
    refine .ok ⟨by simp [h.len], fun j x y hx hy => ?_⟩
    rw [List.getElem?_set] at hx hy
    by_cases hj : i = j
    · subst hj
      simp [hi] at hx
      simp [hi'] at hy
      subst hx hy
      exact hab
    · simp only [hj, if_false] at hx hy
      have r := h.get j x y hx hy
      exact ⟨r.key, r.value, r.bucket, r.next, r.prev.imp id (fun ⟨u, v⟩ => ⟨fun e => u (hE j (Ne.symm hj) e), v⟩)⟩
  · have hi' : ¬ i < l'.length := by rw [← h.len]; exact hi
    rw [if_neg hi, if_neg hi']
    exact .ub

theorem LRel.dropLast {E : Nat → Prop} {l l' : List (UNode K V)} (h : LRel E l l') : LRel E l.dropLast l'.dropLast := by
  refine ⟨by simp [h.len], fun j a b ha hb => ?_⟩
  rw [List.getElem?_dropLast] at ha hb
  split at ha
  · split at hb
    · exact h.get j a b ha hb
    · simp at hb
  · simp at ha

theorem LRel.snoc {E : Nat → Prop} {l l' : List (UNode K V)} (h : LRel E l l') (n : UNode K V) : LRel E (l ++ [n]) (l' ++ [n]) := by
  refine ⟨by simp [h.len], fun j a b ha hb => ?_⟩
  rw [List.getElem?_append] at ha hb
  rw [h.len] at ha
  split at ha
  · rename_i hj
    rw [if_pos hj] at hb
    exact h.get j a b ha hb
  · rename_i hj
    rw [if_neg hj] at hb
    rw [ha] at hb
    cases hb
    exact ⟨rfl, rfl, rfl, rfl, .inl rfl⟩

/-! ## Operations that do not read `prev` -/

section
variable [DecidableEq K] {hash : K → Nat}

theorem findLoop_rel {E : Nat → Prop} {l l' : List (UNode K V)} (h : LRel E l l') (k : K) (fuel : Nat) :
    ∀ s : Option Nat, findLoop l k fuel s = findLoop l' k fuel s := by
  induction fuel with
  | zero => intro s; cases s <;> rfl
  | succ fuel ih =>
    intro s
    cases s with
    | none => rfl
    | some i =>
      simp only [findLoop]
      have := readAt_rel h i
      cases hr : readAt l' i with
      | ok b =>
        rw [hr] at this
        obtain ⟨a, ha, r⟩ := this.of_ok
        rw [ha]
        simp only [Res.bind_ok, r.key, r.next, ih]
      | ub u =>
        rw [hr] at this
        cases hx : readAt l i with
        | ok a => rw [hx] at this; cases this
        | ub w => rw [hx] at this; cases this; rfl
        | diverge => rw [hx] at this; cases this
      | diverge =>
        rw [hr] at this
        cases hx : readAt l i with
        | ok a => rw [hx] at this; cases this
        | ub w => rw [hx] at this; cases this
        | diverge => rfl

theorem findIndex_rel {E : Nat → Prop} {m m' : UMap K V} (h : MRel E m m') (k : K) : findIndex hash m k = findIndex hash m' k := by
  simp only [findIndex, bucketOf, h.buckets, h.nodes.len]
  split
  · rfl
  · simp only [Res.bind_ok]
    congr 1
    funext first
    exact findLoop_rel h.nodes k _ _

omit [DecidableEq K] in
theorem entries_rel {E : Nat → Prop} {m m' : UMap K V} (h : MRel E m m') : m.entries = m'.entries := by
  apply List.ext_getElem?
  intro j
  rw [entries_get, entries_get]
  cases hl : m'.nodes[j]? with
  | none => rw [h.nodes.none.2 hl]
  | some b =>
    obtain ⟨a, ha, r⟩ := h.nodes.some hl
    rw [ha]
    simp [entry, r.key, r.value]

theorem find_rel {E : Nat → Prop} {m m' : UMap K V} (h : MRel E m m') (k : K) : find hash m k = find hash m' k := by
  simp only [find, findIndex_rel h]
  cases findIndex hash m' k with
  | ok o =>
    cases o with
    | none => rfl
    | some i =>
      simp only [Res.bind_ok]
      cases hl : m'.nodes[i]? with
      | none => simp [readAt, hl, h.nodes.none.2 hl]
      | some b =>
        obtain ⟨a, ha, r⟩ := h.nodes.some hl
        rw [readAt_ok ha, readAt_ok hl]
        simp [r.value]
  | ub u => rfl
  | diverge => rfl

omit [DecidableEq K] in
theorem insertLoop_rel (new : Nat) (fuel : Nat) : ∀ (i : Nat) (l l' : List (UNode K V)), LRel (fun _ => False) l l' →
    RRel (LRel (fun _ => False)) (insertLoop l new fuel i) (insertLoop l' new fuel i) := by
  induction fuel with
  | zero => intro i l l' h; exact .diverge
  | succ fuel ih =>
    intro i l l' h
    simp only [insertLoop]
    refine RRel.bind (readAt_rel h i) (fun a b _ _ r => ?_)
    rw [r.next]
    cases b.next with
    | none =>
      simp only
      refine RRel.bind (modifyAt_rel h (E' := fun _ => False) (by simp) ?_) (fun l1 l1' _ _ h1 => ?_)
      · intro x y q
        exact ⟨q.key, q.value, q.bucket, rfl, q.prev⟩
      · refine modifyAt_rel h1 (by simp) ?_
        intro x y q
        exact ⟨q.key, q.value, q.bucket, q.next, .inl rfl⟩
    | some j => exact ih j l l' h

omit [DecidableEq K] in
theorem insertNode_rel {m m' : UMap K V} (h : MRel (fun _ => False) m m') (new : Nat) :
    RRel (MRel (fun _ => False)) (insertNode hash m new) (insertNode hash m' new) := by
  simp only [insertNode]
  refine RRel.bind (readAt_rel h.nodes new) (fun a b _ _ r => ?_)
  simp only [bucketOf, h.buckets, r.key]
  split
  · exact .ub
  · simp only [Res.bind_ok]
    refine RRel.bind (modifyAt_rel h.nodes (E' := fun _ => False) (by simp) ?_) (fun l1 l1' _ _ h1 => ?_)
    · intro x y q
      exact ⟨q.key, q.value, rfl, rfl, .inl rfl⟩
    · cases readAt m'.buckets (hash b.key % m'.buckets.length) with
      | ok first =>
        simp only [Res.bind_ok]
        cases first with
        | none =>
          simp only
          cases writeAt m'.buckets (hash b.key % m'.buckets.length) (some new) with
          | ok bs => exact .ok ⟨rfl, h1⟩
          | ub u => exact .ub
          | diverge => exact .diverge
        | some f =>
          simp only [h1.len]
          exact RRel.bind (insertLoop_rel new _ f l1 l1' h1) (fun l2 l2' _ _ h2 => .ok ⟨rfl, h2⟩)
      | ub u => exact .ub
      | diverge => exact .diverge

omit [DecidableEq K] in
theorem rehashLoop_rel (count : Nat) : ∀ (i : Nat) (m m' : UMap K V), MRel (fun _ => False) m m' →
    RRel (MRel (fun _ => False)) (rehashLoop hash count i m) (rehashLoop hash count i m') := by
  induction count with
  | zero => intro i m m' h; exact .ok h
  | succ count ih =>
    intro i m m' h
    exact RRel.bind (insertNode_rel h i) (fun m1 m1' _ _ h1 => ih _ m1 m1' h1)

theorem insertOrAssign_rel {exceeds : Nat → Nat → Bool} {m m' : UMap K V} (h : MRel (fun _ => False) m m') (k : K) (v : V) :
    RRel (MRel (fun _ => False)) (insertOrAssign hash exceeds m k v) (insertOrAssign hash exceeds m' k v) := by
  simp only [insertOrAssign, findIndex_rel h]
  cases findIndex hash m' k with
  | ok o =>
    simp only [Res.bind_ok]
    cases o with
    | some i =>
      refine RRel.bind (modifyAt_rel h.nodes (E' := fun _ => False) (by simp) ?_) (fun l1 l1' _ _ h1 => .ok ⟨h.buckets, h1⟩)
      intro x y q
      exact ⟨q.key, rfl, q.bucket, q.next, q.prev⟩
    | none =>
      simp only
      have hg : RRel (MRel (fun _ => False)) (growIfNeeded hash exceeds m) (growIfNeeded hash exceeds m') := by
        simp only [growIfNeeded, h.buckets, h.nodes.len, rehash]
        split
        · exact rehashLoop_rel _ _ _ _ ⟨rfl, h.nodes⟩
        · exact .ok h
      refine RRel.bind hg (fun m1 m1' _ _ h1 => ?_)
      rw [h1.nodes.len]
      exact insertNode_rel (m := ⟨m1.buckets, m1.nodes ++ [_]⟩) (m' := ⟨m1'.buckets, m1'.nodes ++ [_]⟩) ⟨h1.buckets, h1.nodes.snoc _⟩ _
  | ub u => exact .ub
  | diverge => exact .diverge

end

/-! ## Removal -/

theorem NRel.prev_eq {a b : UNode K V} {E : Prop} (h : NRel E a b) (he : E) : a.prev = b.prev := by
  rcases h.prev with h | ⟨h, _⟩
  · exact h
  · exact absurd he h

theorem modifyAt_get {l l' : List (UNode K V)} {p : Nat} {f : UNode K V → UNode K V} (h : modifyAt l p f = .ok l') (j : Nat) :
    l'[j]? = if j = p then (l[j]?).map f else l[j]? := by
  unfold modifyAt at h
  split at h
  · rename_i a ha
    cases h
    rw [get_set ha]
    by_cases hj : j = p
    · subst hj
      simp [ha]
    · simp [hj]
  · simp at h

theorem unlink_rel {E : Nat → Prop} {m m' : UMap K V} (h : MRel E m m') {i : Nat} (hi : E i) {E' : Nat → Prop}
    (hE : ∀ j, E' j → E j ∨ ∃ e, m'.nodes[i]? = some e ∧ e.next = some j) :
    RRel (MRel E') (unlink m i) (unlink m' i) := by
  -- the part after the first write
  have tail : ∀ (bs : List (Option Nat)) (l l' : List (UNode K V)), LRel E l l' →
      (∀ e e', m'.nodes[i]? = some e → l'[i]? = some e' → e'.next = e.next) →
      RRel (MRel E') (do
        let e1 ← readAt l i
        let nodes2 ← match e1.next with
          | some q => modifyAt l q (fun n => { n with prev := e1.prev })
          | none => Res.ok l
        let nodes3 ← modifyAt nodes2 i (fun n => { n with prev := none, next := none })
        .ok (⟨bs, nodes3⟩ : UMap K V)) (do
        let e1 ← readAt l' i
        let nodes2 ← match e1.next with
          | some q => modifyAt l' q (fun n => { n with prev := e1.prev })
          | none => Res.ok l'
        let nodes3 ← modifyAt nodes2 i (fun n => { n with prev := none, next := none })
        .ok (⟨bs, nodes3⟩ : UMap K V)) := by
    intro bs l l' hl hnext
    refine RRel.bind (readAt_rel hl i) (fun a b _ hb r => ?_)
    have hb' : l'[i]? = some b := by
      unfold readAt at hb
      split at hb
      · cases hb; assumption
      · simp at hb
    have fin : ∀ (l2 l2' : List (UNode K V)) (E2 : Nat → Prop), LRel E2 l2 l2' → (∀ j, j ≠ i → E' j → E2 j) → RRel (MRel E') (do
        let nodes3 ← modifyAt l2 i (fun n => { n with prev := none, next := none })
        .ok (⟨bs, nodes3⟩ : UMap K V)) (do
        let nodes3 ← modifyAt l2' i (fun n => { n with prev := none, next := none })
        .ok (⟨bs, nodes3⟩ : UMap K V)) := by
      intro l2 l2' E2 h2 hE2
      refine RRel.bind (modifyAt_rel h2 (E' := E') hE2 ?_) (fun x y _ _ hxy => .ok ⟨rfl, hxy⟩)
      intro x y q
      exact ⟨q.key, q.value, q.bucket, rfl, .inl rfl⟩
    rw [r.next]
    cases hn : b.next with
    | none =>
      simp only [Res.bind_ok]
      refine fin l l' E hl (fun j hj hj' => ?_)
      rcases hE j hj' with h1 | ⟨e, he, hx⟩
      · exact h1
      · have := hnext e b he hb'
        rw [hn, hx] at this
        simp at this
    | some q =>
      simp only
      refine RRel.bind (modifyAt_rel hl (E' := fun j => E j ∨ j = q) ?_ ?_) (fun x y _ _ hxy => fin x y _ hxy ?_)
      · intro j hj hj'
        exact hj'.resolve_right hj
      · intro x y z
        exact ⟨z.key, z.value, z.bucket, z.next, .inl (r.prev_eq hi)⟩
      · intro j hj hj'
        rcases hE j hj' with h1 | ⟨e, he, hx⟩
        · exact .inl h1
        · have := hnext e b he hb'
          rw [hn, hx] at this
          simp at this
          exact .inr this.symm
  unfold unlink
  refine RRel.bind (readAt_rel h.nodes i) (fun a b _ hb r => ?_)
  have hb' : m'.nodes[i]? = some b := by
    unfold readAt at hb
    split at hb
    · cases hb; assumption
    · simp at hb
  rw [r.prev_eq hi]
  cases hp : b.prev with
  | some p =>
    simp only [r.next]
    refine RRel.bind (modifyAt_rel h.nodes (E' := E) (fun j _ e => e) ?_) (fun l l' _ hl' hl => ?_)
    · intro x y z
      exact ⟨z.key, z.value, z.bucket, rfl, z.prev⟩
    · simp only [Res.bind_ok, h.buckets]
      refine tail _ l l' hl ?_
      intro e e' he he'
      rw [modifyAt_get hl'] at he'
      rw [hb'] at he
      cases he
      by_cases hip : i = p
      · rw [if_pos hip, hb'] at he'
        simp at he'
        rw [← he']
      · rw [if_neg hip, hb'] at he'
        cases he'
        rfl
  | none =>
    simp only [r.next, r.bucket, h.buckets]
    cases setBucket m'.buckets b.bucket b.next with
    | ok bs =>
      simp only [Res.bind_ok]
      refine tail _ _ _ h.nodes ?_
      intro e e' he he'
      rw [he] at he'
      cases he'
      rfl
    | ub u => exact .ub
    | diverge => exact .diverge

theorem fillHole_rel {E : Nat → Prop} {m m' : UMap K V} (h : MRel E m m') {i : Nat} (hi : i < m'.nodes.length)
    (hlast : i ≠ m'.nodes.length - 1 → E (m'.nodes.length - 1))
    (hq : i ≠ m'.nodes.length - 1 → ∀ l, m'.nodes[m'.nodes.length - 1]? = some l → l.prev ≠ some (m'.nodes.length - 1) ∧
      ∀ q, l.next = some q → ∃ nq, m'.nodes[q]? = some nq ∧ nq.prev = some (m'.nodes.length - 1)) :
    RRel (MRel (fun _ => False)) (fillHole false m i) (fillHole true m' i) := by
  unfold fillHole
  rw [h.nodes.len]
  by_cases hne : i ≠ m'.nodes.length - 1
  · rw [if_pos hne, if_pos hne]
    have hE := hlast hne
    have hil : i < m'.nodes.length - 1 := by omega
    -- the part after the first write
    have tail : ∀ (bs : List (Option Nat)) (l l' : List (UNode K V)), LRel E l l' →
        (∀ e', l'[m'.nodes.length - 1]? = some e' → ∃ e, m'.nodes[m'.nodes.length - 1]? = some e ∧ e'.next = e.next) →
        (∀ (j : Nat) (e : UNode K V), m'.nodes[j]? = some e → ∃ e' : UNode K V, l'[j]? = some e' ∧ e'.prev = e.prev) →
        RRel (MRel (fun _ => False)) (do
          let l1 ← readAt l (m'.nodes.length - 1)
          let nodes2 ← relinkNext false l l1.next i
          let e ← readAt nodes2 i
          let l2 ← readAt nodes2 (m'.nodes.length - 1)
          let nodes3 ← writeAt nodes2 i l2
          let nodes4 ← writeAt nodes3 (m'.nodes.length - 1) e
          .ok (⟨bs, nodes4.dropLast⟩ : UMap K V)) (do
          let l1 ← readAt l' (m'.nodes.length - 1)
          let nodes2 ← relinkNext true l' l1.next i
          let e ← readAt nodes2 i
          let l2 ← readAt nodes2 (m'.nodes.length - 1)
          let nodes3 ← writeAt nodes2 i l2
          let nodes4 ← writeAt nodes3 (m'.nodes.length - 1) e
          .ok (⟨bs, nodes4.dropLast⟩ : UMap K V)) := by
      intro bs l l' hl hnext hprev
      refine RRel.bind (readAt_rel hl _) (fun a b _ hb r => ?_)
      have hb' : l'[m'.nodes.length - 1]? = some b := by
        unfold readAt at hb
        split at hb
        · cases hb; assumption
        · simp at hb
      have hrel : RRel (LRel (fun _ => False)) (relinkNext false l a.next i) (relinkNext true l' b.next i) := by
        rw [r.next]
        cases hn : b.next with
        | none =>
          simp only [relinkNext]
          exact .ok (hl.mono (by simp))
        | some q =>
          simp only [relinkNext]
          obtain ⟨e, he, hen⟩ := hnext b hb'
          obtain ⟨nq, hnq, hnp⟩ := (hq hne e he).2 q (by rw [← hen, hn])
          obtain ⟨nq', hnq', hnp'⟩ := hprev q nq hnq
          rw [modifyAt_ok hnq']
          refine .ok ⟨by simp [hl.len], fun j x y hx hy => ?_⟩
          rw [get_set hnq'] at hy
          by_cases hj : j = q
          · subst hj
            simp at hy
            subst hy
            have z := hl.get j x nq' hx hnq'
            refine ⟨z.key, z.value, z.bucket, z.next, .inr ⟨id, ?_⟩⟩
            rw [hnp] at hnp'
            rcases z.prev with z1 | ⟨_, u, w, z1, z2, z3⟩
            · exact ⟨_, i, by rw [z1, hnp'], rfl, hil⟩
            · rw [hnp'] at z2
              cases z2
              exact ⟨u, i, z1, rfl, by omega⟩
          · rw [if_neg hj] at hy
            have z := hl.get j x y hx hy
            exact ⟨z.key, z.value, z.bucket, z.next, z.prev.imp id (fun ⟨_, s⟩ => ⟨id, s⟩)⟩
      refine RRel.bind hrel (fun l2 l2' _ _ h2 => ?_)
      refine RRel.bind (readAt_rel h2 i) (fun e e' _ _ re => ?_)
      refine RRel.bind (readAt_rel h2 _) (fun z z' _ _ rz => ?_)
      refine RRel.bind (writeAt_rel h2 (E' := fun _ => False) (by simp) rz) (fun l3 l3' _ _ h3 => ?_)
      exact RRel.bind (writeAt_rel h3 (E' := fun _ => False) (by simp) re) (fun l4 l4' _ _ h4 => .ok ⟨rfl, h4.dropLast⟩)
    simp only
    refine RRel.bind (readAt_rel h.nodes _) (fun a b _ hb r => ?_)
    have hb' : m'.nodes[m'.nodes.length - 1]? = some b := by
      unfold readAt at hb
      split at hb
      · cases hb; assumption
      · simp at hb
    rw [r.prev_eq hE]
    cases hp : b.prev with
    | some p =>
      simp only
      refine RRel.bind (modifyAt_rel h.nodes (E' := E) (fun j _ e => e) ?_) (fun l l' _ hl' hl => ?_)
      · intro x y z
        exact ⟨z.key, z.value, z.bucket, rfl, z.prev⟩
      · simp only [Res.bind_ok, h.buckets]
        refine tail _ l l' hl ?_ ?_
        · intro e' he'
          have hpl : m'.nodes.length - 1 ≠ p := by
            intro hc
            exact (hq hne b hb').1 (by rw [hp, ← hc])
          rw [modifyAt_get hl', if_neg hpl] at he'
          exact ⟨e', he', rfl⟩
        · intro j e he
          rw [modifyAt_get hl']
          by_cases hj : j = p
          · rw [if_pos hj, he]
            exact ⟨_, rfl, rfl⟩
          · rw [if_neg hj, he]
            exact ⟨_, rfl, rfl⟩
    | none =>
      simp only [r.bucket, h.buckets]
      cases setBucket m'.buckets b.bucket (some i) with
      | ok bs =>
        simp only [Res.bind_ok]
        exact tail _ _ _ h.nodes (fun e he => ⟨e, he, rfl⟩) (fun j e he => ⟨e, he, rfl⟩)
      | ub u => exact .ub
      | diverge => exact .diverge
  · rw [if_neg hne, if_neg hne]
    exact .ok ⟨h.buckets, (h.nodes.mono (by simp)).dropLast⟩

/-- The `prev` link of a node, if there is one, leads to a node whose `next` link leads back. -/
def LinkRight (m : UMap K V) (j : Nat) : Prop :=
  ∀ (nd : UNode K V) (p : Nat), m.nodes[j]? = some nd → nd.prev = some p → ∃ np : UNode K V, m.nodes[p]? = some np ∧ np.next = some j

theorem MRel.right {hash : K → Nat} {m m' : UMap K V} (h : MRel (fun _ => False) m m') (w : WF hash m') : MRel (LinkRight m) m m' := by
  refine ⟨h.buckets, h.nodes.len, fun j a b ha hb => ?_⟩
  have r := h.nodes.get j a b ha hb
  refine ⟨r.key, r.value, r.bucket, r.next, ?_⟩
  rcases r.prev with h1 | ⟨_, x, y, h1, h2, h3⟩
  · exact .inl h1
  · refine .inr ⟨fun hr => ?_, x, y, h1, h2, h3⟩
    obtain ⟨np, hp, hn⟩ := hr a x ha h1
    obtain ⟨np', hp', r'⟩ := h.nodes.some' hp
    have := (w.next x j np' (List.getElem?_eq_some_iff.1 hp').1 hp' (by rw [← r'.next, hn])).2 b hb
    rw [h2] at this
    simp at this
    omega

section
variable [DecidableEq K]

/-- The links that the removal of `k` reads are right: the one of the removed node and, if another node is moved into its place, the one
of that node (unless the removal itself rewrites it). -/
def RemovalOk (hash : K → Nat) (m : UMap K V) (k : K) : Prop :=
  ∀ (i : Nat) (nd : UNode K V), findIndex hash m k = .ok (some i) → m.nodes[i]? = some nd →
    LinkRight m i ∧ (i = m.nodes.length - 1 ∨ nd.next = some (m.nodes.length - 1) ∨ LinkRight m (m.nodes.length - 1))

theorem erase_rel {hash : K → Nat} {m m' : UMap K V} (h : MRel (fun _ => False) m m') (w : WF hash m') {k : K}
    (hok : RemovalOk hash m k) :
    RRel (MRel (fun _ => False)) (eraseWith hash false m k) (eraseWith hash true m' k) := by
  unfold eraseWith
  rw [findIndex_rel h]
  rcases findIndex_spec w k with ⟨i, nd, h1, h2, h3⟩ | ⟨h1, h2⟩
  · obtain ⟨nd0, h20, r0⟩ := h.nodes.some h2
    obtain ⟨k1, k2⟩ := hok i nd0 (by rw [findIndex_rel h, h1]) h20
    have hi : i < m'.nodes.length := (List.getElem?_eq_some_iff.1 h2).1
    obtain ⟨m1, u1, u2, u3, u4, u5⟩ := unlink_spec w h2
    have w1 := unlink_wf w h2 u2 u3 u4 u5
    have hu := unlink_rel (h.right w) k1 (E' := fun j => LinkRight m j ∨ ∃ e, m'.nodes[i]? = some e ∧ e.next = some j) (fun j hj => hj)
    simp only [h1, Res.bind_ok]
    refine RRel.bind hu (fun a b _ hb r => ?_)
    rw [u1] at hb
    cases hb
    refine fillHole_rel r (by rw [u2]; exact hi) ?_ ?_
    · intro hne
      rw [u2] at hne ⊢
      rw [h.nodes.len] at k2
      rcases k2 with k2 | k2 | k2
      · exact absurd k2 hne
      · exact .inr ⟨nd, h2, by rw [← r0.next]; exact k2⟩
      · exact .inl k2
    · intro hne l hl
      rw [u2] at hne hl ⊢
      have hS : m'.nodes.length - 1 < m'.nodes.length ∧ m'.nodes.length - 1 ≠ i := by omega
      obtain ⟨f1, f2⟩ := rank_facts w1 hS hl
      refine ⟨fun hp => (f1 _ hp).1 rfl, fun q hq => ?_⟩
      obtain ⟨g1, g2⟩ := w1.next _ q l hS hl hq
      obtain ⟨nq, hnq⟩ := w1.get g1
      exact ⟨nq, hnq, (g2 nq hnq).1⟩
  · simp only [h1, Res.bind_ok]
    exact .ok h

/-- Every removal of the history, run on the map as it is, reads right links only. -/
def LinksOk (hash : K → Nat) (exceeds : Nat → Nat → Bool) : UMap K V → List (DictOp K V) → Prop
  | _, [] => True
  | m, op :: ops => (∀ k, op = .erase k → RemovalOk hash m k) ∧
    ∀ m', applyOp false hash exceeds m op = .ok m' → LinksOk hash exceeds m' ops

theorem run_rel {hash : K → Nat} {exceeds : Nat → Nat → Bool} (hex : ∀ b, 0 < b → exceeds 1 b = false) {m m' : UMap K V} {ph : Phase}
    (h : MRel (fun _ => False) m m') (g : Good hash ph m') {d : K → Option V} (hd : Lists m'.entries d) (ops : List (DictOp K V))
    (hok : LinksOk hash exceeds m ops) :
    ∃ n n' ph', runOps false hash exceeds m ops = .ok n ∧ runOps true hash exceeds m' ops = .ok n' ∧ MRel (fun _ => False) n n' ∧
      Good hash ph' n' := by
  induction ops generalizing m m' ph d with
  | nil => exact ⟨m, m', ph, rfl, rfl, h, g⟩
  | cons op ops ih =>
    obtain ⟨m1', s1, s2, s3⟩ := step_spec hex (fixed := true) g hd.1 op (.inl rfl)
    have hr : RRel (MRel (fun _ => False)) (applyOp false hash exceeds m op) (applyOp true hash exceeds m' op) := by
      cases op with
      | put k v => exact insertOrAssign_rel h k v
      | erase k => exact erase_rel h g.wf (hok.1 k rfl)
      | clear =>
        refine .ok ⟨by simp [clear, h.buckets], ⟨rfl, ?_⟩⟩
        intro j a b ha
        simp [clear] at ha
    rw [s1] at hr
    obtain ⟨m1, t1, t2⟩ := hr.of_ok
    obtain ⟨n, n', ph', q1, q2, q3, q4⟩ := ih t2 s2 (d := dictStep d op) (by rw [s3]; exact lists_step hd op) (hok.2 m1 t1)
    exact ⟨n, n', ph', by simp only [runOps, t1, Res.bind_ok, q1], by simp only [runOps, s1, Res.bind_ok, q2], q3, q4⟩

end

end UMap
end Coil
