import Verif.Proofs.UMapErase
import Verif.Spec.Dict

/-! # Refinement: the map is a dictionary -/

namespace Coil
open Spec
namespace UMap

variable {K V : Type} [DecidableEq K]

/-- One operation on the map. -/
def applyOp (fixed : Bool) (hash : K → Nat) (exceeds : Nat → Nat → Bool) (m : UMap K V) : DictOp K V → Res (UMap K V)
  | .put k v => insertOrAssign hash exceeds m k v
  | .erase k => eraseWith hash fixed m k
  | .clear => .ok (clear m)

/-- A history of operations. -/
def runOps (fixed : Bool) (hash : K → Nat) (exceeds : Nat → Nat → Bool) :
    UMap K V → List (DictOp K V) → Res (UMap K V)
  | m, [] => .ok m
  | m, op :: ops => do
    let m' ← applyOp fixed hash exceeds m op
    runOps fixed hash exceeds m' ops

/-! ## Order and dictionary -/

omit [DecidableEq K] in
theorem lists_nil : Lists ([] : List (K × V)) (fun _ => none) := by
  refine ⟨by simp, by simp⟩

omit [DecidableEq K] in
theorem mem_keys_iff {l : List (K × V)} {d : K → Option V} (h : Lists l d) (k : K) :
    k ∈ l.map Prod.fst ↔ (d k).isSome := by
  constructor
  · intro hk
    obtain ⟨⟨k', v⟩, hm, rfl⟩ := List.mem_map.1 hk
    have := (h.2 k' v).1 hm
    simp [this]
  · intro hs
    obtain ⟨v, hv⟩ := Option.isSome_iff_exists.1 hs
    exact List.mem_map.2 ⟨(k, v), (h.2 k v).2 hv, rfl⟩

theorem nodup_map_replace {l : List (K × V)} {k : K} {z : K × V}
    (h : (l.map Prod.fst).Nodup) (hz : z.1 = k ∨ z.1 ∉ l.map Prod.fst) :
    ((l.map (fun p => if p.1 = k then z else p)).map Prod.fst).Nodup := by
  induction l with
  | nil => simp
  | cons p l ih =>
    simp only [List.map_cons, List.nodup_cons] at h
    have ihh := ih h.2 (hz.imp id (fun hn hm => hn (by simp only [List.map_cons]; exact List.mem_cons_of_mem _ hm)))
    simp only [List.map_cons, List.nodup_cons]
    refine ⟨?_, ihh⟩
    intro hm
    obtain ⟨q, hq, hqe⟩ := List.mem_map.1 hm
    obtain ⟨q0, hq0, rfl⟩ := List.mem_map.1 hq
    have hq0m : q0.1 ∈ l.map Prod.fst := List.mem_map_of_mem hq0
    by_cases h1 : p.1 = k
    · by_cases h2 : q0.1 = k
      · exact h.1 (by rw [h1, ← h2]; exact hq0m)
      · simp only [h1, h2, if_true, if_false] at hqe
        rcases hz with hz | hz
        · exact h2 (by rw [hqe, hz])
        · exact hz (by rw [← hqe]; exact List.mem_cons_of_mem _ hq0m)
    · by_cases h2 : q0.1 = k
      · simp only [h1, h2, if_true, if_false] at hqe
        rcases hz with hz | hz
        · exact h1 (by rw [← hqe, hz])
        · exact hz (by rw [hqe]; simp)
      · simp only [h1, h2, if_false] at hqe
        exact h.1 (by rw [← hqe]; exact hq0m)

theorem lists_step {l : List (K × V)} {d : K → Option V} (h : Lists l d) (op : DictOp K V) :
    Lists (orderStep l op) (dictStep d op) := by
  cases op with
  | put k v =>
    simp only [orderStep, dictStep]
    by_cases hk : k ∈ l.map Prod.fst
    · rw [if_pos hk]
      refine ⟨nodup_map_replace h.1 (.inl rfl), ?_⟩
      intro k' v'
      constructor
      · intro hm
        obtain ⟨q, hq, hqe⟩ := List.mem_map.1 hm
        by_cases h2 : q.1 = k
        · rw [if_pos h2] at hqe
          cases hqe
          simp
        · rw [if_neg h2] at hqe
          subst hqe
          have : k' ≠ k := h2
          simp only [this, if_false]
          exact (h.2 _ _).1 hq
      · intro hd
        by_cases h2 : k' = k
        · subst h2
          simp at hd
          subst hd
          obtain ⟨q, hq, hqe⟩ := List.mem_map.1 hk
          exact List.mem_map.2 ⟨q, hq, by rw [if_pos hqe]⟩
        · simp only [h2, if_false] at hd
          exact List.mem_map.2 ⟨(k', v'), (h.2 _ _).2 hd, by simp [h2]⟩
    · rw [if_neg hk]
      refine ⟨?_, ?_⟩
      · rw [List.map_append, List.nodup_append]
        refine ⟨h.1, by simp, ?_⟩
        intro a ha b hb
        simp at hb
        subst hb
        intro hab
        exact hk (hab ▸ ha)
      · intro k' v'
        by_cases h2 : k' = k
        · subst h2
          simp only [List.mem_append, List.mem_singleton, Prod.mk.injEq, true_and, if_true, Option.some.injEq]
          constructor
          · rintro (hm | rfl)
            · exact absurd (List.mem_map.2 ⟨(k', v'), hm, rfl⟩) hk
            · rfl
          · rintro rfl; exact .inr rfl
        · simp [h2, h.2]
  | erase k =>
    simp only [orderStep, dictStep]
    by_cases hk : k ∈ l.map Prod.fst
    · rw [if_pos hk]
      have hne : l ≠ [] := by rintro rfl; simp at hk
      obtain ⟨z, l0, rfl⟩ : ∃ z l0, l = l0 ++ [z] :=
        ⟨l.getLast hne, l.dropLast, (List.dropLast_concat_getLast hne).symm⟩
      simp only [List.getLast?_append, List.getLast?_singleton, Option.some_or, List.dropLast_concat]
      have hnd := h.1
      rw [List.map_append, List.nodup_append] at hnd
      obtain ⟨n1, _, n3⟩ := hnd
      have hz : z.1 ∉ l0.map Prod.fst := fun hm => n3 _ hm z.1 (by simp) rfl
      by_cases hzk : z.1 = k
      · rw [if_pos hzk]
        refine ⟨n1, ?_⟩
        intro k' v'
        by_cases h2 : k' = k
        · subst h2
          simp only [if_true]
          constructor
          · intro hm
            exact absurd (hzk ▸ List.mem_map.2 ⟨_, hm, rfl⟩) hz
          · intro hd; simp at hd
        · simp only [h2, if_false]
          rw [← h.2]
          simp only [List.mem_append, List.mem_singleton]
          constructor
          · exact .inl
          · rintro (hm | rfl)
            · exact hm
            · exact absurd hzk h2
      · rw [if_neg hzk]
        refine ⟨nodup_map_replace n1 (.inr hz), ?_⟩
        intro k' v'
        have hkm : k ∈ l0.map Prod.fst := by
          simp only [List.map_append, List.mem_append, List.map_cons, List.map_nil, List.mem_singleton] at hk
          rcases hk with hk | hk
          · exact hk
          · exact absurd hk.symm hzk
        constructor
        · intro hm
          obtain ⟨q, hq, hqe⟩ := List.mem_map.1 hm
          by_cases h2 : q.1 = k
          · rw [if_pos h2] at hqe
            subst hqe
            simp only [hzk, if_false]
            exact (h.2 _ _).1 (by simp)
          · rw [if_neg h2] at hqe
            subst hqe
            have : k' ≠ k := h2
            simp only [this, if_false]
            exact (h.2 _ _).1 (by simp [hq])
        · intro hd
          by_cases h2 : k' = k
          · simp [h2] at hd
          · simp only [h2, if_false] at hd
            have := (h.2 _ _).2 hd
            simp only [List.mem_append, List.mem_singleton] at this
            rcases this with hm | rfl
            · exact List.mem_map.2 ⟨(k', v'), hm, by simp [h2]⟩
            · obtain ⟨q, hq, hqe⟩ := List.mem_map.1 hkm
              exact List.mem_map.2 ⟨q, hq, by rw [if_pos hqe]⟩
    · rw [if_neg hk]
      refine ⟨h.1, ?_⟩
      intro k' v'
      by_cases h2 : k' = k
      · subst h2
        simp only [if_true]
        constructor
        · intro hm; exact absurd (List.mem_map.2 ⟨_, hm, rfl⟩) hk
        · intro hd; simp at hd
      · simp [h2, h.2]
  | clear => exact lists_nil

/-! ## Invariant with phase -/

/-- The last node is the end of its chain. -/
def TailLast (m : UMap K V) : Prop :=
  ∀ nd : UNode K V, m.nodes[m.nodes.length - 1]? = some nd → nd.next = none

/-- What holds of a map in a phase. -/
structure Good (hash : K → Nat) (ph : Phase) (m : UMap K V) : Prop where
  wf : WF hash m
  sorted : ph = .calm → SortedUpTo m.nodes.length m
  tail : ph = .armed → TailLast m

omit [DecidableEq K] in
theorem Good.tailLast {hash : K → Nat} {ph : Phase} {m : UMap K V} (g : Good hash ph m) (h : ph ≠ .disturbed) :
    TailLast m := by
  cases ph with
  | calm =>
    intro nd hn
    cases hx : nd.next with
    | none => rfl
    | some j =>
      have hl := (List.getElem?_eq_some_iff.1 hn).1
      have := g.sorted rfl _ j nd hl hn hx
      have := (g.wf.next _ j nd hl hn hx).1
      omega
  | armed => exact g.tail rfl
  | disturbed => exact absurd rfl h

omit [DecidableEq K] in
theorem entries_get (m : UMap K V) (j : Nat) : m.entries[j]? = (m.nodes[j]?).map entry := by
  simp [entries]
  rfl

omit [DecidableEq K] in
theorem mem_keys {m : UMap K V} {k : K} :
    k ∈ m.entries.map Prod.fst ↔ ∃ (i : Nat) (nd : UNode K V), m.nodes[i]? = some nd ∧ nd.key = k := by
  simp only [entries, List.map_map, List.mem_map, Function.comp]
  constructor
  · rintro ⟨nd, hm, rfl⟩
    obtain ⟨i, hi⟩ := List.mem_iff_getElem?.1 hm
    exact ⟨i, nd, hi, rfl⟩
  · rintro ⟨i, nd, hi, rfl⟩
    exact ⟨nd, List.mem_iff_getElem?.2 ⟨i, hi⟩, rfl⟩

omit [DecidableEq K] in
theorem nodup_index {m : UMap K V} (h : (m.entries.map Prod.fst).Nodup) {i j : Nat} {ni nj : UNode K V}
    (hi : m.nodes[i]? = some ni) (hj : m.nodes[j]? = some nj) (hk : ni.key = nj.key) : i = j := by
  obtain ⟨li, _⟩ := List.getElem?_eq_some_iff.1 hi
  obtain ⟨lj, _⟩ := List.getElem?_eq_some_iff.1 hj
  have e1 : (m.entries.map Prod.fst)[i]? = some ni.key := by
    rw [List.getElem?_map, entries_get, hi]; rfl
  have e2 : (m.entries.map Prod.fst)[j]? = some nj.key := by
    rw [List.getElem?_map, entries_get, hj]; rfl
  exact (List.getElem?_inj (by simp [entries]; exact li) h).1 (by rw [e1, e2, hk])

/-! ## Operations -/

omit [DecidableEq K] in
/-- Changing only values keeps the links. -/
theorem Good.of_links {hash : K → Nat} {ph : Phase} {m m' : UMap K V} (g : Good hash ph m)
    (hb : m'.buckets = m.buckets) (hl : m'.nodes.length = m.nodes.length)
    (hn : ∀ (j : Nat) (nd : UNode K V), m'.nodes[j]? = some nd → ∃ nd0, m.nodes[j]? = some nd0 ∧ nd.key = nd0.key ∧
      nd.bucket = nd0.bucket ∧ nd.prev = nd0.prev ∧ nd.next = nd0.next) : Good hash ph m' := by
  have w := g.wf
  refine ⟨⟨by rw [hb]; exact w.nb, fun i hi => hi, ?_, ?_, ?_, ?_, ?_, ?_⟩, ?_, ?_⟩
  · intro i nd hi h
    obtain ⟨nd0, h0, e1, e2, e3, e4⟩ := hn i nd h
    rw [e2, e1, hb]
    exact w.bucket i nd0 (by omega) h0
  · intro b i h
    rw [hb] at h
    obtain ⟨h1, h2⟩ := w.head b i h
    refine ⟨by omega, ?_⟩
    intro nd hnd
    obtain ⟨nd0, h0, e1, e2, e3, e4⟩ := hn i nd hnd
    rw [e3, e1, hb]
    exact h2 nd0 h0
  · intro i j nd hi h hx
    obtain ⟨nd0, h0, e1, e2, e3, e4⟩ := hn i nd h
    obtain ⟨h1, h2⟩ := w.next i j nd0 (by omega) h0 (e4 ▸ hx)
    refine ⟨by omega, ?_⟩
    intro nj hnj
    obtain ⟨nj0, h0', e1', e2', e3', e4'⟩ := hn j nj hnj
    rw [e3', e1', e1, hb]
    exact h2 nj0 h0'
  · intro i j nd hi h hx
    obtain ⟨nd0, h0, e1, e2, e3, e4⟩ := hn i nd h
    obtain ⟨h1, h2⟩ := w.prev i j nd0 (by omega) h0 (e3 ▸ hx)
    refine ⟨by omega, ?_⟩
    intro nj hnj
    obtain ⟨nj0, h0', e1', e2', e3', e4'⟩ := hn j nj hnj
    rw [e4']
    exact h2 nj0 h0'
  · intro i nd hi h hx
    obtain ⟨nd0, h0, e1, e2, e3, e4⟩ := hn i nd h
    rw [e1, hb]
    exact w.first i nd0 (by omega) h0 (e3 ▸ hx)
  · obtain ⟨r, hr⟩ := w.rank
    refine ⟨r, ?_⟩
    intro i j nd hi h hx
    obtain ⟨nd0, h0, e1, e2, e3, e4⟩ := hn i nd h
    exact hr i j nd0 (by omega) h0 (e4 ▸ hx)
  · intro hp i j nd hi h hx
    obtain ⟨nd0, h0, e1, e2, e3, e4⟩ := hn i nd h
    exact g.sorted hp i j nd0 (by omega) h0 (e4 ▸ hx)
  · intro hp nd h
    rw [hl] at h
    obtain ⟨nd0, h0, e1, e2, e3, e4⟩ := hn _ nd h
    rw [e4]
    exact g.tail hp nd0 h0

omit [DecidableEq K] in
/-- Appending an unlinked node. -/
theorem wf_append {hash : K → Nat} {m : UMap K V} (w : WF hash m) (nt : UNode K V) :
    WFs hash (· < m.nodes.length) (⟨m.buckets, m.nodes ++ [nt]⟩ : UMap K V) := by
  have get : ∀ (j : Nat) (nd : UNode K V), j < m.nodes.length → (m.nodes ++ [nt])[j]? = some nd →
      m.nodes[j]? = some nd := by
    intro j nd hj h
    rwa [List.getElem?_append_left hj] at h
  refine ⟨w.nb, fun i hi => by simp; omega, ?_, ?_, ?_, ?_, ?_, ?_⟩
  · intro i nd hi h; exact w.bucket i nd hi (get i nd hi h)
  · intro b i h
    obtain ⟨h1, h2⟩ := w.head b i h
    exact ⟨h1, fun nd hnd => h2 nd (get i nd h1 hnd)⟩
  · intro i j nd hi h hx
    obtain ⟨h1, h2⟩ := w.next i j nd hi (get i nd hi h) hx
    exact ⟨h1, fun nd hnd => h2 nd (get j nd h1 hnd)⟩
  · intro i j nd hi h hx
    obtain ⟨h1, h2⟩ := w.prev i j nd hi (get i nd hi h) hx
    exact ⟨h1, fun nd hnd => h2 nd (get j nd h1 hnd)⟩
  · intro i nd hi h hx; exact w.first i nd hi (get i nd hi h) hx
  · obtain ⟨r, hr⟩ := w.rank
    exact ⟨r, fun i j nd hi h hx => hr i j nd hi (get i nd hi h) hx⟩

theorem put_spec {hash : K → Nat} {exceeds : Nat → Nat → Bool} (hex : ∀ b, 0 < b → exceeds 1 b = false)
    {ph : Phase} {m : UMap K V} (g : Good hash ph m) (hnd : (m.entries.map Prod.fst).Nodup) (k : K) (v : V) :
    ∃ m', insertOrAssign hash exceeds m k v = .ok m' ∧ Good hash (phaseStep ph m.entries (.put k v)) m' ∧
      m'.entries = orderStep m.entries (.put k v) := by
  unfold insertOrAssign
  rcases findIndex_spec g.wf k with ⟨i, nd, h1, h2, h3⟩ | ⟨h1, h2⟩
  · have hk : k ∈ m.entries.map Prod.fst := mem_keys.2 ⟨i, nd, h2, h3⟩
    simp only [h1, Res.bind_ok, modifyAt_ok h2, phaseStep, orderStep, if_pos hk]
    refine ⟨_, rfl, ?_, ?_⟩
    · refine g.of_links rfl (by simp) ?_
      intro j nj hj
      simp only [get_set h2] at hj
      by_cases hji : j = i
      · subst hji
        simp at hj
        subst hj
        exact ⟨nd, h2, rfl, rfl, rfl, rfl⟩
      · rw [if_neg hji] at hj
        exact ⟨nj, hj, rfl, rfl, rfl, rfl⟩
    · apply List.ext_getElem?
      intro j
      rw [entries_get, List.getElem?_map, entries_get]
      simp only [get_set h2]
      by_cases hji : j = i
      · subst hji
        simp [h2, entry, h3]
      · simp only [hji, if_false]
        cases hn : m.nodes[j]? with
        | none => rfl
        | some nj =>
          have : nj.key ≠ k := fun h => hji (nodup_index hnd hn h2 (by rw [h, h3]))
          simp [entry, this]
  · have hk : k ∉ m.entries.map Prod.fst := by
      intro hm
      obtain ⟨i, nd, g1, g2⟩ := mem_keys.1 hm
      exact h2 i nd g1 g2
    simp only [h1, Res.bind_ok, phaseStep, orderStep, if_neg hk]
    -- the optional rehash
    have hre : ∃ m1, growIfNeeded hash exceeds m = .ok m1 ∧ WF hash m1 ∧
        m1.entries = m.entries ∧ (ph = .calm → SortedUpTo m1.nodes.length m1) := by
      unfold growIfNeeded
      by_cases he : exceeds (m.nodes.length + 1) m.buckets.length = true
      · rw [if_pos he]
        have hpos : 0 < m.nodes.length := by
          rcases Nat.eq_zero_or_pos m.nodes.length with h0 | h0
          · rw [h0, hex _ g.wf.nb] at he
            simp at he
          · exact h0
        obtain ⟨m1, a1, a2, a3, a4, _⟩ := rehash_spec hash m (n := m.nodes.length * 2) (by omega)
        exact ⟨m1, a1, a2, a4, fun _ => a3⟩
      · rw [if_neg he]
        exact ⟨m, rfl, g.wf, rfl, g.sorted⟩
    obtain ⟨m1, a1, a2, a3, a4⟩ := hre
    simp only [a1, Res.bind_ok]
    obtain ⟨m2, b1, b2, b3, b4, b5, b6⟩ := insertNode_spec (wf_append a2 ⟨k, v, none, none, none⟩)
      (t := m1.nodes.length) (nt := ⟨k, v, none, none, none⟩) (by simp) (by omega)
    have hlen : m2.nodes.length = m1.nodes.length + 1 := by
      rw [← entries_length, b3, entries_length]
      simp
    have e : (fun x => x < m1.nodes.length ∨ x = m1.nodes.length) = (· < m2.nodes.length) := by
      funext x
      apply propext
      omega
    rw [e] at b2
    refine ⟨m2, b1, ⟨b2, ?_, ?_⟩, ?_⟩
    · intro hp i j nd hi hn hx
      have hcalm : ph = .calm := by
        by_cases h : ph = .calm
        · exact h
        · rw [if_neg h] at hp
          simp at hp
      rcases b6 i j nd hn hx with ⟨nd0, c1, c2⟩ | ⟨c1, rfl⟩
      · by_cases hit : i < m1.nodes.length
        · have c1' : m1.nodes[i]? = some nd0 := by
            simpa only [List.getElem?_append_left hit] using c1
          exact a4 hcalm i j nd0 hit c1' c2
        · have hie : i = m1.nodes.length := by omega
          rw [hie] at hn
          rw [b5 nd hn] at hx
          simp at hx
      · exact c1
    · intro _ nd hn
      rw [hlen] at hn
      exact b5 nd hn
    · rw [b3]
      rw [← a3]
      simp [entries]

omit [DecidableEq K] in
/-- Dropping an unlinked last node. -/
theorem wf_dropLast {hash : K → Nat} {m : UMap K V} {n : Nat} (hlen : m.nodes.length = n) (hn : 0 < n)
    (w : WFs hash (fun j => j < n ∧ j ≠ n - 1) m) : WF hash (⟨m.buckets, m.nodes.dropLast⟩ : UMap K V) := by
  have hS : ∀ j, j < m.nodes.dropLast.length ↔ j < n ∧ j ≠ n - 1 := by
    intro j
    simp only [List.length_dropLast, hlen]
    omega
  have get : ∀ (j : Nat) (nd : UNode K V), m.nodes.dropLast[j]? = some nd → m.nodes[j]? = some nd := by
    intro j nd h
    rw [List.getElem?_dropLast] at h
    split at h
    · exact h
    · simp at h
  refine ⟨w.nb, fun i hi => hi, ?_, ?_, ?_, ?_, ?_, ?_⟩
  · intro i nd hi h; exact w.bucket i nd ((hS i).1 hi) (get i nd h)
  · intro b i h
    obtain ⟨h1, h2⟩ := w.head b i h
    exact ⟨(hS i).2 h1, fun nd hnd => h2 nd (get i nd hnd)⟩
  · intro i j nd hi h hx
    obtain ⟨h1, h2⟩ := w.next i j nd ((hS i).1 hi) (get i nd h) hx
    exact ⟨(hS j).2 h1, fun nd hnd => h2 nd (get j nd hnd)⟩
  · intro i j nd hi h hx
    obtain ⟨h1, h2⟩ := w.prev i j nd ((hS i).1 hi) (get i nd h) hx
    exact ⟨(hS j).2 h1, fun nd hnd => h2 nd (get j nd hnd)⟩
  · intro i nd hi h hx; exact w.first i nd ((hS i).1 hi) (get i nd h) hx
  · obtain ⟨r, hr⟩ := w.rank
    exact ⟨r, fun i j nd hi h hx => hr i j nd ((hS i).1 hi) (get i nd h) hx⟩

omit [DecidableEq K] in
theorem getLast_map_entries (m : UMap K V) :
    (m.entries.getLast?).map Prod.fst = (m.nodes[m.nodes.length - 1]?).map (·.key) := by
  rw [List.getLast?_eq_getElem?, entries_get, entries_length]
  cases m.nodes[m.nodes.length - 1]? <;> rfl

theorem erase_spec {hash : K → Nat} {fixed : Bool} {ph : Phase} {m : UMap K V} (g : Good hash ph m)
    (hnd : (m.entries.map Prod.fst).Nodup) (k : K) (hok : fixed = true ∨ Allowed ph m.entries (.erase k)) :
    ∃ m', eraseWith hash fixed m k = .ok m' ∧ Good hash (phaseStep ph m.entries (.erase k)) m' ∧
      m'.entries = orderStep m.entries (.erase k) := by
  unfold eraseWith
  rcases findIndex_spec g.wf k with ⟨i, nd, h1, h2, h3⟩ | ⟨h1, h2⟩
  · have hk : k ∈ m.entries.map Prod.fst := mem_keys.2 ⟨i, nd, h2, h3⟩
    have hi : i < m.nodes.length := (List.getElem?_eq_some_iff.1 h2).1
    obtain ⟨l, hl⟩ : ∃ l, m.nodes[m.nodes.length - 1]? = some l :=
      ⟨m.nodes[m.nodes.length - 1]'(by omega), by simp⟩
    have hgl : m.entries.getLast? = some (entry l) := by
      rw [List.getLast?_eq_getElem?, entries_get, entries_length, hl]
      rfl
    have hlast : (entry l).1 = k ↔ i = m.nodes.length - 1 := by
      constructor
      · intro h
        exact nodup_index hnd h2 hl (by rw [h3]; exact h.symm)
      · rintro rfl
        rw [h2] at hl
        cases hl
        exact h3
    obtain ⟨m1, u1, u2, u3, u4, u5⟩ := unlink_spec g.wf h2
    have w1 := unlink_wf g.wf h2 u2 u3 u4 u5
    simp only [h1, Res.bind_ok, u1, phaseStep, orderStep, if_pos hk, hgl, Option.map_some]
    by_cases hil : i = m.nodes.length - 1
    · -- the last node
      have hfill : fillHole fixed m1 i = .ok ⟨m1.buckets, m1.nodes.dropLast⟩ := by
        unfold fillHole
        rw [if_neg (by rw [u2]; omega)]
      refine ⟨_, hfill, ?_, ?_⟩
      · have hw : WF hash (⟨m1.buckets, m1.nodes.dropLast⟩ : UMap K V) := by
          apply wf_dropLast (n := m.nodes.length) u2 (by omega)
          rw [← hil]
          exact w1
        have hkl : (some (entry l).1 = some k) = True := by simp [hlast, hil]
        simp only [hkl, and_true]
        by_cases hc : ph = .calm
        · simp only [hc, if_true]
          refine ⟨hw, ?_, by simp⟩
          intro _ a b na ha hna hx
          have hna' : m1.nodes[a]? = some na := by
            simp only [List.getElem?_dropLast] at hna
            split at hna
            · exact hna
            · simp at hna
          have hai : a ≠ i := by
            simp only [List.length_dropLast, u2] at ha
            omega
          rw [u4, if_neg hai] at hna'
          cases h0 : m.nodes[a]? with
          | none => rw [h0] at hna'; simp at hna'
          | some n0 =>
            rw [h0] at hna'
            simp at hna'
            subst hna'
            have hal := (List.getElem?_eq_some_iff.1 h0).1
            rcases skip_some hx with ⟨x1, x2⟩ | ⟨x1, x2⟩
            · have y1 := g.sorted hc a i n0 hal h0 x1
              have y2 := g.sorted hc i b nd hi h2 x2
              omega
            · exact g.sorted hc a b n0 hal h0 x1
        · simp only [hc, if_false]
          exact ⟨hw, by simp, by simp⟩
      · rw [if_pos (hlast.2 hil)]
        apply List.ext_getElem?
        intro j
        rw [entries_get]
        simp only [List.getElem?_dropLast, u2, entries_length]
        split
        · rw [u4, if_neg (by omega), entries_get]
          cases m.nodes[j]? <;> rfl
        · rfl
    · have hin : i < m.nodes.length - 1 := by omega
      obtain ⟨m2, f1, f2, f3, f4, f5⟩ := fillHole_spec (fixed := fixed) u2 w1 hin (by
        rcases hok with h | h
        · exact .inl h
        · refine .inr ?_
          have hph : ph ≠ .disturbed := by
            rcases h with h | h | h
            · exact absurd hk h
            · exact h
            · rw [hgl] at h
              simp only [Option.map_some, Option.some.injEq] at h
              exact absurd (hlast.1 h) hil
          intro n1 hn1
          rw [u4, if_neg (by omega), hl] at hn1
          simp at hn1
          subst hn1
          have := g.tailLast hph l hl
          simp [skipNode, skip, this])
      have hw := fillHole_wf w1 hin f2 f3 f4 f5
      refine ⟨m2, f1, ?_, ?_⟩
      · have : ¬ (some (entry l).1 = some k) := by
          simp only [Option.some.injEq]
          rw [hlast]
          exact hil
        simp only [this, and_false, if_false]
        exact ⟨hw, by simp, by simp⟩
      · rw [if_neg (fun h => hil (hlast.1 h))]
        apply List.ext_getElem?
        intro j
        rw [List.getElem?_map, List.getElem?_dropLast, entries_length, entries_get, entries_get]
        by_cases hj : j < m.nodes.length - 1
        · rw [f4 j hj, if_pos hj]
          unfold unren
          by_cases hji : j = i
          · subst hji
            rw [if_pos rfl, u4, if_neg (by omega), hl, h2]
            simp [entry, renNode, skipNode, h3]
          · rw [if_neg hji, u4, if_neg hji]
            cases hn : m.nodes[j]? with
            | none => rfl
            | some nj =>
              have : nj.key ≠ k := fun h => hji (nodup_index hnd hn h2 (by rw [h, h3]))
              simp [entry, this, renNode, skipNode]
        · rw [if_neg hj, List.getElem?_eq_none (by omega)]
          rfl
  · have hk : k ∉ m.entries.map Prod.fst := by
      intro hm
      obtain ⟨i, nd, g1, g2⟩ := mem_keys.1 hm
      exact h2 i nd g1 g2
    simp only [h1, Res.bind_ok, phaseStep, orderStep, if_neg hk]
    exact ⟨m, rfl, g, rfl⟩

omit [DecidableEq K] in
theorem clear_good {hash : K → Nat} {ph : Phase} {m : UMap K V} (g : Good hash ph m) : Good hash .calm (clear m) := by
  have hb : ∀ (b i : Nat), (clear m).buckets[b]? ≠ some (some i) := by
    intro b i h
    simp [clear] at h
  refine ⟨⟨?_, fun i hi => hi, ?_, ?_, ?_, ?_, ?_, ⟨id, ?_⟩⟩, ?_, ?_⟩
  · have := g.wf.nb
    simpa [clear] using this
  · intro i nd hi; simp [clear] at hi
  · intro b i h; exact absurd h (hb b i)
  · intro i _ nd hi; simp [clear] at hi
  · intro i _ nd hi; simp [clear] at hi
  · intro i nd hi; simp [clear] at hi
  · intro i _ nd hi; simp [clear] at hi
  · intro _ i _ nd hi; simp [clear] at hi
  · simp

theorem step_spec {hash : K → Nat} {exceeds : Nat → Nat → Bool} (hex : ∀ b, 0 < b → exceeds 1 b = false)
    {fixed : Bool} {ph : Phase} {m : UMap K V} (g : Good hash ph m) (hnd : (m.entries.map Prod.fst).Nodup)
    (op : DictOp K V) (hok : fixed = true ∨ Allowed ph m.entries op) :
    ∃ m', applyOp fixed hash exceeds m op = .ok m' ∧ Good hash (phaseStep ph m.entries op) m' ∧
      m'.entries = orderStep m.entries op := by
  cases op with
  | put k v => exact put_spec hex g hnd k v
  | erase k => exact erase_spec g hnd k hok
  | clear => exact ⟨_, rfl, clear_good g, rfl⟩

theorem run_spec {hash : K → Nat} {exceeds : Nat → Nat → Bool} (hex : ∀ b, 0 < b → exceeds 1 b = false)
    {fixed : Bool} {ph : Phase} {m : UMap K V} {d : K → Option V} (g : Good hash ph m) (hd : Lists m.entries d)
    (ops : List (DictOp K V)) (hok : fixed = true ∨ SafeFrom ph m.entries ops) :
    ∃ m' ph', runOps fixed hash exceeds m ops = .ok m' ∧ Good hash ph' m' ∧
      m'.entries = ops.foldl orderStep m.entries ∧ Lists m'.entries (ops.foldl dictStep d) := by
  induction ops generalizing ph m d with
  | nil => exact ⟨m, ph, rfl, g, rfl, hd⟩
  | cons op ops ih =>
    obtain ⟨m1, h1, h2, h3⟩ := step_spec hex g hd.1 op (hok.imp id (fun h => h.1))
    obtain ⟨m', ph', g1, g2, g3, g4⟩ := ih h2 (d := dictStep d op) (by rw [h3]; exact lists_step hd op)
      (hok.imp id (fun h => by rw [h3]; exact h.2))
    refine ⟨m', ph', by simp only [runOps, h1, Res.bind_ok, g1], g2, ?_, g4⟩
    rw [g3, h3]
    rfl

/-- Look-ups in a good map. -/
theorem find_spec {hash : K → Nat} {m : UMap K V} {d : K → Option V} (w : WF hash m)
    (hd : Lists m.entries d) (k : K) : find hash m k = .ok (d k) := by
  unfold find
  rcases findIndex_spec w k with ⟨i, nd, h1, h2, h3⟩ | ⟨h1, h2⟩
  · simp only [h1, Res.bind_ok, readAt_ok h2]
    have : (k, nd.value) ∈ m.entries := by
      apply List.mem_iff_getElem?.2
      exact ⟨i, by rw [entries_get, h2]; simp [entry, h3]⟩
    rw [(hd.2 _ _).1 this]
  · simp only [h1, Res.bind_ok]
    have hk : k ∉ m.entries.map Prod.fst := by
      intro hm
      obtain ⟨i, nd, g1, g2⟩ := mem_keys.1 hm
      exact h2 i nd g1 g2
    rw [mem_keys_iff hd] at hk
    cases hdk : d k with
    | none => rfl
    | some v => rw [hdk] at hk; simp at hk

omit [DecidableEq K] in
theorem create_spec (hash : K → Nat) {n : Nat} (hn : 0 < n) :
    ∃ m : UMap K V, create hash n = .ok m ∧ Good hash .calm m ∧ m.entries = [] := by
  obtain ⟨m, h1, h2, h3, h4, _⟩ := rehash_spec hash (⟨[], []⟩ : UMap K V) hn
  exact ⟨m, h1, ⟨h2, fun _ => h3, by simp⟩, by rw [h4]; rfl⟩

/-- The simple condition implies the precise one. -/
theorem safe_of_spaced {pending : Bool} {ph : Phase} {l : List (K × V)} {d : K → Option V} (hd : Lists l d)
    (hp : pending = false → ph ≠ .disturbed) (ops : List (DictOp K V)) (h : Spaced pending d ops) :
    SafeFrom ph l ops := by
  induction ops generalizing pending ph l d with
  | nil => trivial
  | cons op ops ih =>
    have hl := lists_step hd op
    cases op with
    | put k v =>
      refine ⟨trivial, ih hl ?_ h⟩
      intro hpe
      simp only [phaseStep]
      by_cases hk : k ∈ l.map Prod.fst
      · rw [if_pos hk]
        have := (mem_keys_iff hd k).1 hk
        rw [this, Bool.and_true] at hpe
        exact hp hpe
      · rw [if_neg hk]
        split <;> simp
    | erase k =>
      refine ⟨?_, ih hl ?_ h.2⟩
      · by_cases hk : k ∈ l.map Prod.fst
        · exact .inr (.inl (hp (h.1 ((mem_keys_iff hd k).1 hk))))
        · exact .inl hk
      · intro hpe
        simp only [phaseStep]
        simp at hpe
        by_cases hk : k ∈ l.map Prod.fst
        · have := (mem_keys_iff hd k).1 hk
          rw [hpe.2] at this
          simp at this
        · rw [if_neg hk]
          exact hp hpe.1
    | clear => exact ⟨trivial, ih hl (by simp [phaseStep]) h⟩

end UMap
end Coil
