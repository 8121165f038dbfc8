import Verif.Proofs.UMapInv

/-! # `insertNode` and `rehash` keep the chain invariant -/

namespace Coil

theorem modifyAt_ok {α : Type} {l : List α} {i : Nat} {a : α} (h : l[i]? = some a) (f : α → α) :
    modifyAt l i f = .ok (l.set i (f a)) := by simp [modifyAt, h]

theorem readAt_ok {α : Type} {l : List α} {i : Nat} {a : α} (h : l[i]? = some a) : readAt l i = .ok a := by
  simp [readAt, h]

theorem get_set {α : Type} {l : List α} {i : Nat} {a b : α} (h : l[i]? = some a) (j : Nat) :
    (l.set i b)[j]? = if j = i then some b else l[j]? := by
  have hi : i < l.length := (List.getElem?_eq_some_iff.1 h).1
  rw [List.getElem?_set]
  by_cases hij : i = j
  · subst hij; simp [hi]
  · simp [hij, Ne.symm hij]

namespace UMap

variable {K V : Type}

theorem insertLoop_spec {hash : K → Nat} {S : Nat → Prop} {m : UMap K V} (w : WFs hash S m)
    {t : Nat} {nt : UNode K V} (ht : m.nodes[t]? = some nt) (hSt : ¬ S t)
    {r : Nat → Nat} (hr : ∀ i j nd, S i → m.nodes[i]? = some nd → nd.next = some j → r i < r j)
    {fuel i : Nat} {nd : UNode K V} (hi : S i) (hn : m.nodes[i]? = some nd)
    (hf : ahead r m.nodes.length i ≤ fuel) :
    ∃ l nl, S l ∧ m.nodes[l]? = some nl ∧ nl.next = none ∧
      hash nl.key % m.buckets.length = hash nd.key % m.buckets.length ∧
      insertLoop m.nodes t fuel i =
        .ok ((m.nodes.set l { nl with next := some t }).set t { nt with prev := some l }) := by
  induction fuel generalizing i nd with
  | zero => exact absurd (ahead_pos (r := r) (w.lt i hi)) (by omega)
  | succ fuel ih =>
    simp only [insertLoop, readAt_ok hn, Res.bind_ok]
    cases hx : nd.next with
    | none =>
      refine ⟨i, nd, hi, hn, hx, rfl, ?_⟩
      have hne : t ≠ i := fun h => hSt (h ▸ hi)
      have ht' : (m.nodes.set i { nd with next := some t })[t]? = some nt := by
        rw [get_set hn]
        simp [hne, ht]
      rw [modifyAt_ok hn]
      simp only [Res.bind_ok]
      rw [modifyAt_ok ht']
    | some j =>
      obtain ⟨hj, hj2⟩ := w.next i j nd hi hn hx
      obtain ⟨nj, hnj⟩ := w.get hj
      have hlt := ahead_lt (w.lt i hi) (hr i j nd hi hn hx)
      obtain ⟨l, nl, h1, h2, h3, h4, h5⟩ := ih hj hnj (by omega)
      exact ⟨l, nl, h1, h2, h3, by rw [h4, (hj2 nj hnj).2], h5⟩

/-- The parts of a map a user can see. -/
def entry (nd : UNode K V) : K × V := (nd.key, nd.value)

/-- What `insertNode` does to a map whose nodes in `S` are linked. -/
theorem insertNode_spec {hash : K → Nat} {S : Nat → Prop} {m : UMap K V} (w : WFs hash S m)
    {t : Nat} {nt : UNode K V} (ht : m.nodes[t]? = some nt) (hSt : ¬ S t) :
    ∃ m', insertNode hash m t = .ok m' ∧ WFs hash (fun x => S x ∨ x = t) m' ∧ m'.entries = m.entries ∧
      m'.buckets.length = m.buckets.length ∧
      (∀ nd', m'.nodes[t]? = some nd' → nd'.next = none) ∧
      (∀ i j nd', m'.nodes[i]? = some nd' → nd'.next = some j →
        (∃ nd, m.nodes[i]? = some nd ∧ nd.next = some j) ∨ (S i ∧ j = t)) := by
  have hB := w.nb
  have hbk : bucketOf hash m nt.key = .ok (hash nt.key % m.buckets.length) := by
    unfold bucketOf
    rw [if_neg (by omega)]
  have hlt : hash nt.key % m.buckets.length < m.buckets.length := Nat.mod_lt _ hB
  -- the node after the reset of its links
  obtain ⟨b, hbdef⟩ : ∃ b, b = hash nt.key % m.buckets.length := ⟨_, rfl⟩
  rw [← hbdef] at hbk hlt
  let nt1 : UNode K V := { nt with bucket := some b, next := none, prev := none }
  obtain ⟨nodes1, hnodes1⟩ : ∃ x, x = m.nodes.set t nt1 := ⟨_, rfl⟩
  have hg1 : ∀ j, nodes1[j]? = if j = t then some nt1 else m.nodes[j]? := by
    intro j
    rw [hnodes1]
    exact get_set ht j
  have hgS : ∀ j, S j → nodes1[j]? = m.nodes[j]? := by
    intro j hj
    rw [hg1, if_neg (fun h : j = t => hSt (h ▸ hj))]
  have hlen1 : nodes1.length = m.nodes.length := by simp [hnodes1]
  have w1 : WFs hash S ⟨m.buckets, nodes1⟩ := by
    refine ⟨hB, ?_, ?_, ?_, ?_, ?_, ?_, ?_⟩
    · intro i hi; simp only [hlen1]; exact w.lt i hi
    · intro i nd hi hn; simp only [hgS i hi] at hn; exact w.bucket i nd hi hn
    · intro b i hb
      obtain ⟨h1, h2⟩ := w.head b i hb
      refine ⟨h1, ?_⟩
      intro nd hn; simp only [hgS i h1] at hn; exact h2 nd hn
    · intro i j nd hi hn hx
      simp only [hgS i hi] at hn
      obtain ⟨h1, h2⟩ := w.next i j nd hi hn hx
      refine ⟨h1, ?_⟩
      intro nj hnj; simp only [hgS j h1] at hnj; exact h2 nj hnj
    · intro i j nd hi hn hx
      simp only [hgS i hi] at hn
      obtain ⟨h1, h2⟩ := w.prev i j nd hi hn hx
      refine ⟨h1, ?_⟩
      intro nj hnj; simp only [hgS j h1] at hnj; exact h2 nj hnj
    · intro i nd hi hn hx
      simp only [hgS i hi] at hn
      exact w.first i nd hi hn hx
    · obtain ⟨r, hr⟩ := w.rank
      refine ⟨r, ?_⟩
      intro i j nd hi hn hx
      simp only [hgS i hi] at hn
      exact hr i j nd hi hn hx
  have hent1 : (nodes1.map entry) = m.nodes.map entry := by
    apply List.ext_getElem?
    intro j
    simp only [List.getElem?_map, hg1]
    split
    · rename_i h
      subst h
      rw [ht]
      rfl
    · rfl
  unfold insertNode
  simp only [readAt_ok ht, Res.bind_ok, hbk, modifyAt_ok ht, readAt_of_lt hlt]
  have hfold : m.nodes.set t { nt with bucket := some b, next := none, prev := none } = nodes1 := hnodes1.symm
  rw [hfold]
  cases hf : m.buckets[b] with
  | none =>
    simp only [writeAt, hlt, if_true, Res.bind_ok]
    refine ⟨_, rfl, ?_, hent1, by simp, ?_, ?_⟩
    · have hbg : ∀ c, (m.buckets.set b (some t))[c]? = if c = b then some (some t) else m.buckets[c]? := by
        intro c
        exact get_set (by rw [List.getElem?_eq_getElem hlt]) c
      have hnoS : ∀ i nd, S i → m.nodes[i]? = some nd → hash nd.key % m.buckets.length ≠ b := by
        intro i nd hi hn he
        obtain ⟨f, hf', _⟩ := w.reach hi hn
        rw [he, List.getElem?_eq_getElem hlt, hf] at hf'
        simp at hf'
      refine ⟨by simpa using hB, ?_, ?_, ?_, ?_, ?_, ?_, ?_⟩
      · rintro i (hi | rfl)
        · simp only [hlen1]; exact w.lt i hi
        · simp only [hlen1]; exact (List.getElem?_eq_some_iff.1 ht).1
      · rintro i nd (hi | rfl) hn
        · simp only [List.length_set]
          exact w1.bucket i nd hi hn
        · have := hg1 i
          simp only [if_true] at this
          rw [this] at hn
          simp at hn
          subst hn
          simp [nt1, hbdef]
      · intro c i hc
        simp only [hbg] at hc
        split at hc
        · simp at hc
          subst hc
          rename_i hcb
          refine ⟨.inr rfl, ?_⟩
          intro nd hn
          have := hg1 t
          simp only [if_true] at this
          rw [this] at hn
          simp at hn
          subst hn
          exact ⟨rfl, by simp [nt1, hcb, hbdef]⟩
        · obtain ⟨h1, h2⟩ := w1.head c i hc
          refine ⟨.inl h1, ?_⟩
          intro nd hn
          simpa using h2 nd hn
      · rintro i j nd (hi | rfl) hn hx
        · obtain ⟨h1, h2⟩ := w1.next i j nd hi hn hx
          refine ⟨.inl h1, ?_⟩
          intro nj hnj
          simpa using h2 nj hnj
        · have := hg1 i
          simp only [if_true] at this
          rw [this] at hn
          simp at hn
          subst hn
          simp [nt1] at hx
      · rintro i j nd (hi | rfl) hn hx
        · obtain ⟨h1, h2⟩ := w1.prev i j nd hi hn hx
          exact ⟨.inl h1, h2⟩
        · have := hg1 i
          simp only [if_true] at this
          rw [this] at hn
          simp at hn
          subst hn
          simp [nt1] at hx
      · rintro i nd (hi | rfl) hn hx
        · simp only [List.length_set, hbg]
          have hn' := hn
          simp only [hgS i hi] at hn
          rw [if_neg (hnoS i nd hi hn)]
          exact w.first i nd hi hn hx
        · have := hg1 i
          simp only [if_true] at this
          rw [this] at hn
          simp at hn
          subst hn
          simp only [List.length_set, hbg]
          rw [if_pos (by simp [nt1, hbdef])]
      · obtain ⟨r, hr⟩ := w1.rank
        refine ⟨r, ?_⟩
        rintro i j nd (hi | rfl) hn hx
        · exact hr i j nd hi hn hx
        · have := hg1 i
          simp only [if_true] at this
          rw [this] at hn
          simp at hn
          subst hn
          simp [nt1] at hx
    · intro nd' hn'
      have := hg1 t
      simp only [if_true] at this
      rw [this] at hn'
      simp at hn'
      subst hn'
      rfl
    · intro i j nd' hn' hx
      left
      have := hg1 i
      rw [this] at hn'
      split at hn'
      · simp at hn'
        subst hn'
        simp [nt1] at hx
      · exact ⟨nd', hn', hx⟩
  | some f =>
    have hf' : m.buckets[b]? = some (some f) := by
      rw [List.getElem?_eq_getElem hlt, hf]
    obtain ⟨hSf, hSf2⟩ := w1.head _ _ hf'
    obtain ⟨nf, hnf⟩ := w1.get hSf
    obtain ⟨r, hr⟩ := w1.rank
    have ht1 : nodes1[t]? = some nt1 := by rw [hg1]; simp
    obtain ⟨l, nl, hl1, hl2, hl3, hl4, hl5⟩ := insertLoop_spec w1 (t := t) ht1 hSt hr hSf hnf
      (fuel := nodes1.length + 1) (by have := ahead_le r nodes1.length f; simp only; omega)
    simp only at hl2 hl4 hl5
    have hlb : hash nl.key % m.buckets.length = b := by rw [hl4, (hSf2 nf hnf).2]
    have hlt' : l ≠ t := fun h => hSt (h ▸ hl1)
    simp only [hl5, Res.bind_ok]
    have hg2 : ∀ j, ((nodes1.set l { nl with next := some t }).set t { nt1 with prev := some l })[j]? =
        if j = t then some { nt1 with prev := some l } else if j = l then some { nl with next := some t }
          else nodes1[j]? := by
      intro j
      have h1 : (nodes1.set l { nl with next := some t })[t]? = some nt1 := by
        rw [get_set hl2]
        simp [Ne.symm hlt', ht1]
      rw [get_set h1, get_set hl2]
    -- a node of `S` afterwards
    have hS2 : ∀ i nd, S i → ((nodes1.set l { nl with next := some t }).set t { nt1 with prev := some l })[i]? = some nd →
        ∃ nd0, nodes1[i]? = some nd0 ∧ nd.key = nd0.key ∧ nd.bucket = nd0.bucket ∧ nd.prev = nd0.prev ∧
          ((i = l ∧ nd.next = some t ∧ nd0.next = none) ∨ (i ≠ l ∧ nd.next = nd0.next)) := by
      intro i nd hi hn
      rw [hg2, if_neg (fun h : i = t => hSt (h ▸ hi))] at hn
      split at hn
      · rename_i hil
        subst hil
        simp at hn
        subst hn
        exact ⟨nl, hl2, rfl, rfl, rfl, .inl ⟨rfl, rfl, hl3⟩⟩
      · rename_i hil
        exact ⟨nd, hn, rfl, rfl, rfl, .inr ⟨hil, rfl⟩⟩
    have hT2 : ∀ nd, ((nodes1.set l { nl with next := some t }).set t { nt1 with prev := some l })[t]? = some nd →
        nd = { nt1 with prev := some l } := by
      intro nd hn
      rw [hg2] at hn
      simp at hn
      exact hn.symm
    refine ⟨_, rfl, ?_, ?_, rfl, ?_, ?_⟩
    · refine ⟨hB, ?_, ?_, ?_, ?_, ?_, ?_, ?_⟩
      · rintro i (hi | rfl)
        · simp only [List.length_set, hlen1]; exact w.lt i hi
        · simp only [List.length_set, hlen1]; exact (List.getElem?_eq_some_iff.1 ht).1
      · rintro i nd (hi | rfl) hn
        · obtain ⟨nd0, h1, h2, h3, _⟩ := hS2 i nd hi hn
          rw [h2, h3]
          exact w1.bucket i nd0 hi h1
        · rw [hT2 nd hn]
          simp [nt1, hbdef]
      · intro c i hc
        obtain ⟨h1, h2⟩ := w1.head c i hc
        refine ⟨.inl h1, ?_⟩
        intro nd hn
        obtain ⟨nd0, g1, g2, g3, g4, _⟩ := hS2 i nd h1 hn
        rw [g4, g2]
        exact h2 nd0 g1
      · rintro i j nd (hi | rfl) hn hx
        · obtain ⟨nd0, g1, g2, g3, g4, g5⟩ := hS2 i nd hi hn
          rcases g5 with ⟨rfl, g6, _⟩ | ⟨hil, g6⟩
          · rw [hx] at g6
            simp at g6
            subst g6
            refine ⟨.inr rfl, ?_⟩
            intro nj hnj
            rw [hT2 nj hnj]
            rw [hl2] at g1
            simp at g1
            refine ⟨rfl, ?_⟩
            rw [g2, ← g1]
            exact (hlb.trans hbdef).symm
          · rw [g6] at hx
            obtain ⟨h1, h2⟩ := w1.next i j nd0 hi g1 hx
            refine ⟨.inl h1, ?_⟩
            intro nj hnj
            obtain ⟨nj0, k1, k2, k3, k4, _⟩ := hS2 j nj h1 hnj
            rw [k4, k2, g2]
            exact h2 nj0 k1
        · rw [hT2 nd hn] at hx
          simp [nt1] at hx
      · rintro i j nd (hi | rfl) hn hx
        · obtain ⟨nd0, g1, g2, g3, g4, _⟩ := hS2 i nd hi hn
          rw [g4] at hx
          obtain ⟨h1, h2⟩ := w1.prev i j nd0 hi g1 hx
          refine ⟨.inl h1, ?_⟩
          intro nj hnj
          obtain ⟨nj0, k1, k2, k3, k4, k5⟩ := hS2 j nj h1 hnj
          have := h2 nj0 k1
          rcases k5 with ⟨_, _, k7⟩ | ⟨_, k6⟩
          · rw [this] at k7; simp at k7
          · rw [k6, this]
        · rw [hT2 nd hn] at hx
          simp at hx
          subst hx
          refine ⟨.inl hl1, ?_⟩
          intro nj hnj
          obtain ⟨nj0, k1, k2, k3, k4, k5⟩ := hS2 l nj hl1 hnj
          rcases k5 with ⟨_, k6, _⟩ | ⟨k6, _⟩
          · exact k6
          · exact absurd rfl k6
      · rintro i nd (hi | rfl) hn hx
        · obtain ⟨nd0, g1, g2, g3, g4, _⟩ := hS2 i nd hi hn
          rw [g4] at hx
          rw [g2]
          exact w1.first i nd0 hi g1 hx
        · rw [hT2 nd hn] at hx
          simp at hx
      · refine ⟨fun x => if x = t then r l + 1 else r x, ?_⟩
        rintro i j nd (hi | rfl) hn hx
        · obtain ⟨nd0, g1, g2, g3, g4, g5⟩ := hS2 i nd hi hn
          rcases g5 with ⟨rfl, g6, _⟩ | ⟨hil, g6⟩
          · rw [hx] at g6
            simp at g6
            subst g6
            simp [hlt']
          · rw [g6] at hx
            obtain ⟨h1, _⟩ := w1.next i j nd0 hi g1 hx
            have hi' : i ≠ t := fun h => hSt (h ▸ hi)
            have hj' : j ≠ t := fun h => hSt (h ▸ h1)
            simp only [hi', hj', if_false]
            exact hr i j nd0 hi g1 hx
        · rw [hT2 nd hn] at hx
          simp [nt1] at hx
    · unfold entries
      change ((nodes1.set l { nl with next := some t }).set t { nt1 with prev := some l }).map entry = m.nodes.map entry
      rw [← hent1]
      apply List.ext_getElem?
      intro j
      simp only [List.getElem?_map, hg2]
      split
      · rename_i h
        subst h
        simp only [ht1]
        rfl
      · split
        · rename_i h
          subst h
          simp only [hl2]
          rfl
        · rfl
    · intro nd' hn'
      rw [hT2 nd' hn']
    · intro i j nd' hn' hx
      by_cases hi : i = t
      · subst hi
        rw [hT2 nd' hn'] at hx
        simp [nt1] at hx
      · simp only [] at hn'
        change ((nodes1.set l { nl with next := some t }).set t { nt1 with prev := some l })[i]? = _ at hn'
        rw [hg2, if_neg hi] at hn'
        split at hn'
        · rename_i hil
          subst hil
          simp at hn'
          subst hn'
          simp at hx
          exact .inr ⟨hl1, hx.symm⟩
        · rw [hg1, if_neg hi] at hn'
          exact .inl ⟨nd', hn', hx⟩

/-- Links go to later nodes. -/
def SortedUpTo (t : Nat) (m : UMap K V) : Prop :=
  ∀ (i j : Nat) (nd : UNode K V), i < t → m.nodes[i]? = some nd → nd.next = some j → i < j

theorem entries_length (m : UMap K V) : m.entries.length = m.nodes.length := by simp [entries]

theorem rehashLoop_spec {hash : K → Nat} {count t : Nat} {m : UMap K V}
    (w : WFs hash (· < t) m) (hs : SortedUpTo t m) (hlen : t + count = m.nodes.length) :
    ∃ m', rehashLoop hash count t m = .ok m' ∧ WF hash m' ∧ SortedUpTo m'.nodes.length m' ∧
      m'.entries = m.entries ∧ m'.buckets.length = m.buckets.length := by
  induction count generalizing t m with
  | zero =>
    have : t = m.nodes.length := by omega
    subst this
    exact ⟨m, rfl, w, hs, rfl, rfl⟩
  | succ count ih =>
    have ht : t < m.nodes.length := by omega
    obtain ⟨m1, h1, h2, h3, h4, h5, h6⟩ := insertNode_spec w (t := t) (nt := m.nodes[t]) (by simp [ht]) (by omega)
    have hl : m1.nodes.length = m.nodes.length := by
      rw [← entries_length, ← entries_length, h3]
    have e : (fun x => x < t ∨ x = t) = (· < t + 1) := by
      funext x
      apply propext
      omega
    rw [e] at h2
    have hs1 : SortedUpTo (t + 1) m1 := by
      intro i j nd hi hn hx
      rcases h6 i j nd hn hx with ⟨nd0, g1, g2⟩ | ⟨g1, rfl⟩
      · by_cases hit : i = t
        · subst hit
          rw [h5 nd hn] at hx
          simp at hx
        · exact hs i j nd0 (by omega) g1 g2
      · exact g1
    obtain ⟨m', g1, g2, g3, g4, g5⟩ := ih h2 hs1 (by omega)
    exact ⟨m', by simp only [rehashLoop, h1, Res.bind_ok, g1], g2, g3, by rw [g4, h3], by rw [g5, h4]⟩

theorem rehash_spec (hash : K → Nat) (m : UMap K V) {n : Nat} (hn : 0 < n) :
    ∃ m', rehash hash m n = .ok m' ∧ WF hash m' ∧ SortedUpTo m'.nodes.length m' ∧
      m'.entries = m.entries ∧ m'.buckets.length = n := by
  have w : WFs hash (· < 0) (⟨List.replicate n none, m.nodes⟩ : UMap K V) := by
    refine ⟨by simpa using hn, ?_, ?_, ?_, ?_, ?_, ?_, ⟨id, ?_⟩⟩
    · intro i hi; omega
    · intro i _ hi; omega
    · intro b i hb
      exfalso
      simp [List.getElem?_replicate] at hb
    · intro i _ _ hi; omega
    · intro i _ _ hi; omega
    · intro i _ hi; omega
    · intro i _ _ hi; omega
  have hs : SortedUpTo 0 (⟨List.replicate n none, m.nodes⟩ : UMap K V) := by
    intro i _ _ hi; omega
  obtain ⟨m', h1, h2, h3, h4, h5⟩ := rehashLoop_spec (count := m.nodes.length) w hs (by simp)
  exact ⟨m', h1, h2, h3, h4, by simpa using h5⟩

end UMap
end Coil
