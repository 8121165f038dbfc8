import Verif.Proofs.UMapRefine

/-!
# What the operations of the map do to its entries

These facts need no invariant: they hold in every state of the map, also after the links have been damaged by `erase`.
-/

namespace Coil
namespace UMap

variable {K V : Type} [DecidableEq K] {hash : K → Nat} {m m' : UMap K V} {k : K}

/-- Key and value of a node. -/
abbrev kv (nd : UNode K V) : K × V := (nd.key, nd.value)

omit [DecidableEq K] in
theorem entries_eq (m : UMap K V) : m.entries = m.nodes.map kv := rfl

omit [DecidableEq K] in
theorem modifyAt_kv {l l' : List (UNode K V)} {i : Nat} {f : UNode K V → UNode K V} (hf : ∀ n, kv (f n) = kv n)
    (h : modifyAt l i f = .ok l') : l'.map kv = l.map kv := by
  unfold modifyAt at h
  split at h
  · rename_i a ha
    cases h
    rw [List.map_set, hf]
    apply List.ext_getElem?
    intro j
    rw [List.getElem?_set]
    by_cases hj : i = j
    · subst hj
      simp only [List.length_map, if_true, List.getElem?_map, ha, Option.map_some]
      rw [if_pos]
      rcases Nat.lt_or_ge i l.length with h | h
      · exact h
      · rw [List.getElem?_eq_none h] at ha; cases ha
    · rw [if_neg hj]
  · cases h

omit [DecidableEq K] in
theorem insertLoop_kv {nodes nodes' : List (UNode K V)} {new : Nat} : ∀ {fuel i : Nat},
    insertLoop nodes new fuel i = .ok nodes' → nodes'.map kv = nodes.map kv := by
  intro fuel
  induction fuel with
  | zero => intro i h; simp [insertLoop] at h
  | succ fuel ih =>
    intro i h
    simp only [insertLoop, Res.bind_eq_ok] at h
    obtain ⟨nd, _, h⟩ := h
    split at h
    · obtain ⟨n1, h1, h2⟩ := Res.bind_eq_ok.1 h
      rw [modifyAt_kv (by intro n; rfl) h2, modifyAt_kv (by intro n; rfl) h1]
    · exact ih h

omit [DecidableEq K] in
theorem insertNode_kv {new : Nat} (h : insertNode hash m new = .ok m') : m'.entries = m.entries := by
  simp only [insertNode, Res.bind_eq_ok] at h
  obtain ⟨nd, _, b, _, n1, h1, first, _, h⟩ := h
  have e1 := modifyAt_kv (by intro n; rfl) h1
  split at h
  · obtain ⟨bs, _, h⟩ := Res.bind_eq_ok.1 h
    cases h
    exact e1
  · obtain ⟨n2, h2, h⟩ := Res.bind_eq_ok.1 h
    cases h
    exact (insertLoop_kv h2).trans e1

omit [DecidableEq K] in
theorem rehashLoop_kv : ∀ {count i : Nat} {m : UMap K V}, rehashLoop hash count i m = .ok m' → m'.entries = m.entries := by
  intro count
  induction count with
  | zero => intro i m h; cases h; rfl
  | succ count ih =>
    intro i m h
    simp only [rehashLoop, Res.bind_eq_ok] at h
    obtain ⟨m1, h1, h2⟩ := h
    rw [ih h2, insertNode_kv h1]

omit [DecidableEq K] in
theorem growIfNeeded_kv {exceeds : Nat → Nat → Bool} (h : growIfNeeded hash exceeds m = .ok m') :
    m'.entries = m.entries := by
  unfold growIfNeeded rehash at h
  split at h
  · have := rehashLoop_kv h
    exact this
  · cases h; rfl

omit [DecidableEq K] in
/-- The second half of `unlink`. -/
theorem unlink_tail {i : Nat} {m1 : UMap K V} {e1 : UNode K V}
    (h : (match e1.next with
      | some q => do
        let nodes2 ← modifyAt m1.nodes q (fun n => { n with prev := e1.prev })
        let nodes3 ← modifyAt nodes2 i (fun n => { n with prev := none, next := none })
        Res.ok (⟨m1.buckets, nodes3⟩ : UMap K V)
      | none => do
        let nodes2 ← Res.ok m1.nodes
        let nodes3 ← modifyAt nodes2 i (fun n => { n with prev := none, next := none })
        Res.ok (⟨m1.buckets, nodes3⟩ : UMap K V)) = .ok m') : m'.entries = m1.entries := by
  split at h
  · simp only [Res.bind_eq_ok] at h
    obtain ⟨n2, h2, n3, h3, h⟩ := h
    cases h
    exact (modifyAt_kv (by intro n; rfl) h3).trans (modifyAt_kv (by intro n; rfl) h2)
  · simp only [Res.bind_eq_ok] at h
    obtain ⟨n2, h2, n3, h3, h⟩ := h
    cases h
    cases h2
    exact modifyAt_kv (by intro n; rfl) h3

omit [DecidableEq K] in
theorem unlink_kv {i : Nat} (h : unlink m i = .ok m') : m'.entries = m.entries := by
  unfold unlink at h
  obtain ⟨e, _, h⟩ := Res.bind_eq_ok.1 h
  split at h
  · obtain ⟨n1, h1, h⟩ := Res.bind_eq_ok.1 h
    obtain ⟨m1, h2, h⟩ := Res.bind_eq_ok.1 h
    obtain ⟨e1, _, h⟩ := Res.bind_eq_ok.1 h
    cases h2
    rw [unlink_tail h]
    exact modifyAt_kv (by intro n; rfl) h1
  · obtain ⟨n1, h1, h⟩ := Res.bind_eq_ok.1 h
    obtain ⟨m1, h2, h⟩ := Res.bind_eq_ok.1 h
    obtain ⟨e1, _, h⟩ := Res.bind_eq_ok.1 h
    cases h2
    rw [unlink_tail h]
    rfl

/-- The place where a key is found holds that key. -/
theorem findIndex_key {i : Nat} (h : findIndex hash m k = .ok (some i)) :
    ∃ nd, m.nodes[i]? = some nd ∧ nd.key = k := by
  simp only [findIndex, Res.bind_eq_ok] at h
  obtain ⟨b, _, first, _, h⟩ := h
  exact findLoop_sound h

theorem find_some_split {v : V} (h : find hash m k = .ok (some v)) :
    ∃ i l1 l2, findIndex hash m k = .ok (some i) ∧ m.entries = l1 ++ (k, v) :: l2 ∧ l1.length = i := by
  simp only [find, Res.bind_eq_ok] at h
  obtain ⟨o, h1, h2⟩ := h
  cases o with
  | none => cases h2
  | some i =>
    obtain ⟨nd, g1, g2⟩ := findIndex_key h1
    simp only [readAt_ok g1, Res.bind_ok, Res.ok.injEq, Option.some.injEq] at h2
    subst h2
    refine ⟨i, m.entries.take i, m.entries.drop (i + 1), h1, ?_, ?_⟩
    · have hi : i < m.nodes.length := by
        rcases Nat.lt_or_ge i m.nodes.length with h | h
        · exact h
        · rw [List.getElem?_eq_none h] at g1; cases g1
      have hi' : i < m.entries.length := by rw [entries_length]; exact hi
      have e : m.entries[i] = (k, nd.value) := by
        simp only [entries, List.getElem_map]
        rw [List.getElem?_eq_getElem hi] at g1
        cases g1
        rw [g2]
      rw [← e, List.getElem_cons_drop, List.take_append_drop]
    · rw [List.length_take, entries_length]
      rcases Nat.lt_or_ge i m.nodes.length with h | h
      · omega
      · rw [List.getElem?_eq_none h] at g1; cases g1

theorem find_none_index (h : find hash m k = .ok none) : findIndex hash m k = .ok none := by
  simp only [find, Res.bind_eq_ok] at h
  obtain ⟨o, h1, h2⟩ := h
  cases o with
  | none => exact h1
  | some i =>
    obtain ⟨nd, g1, g2⟩ := findIndex_key h1
    simp [readAt_ok g1] at h2

/-- A found entry is an entry. -/
theorem find_mem {v : V} (h : find hash m k = .ok (some v)) : (k, v) ∈ m.entries := by
  obtain ⟨i, l1, l2, _, h, _⟩ := find_some_split h
  simp [h]

/-- Inserting a key that is not found appends an entry. -/
theorem put_new {exceeds : Nat → Nat → Bool} {v : V} (hf : find hash m k = .ok none)
    (h : insertOrAssign hash exceeds m k v = .ok m') : m'.entries = m.entries ++ [(k, v)] := by
  simp only [insertOrAssign, find_none_index hf, Res.bind_ok, Res.bind_eq_ok] at h
  obtain ⟨m1, h1, h2⟩ := h
  rw [insertNode_kv h2]
  have := growIfNeeded_kv h1
  simp only [entries_eq, List.map_append, List.map_cons, List.map_nil] at this ⊢
  rw [this]

/-- Assigning to a key that is found replaces the value of the found entry. -/
theorem put_old {exceeds : Nat → Nat → Bool} {v v0 : V} (hf : find hash m k = .ok (some v0))
    (h : insertOrAssign hash exceeds m k v = .ok m') :
    ∃ l1 l2, m.entries = l1 ++ (k, v0) :: l2 ∧ m'.entries = l1 ++ (k, v) :: l2 := by
  obtain ⟨i, l1, l2, h1, h2, h3⟩ := find_some_split hf
  obtain ⟨nd, g1, g2⟩ := findIndex_key h1
  simp only [insertOrAssign, h1, Res.bind_ok, modifyAt_ok g1, Res.ok.injEq] at h
  subst h
  refine ⟨l1, l2, h2, ?_⟩
  simp only [entries_eq, List.map_set] at h2 ⊢
  rw [h2, ← h3, List.set_append_right _ _ (Nat.le_refl _), Nat.sub_self, List.set_cons_zero]
  simp only [kv, g2]

omit [DecidableEq K] in
/-- The second half of `fillHole`. -/
theorem fillHole_tail {fixed : Bool} {i : Nat} {m1 : UMap K V} (hm : m1.entries = m.entries)
    (hi : i < m.nodes.length - 1)
    (h : (do
      let l1 ← readAt m1.nodes (m.nodes.length - 1)
      let nodes2 ← relinkNext fixed m1.nodes l1.next i
      let e ← readAt nodes2 i
      let l2 ← readAt nodes2 (m.nodes.length - 1)
      let nodes3 ← writeAt nodes2 i l2
      let nodes4 ← writeAt nodes3 (m.nodes.length - 1) e
      Res.ok (⟨m1.buckets, nodes4.dropLast⟩ : UMap K V)) = .ok m') :
    m'.entries.Perm (m.entries.take i ++ m.entries.drop (i + 1)) := by
  simp only [Res.bind_eq_ok] at h
  obtain ⟨l1, hl1, n2, h2, e, he, l2, hl2, n3, h3, n4, h4, h⟩ := h
  cases h
  have a2 : n2.map kv = m1.nodes.map kv := by
    unfold relinkNext at h2
    split at h2
    · exact modifyAt_kv (by intro n; rfl) h2
    · cases h2; rfl
  have ekv : m.entries = n2.map kv := by rw [← hm, a2]; rfl
  have hlen : n2.length = m.nodes.length := by
    have := congrArg List.length ekv
    simp [entries_length] at this
    exact this.symm
  unfold writeAt at h3 h4
  split at h3
  · cases h3
    split at h4
    · cases h4
      have hl2' : n2[m.nodes.length - 1]'(by omega) = l2 := by
        unfold readAt at hl2
        rw [List.getElem?_eq_getElem (by omega)] at hl2
        simpa using hl2
      rw [ekv]
      simp only [entries_eq]
      have hlast : n2 = n2.dropLast ++ [l2] := by
        have := List.dropLast_concat_getLast (l := n2) (by intro h0; rw [h0] at hlen; simp at hlen; omega)
        rw [List.getLast_eq_getElem] at this
        simp only [hlen, hl2'] at this
        exact this.symm
      have hds : n2.dropLast.length = m.nodes.length - 1 := by simp [hlen]
      generalize n2.dropLast = ds at hlast hds
      subst hlast
      have hi2 : i < ds.length := by omega
      have e1 : (((ds ++ [l2]).set i l2).set (m.nodes.length - 1) e).dropLast = ds.set i l2 := by
        rw [List.set_append_left _ _ hi2, List.set_append_right _ _ (by simp [hds])]
        simp [hds]
      rw [e1]
      have e2 : List.map kv (ds ++ [l2]) = ds.map kv ++ [kv l2] := by simp
      rw [e2, List.take_append_of_le_length (by simp; omega), List.drop_append_of_le_length (by simp; omega),
        List.map_set]
      have e3 : (ds.map kv).set i (kv l2) = (ds.map kv).take i ++ kv l2 :: (ds.map kv).drop (i + 1) := by
        rw [List.set_eq_take_append_cons_drop, if_pos (by simp; exact hi2)]
      rw [e3]
      refine List.Perm.append_left _ ?_
      exact (List.perm_append_singleton _ _).symm
    · cases h4
  · cases h3

omit [DecidableEq K] in
theorem fillHole_kv {fixed : Bool} {i : Nat} (hi : i < m.nodes.length) (h : fillHole fixed m i = .ok m') :
    ∃ l1 z l2, m.entries = l1 ++ z :: l2 ∧ l1.length = i ∧ m'.entries.Perm (l1 ++ l2) := by
  have hsplit : m.entries = m.entries.take i ++ m.entries[i]'(by rw [entries_length]; exact hi) :: m.entries.drop (i + 1) := by
    rw [List.getElem_cons_drop, List.take_append_drop]
  refine ⟨_, _, _, hsplit, by rw [List.length_take, entries_length]; omega, ?_⟩
  unfold fillHole at h
  split at h
  · rename_i hne
    obtain ⟨l, hl, h⟩ := Res.bind_eq_ok.1 h
    split at h
    · obtain ⟨n1, h1, h⟩ := Res.bind_eq_ok.1 h
      obtain ⟨m1, h2, h⟩ := Res.bind_eq_ok.1 h
      cases h2
      exact fillHole_tail (modifyAt_kv (by intro n; rfl) h1) (by omega) h
    · obtain ⟨n1, h1, h⟩ := Res.bind_eq_ok.1 h
      obtain ⟨m1, h2, h⟩ := Res.bind_eq_ok.1 h
      cases h2
      exact fillHole_tail (m1 := ⟨n1, m.nodes⟩) rfl (by omega) h
  · rename_i hne
    cases h
    have hi' : i = m.nodes.length - 1 := Classical.byContradiction fun h => hne h
    have e0 : (m.entries.drop (i + 1)) = [] := by
      apply List.drop_eq_nil_of_le
      rw [entries_length]
      omega
    rw [e0, List.append_nil]
    simp only [entries_eq, List.map_dropLast]
    rw [List.dropLast_eq_take]
    simp only [List.length_map, ← hi']
    exact List.Perm.refl _

/-- Removing a key that is found removes the found entry and no other. -/
theorem erase_found {fixed : Bool} {v0 : V} (hf : find hash m k = .ok (some v0))
    (h : eraseWith hash fixed m k = .ok m') : m.entries.Perm ((k, v0) :: m'.entries) := by
  obtain ⟨i, l1, l2, h1, h2, h3⟩ := find_some_split hf
  simp only [eraseWith, h1, Res.bind_ok, Res.bind_eq_ok] at h
  obtain ⟨m1, h4, h5⟩ := h
  have e1 := unlink_kv h4
  have hi : i < m1.nodes.length := by
    rw [← entries_length, e1, h2]
    simp
    omega
  obtain ⟨k1, z, k2, g1, g2, g3⟩ := fillHole_kv hi h5
  rw [e1, h2] at g1
  obtain ⟨rfl, g4⟩ := List.append_inj g1 (by omega)
  cases g4
  rw [h2]
  exact List.perm_middle.trans (List.Perm.cons _ g3.symm)

/-- Removing a key that is not found changes nothing. -/
theorem erase_missing {fixed : Bool} (hf : find hash m k = .ok none)
    (h : eraseWith hash fixed m k = .ok m') : m' = m := by
  simp only [eraseWith, find_none_index hf, Res.bind_ok, Res.ok.injEq] at h
  exact h.symm

end UMap
end Coil
