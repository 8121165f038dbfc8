import Verif.Model.FindCost
import Verif.Proofs.UMapRefine

/-! # The keys that a look-up compares: proofs -/

namespace Coil
open Spec
namespace UMap

variable {K V : Type} [DecidableEq K]

theorem findLoopV_spec {hash : K → Nat} {S : Nat → Prop} {m : UMap K V} (w : WFs hash S m) {k : K}
    {r : Nat → Nat} (hr : ∀ i j nd, S i → m.nodes[i]? = some nd → nd.next = some j → r i < r j)
    {fuel : Nat} {i : Nat} (hi : S i) (hf : ahead r m.nodes.length i ≤ fuel) {b : Nat}
    (hb : ∀ nd, m.nodes[i]? = some nd → hash nd.key % m.buckets.length = b) :
    ∃ (o : Option Nat) (idx : List Nat) (ks : List K), findLoopV m.nodes k fuel (some i) = .ok (o, ks) ∧ findLoop m.nodes k fuel (some i) = .ok o ∧
      idx.Nodup ∧ (∀ x ∈ idx, r i ≤ r x) ∧ ks.map some = idx.map (fun x => (m.nodes[x]?).map (·.key)) ∧
      (∀ x ∈ ks, hash x % m.buckets.length = b) ∧
      (o = none → k ∉ ks ∧ ∀ j, Reach m.nodes i j → j ∈ idx) ∧
      (o ≠ none → ∃ pre, ks = pre ++ [k] ∧ k ∉ pre) := by
  induction fuel generalizing i with
  | zero => exact absurd (ahead_pos (r := r) (w.lt i hi)) (by omega)
  | succ fuel ih =>
    obtain ⟨nd, hn⟩ := w.get hi
    have hread : readAt m.nodes i = .ok nd := by simp [readAt, hn]
    simp only [findLoop, findLoopV, hread, Res.bind_ok]
    have hbi := hb nd hn
    by_cases hk : nd.key = k
    · rw [if_pos hk, if_pos hk]
      exact ⟨some i, [i], [nd.key], rfl, rfl, by simp, by simp, by simp [hn], by simpa using hbi, by simp,
        fun _ => ⟨[], by simp [hk]⟩⟩
    · rw [if_neg hk, if_neg hk]
      cases hx : nd.next with
      | none =>
        have e1 : findLoopV m.nodes k fuel none = .ok (none, []) := by cases fuel <;> rfl
        have e2 : findLoop m.nodes k fuel none = .ok none := by cases fuel <;> rfl
        rw [e1, e2]
        refine ⟨none, [i], [nd.key], rfl, rfl, by simp, by simp, by simp [hn], by simpa using hbi, ?_, by simp⟩
        refine fun _ => ⟨by simpa using Ne.symm hk, fun j hj => ?_⟩
        cases hj with
        | refl => simp
        | step h1 h2 _ =>
          rw [hn] at h1
          cases h1
          rw [hx] at h2
          cases h2
      | some j =>
        obtain ⟨hj, hj2⟩ := w.next i j nd hi hn hx
        have hrij := hr i j nd hi hn hx
        have hlt := ahead_lt (w.lt i hi) hrij
        obtain ⟨o, idx, ks, a1, a2, a3, a4, a5, a6, a7, a8⟩ := ih hj (by omega)
          (fun nj hnj => ((hj2 nj hnj).2.trans hbi))
        rw [a1, a2]
        refine ⟨o, i :: idx, nd.key :: ks, rfl, rfl, ?_, ?_, ?_, ?_, ?_, ?_⟩
        · refine List.nodup_cons.2 ⟨fun h => ?_, a3⟩
          have := a4 i h
          omega
        · intro x hx
          rcases List.mem_cons.1 hx with rfl | hx
          · exact Nat.le_refl _
          · have := a4 x hx
            omega
        · simp [hn, a5]
        · intro x hx
          rcases List.mem_cons.1 hx with rfl | hx
          · exact hbi
          · exact a6 x hx
        · intro ho
          obtain ⟨c1, c2⟩ := a7 ho
          refine ⟨by simp [c1, Ne.symm hk], fun l hl => ?_⟩
          cases hl with
          | refl => simp
          | step h1 h2 h3 =>
            rw [hn] at h1
            cases h1
            rw [hx] at h2
            cases h2
            exact List.mem_cons_of_mem _ (c2 l h3)
        · intro ho
          obtain ⟨pre, rfl, hp⟩ := a8 ho
          exact ⟨nd.key :: pre, by simp, by simp [hp, Ne.symm hk]⟩

omit [DecidableEq K] in
/-- Different nodes have different keys, so different indices give different keys. -/
theorem keys_nodup {m : UMap K V} (hn : (m.entries.map Prod.fst).Nodup) {idx : List Nat} {ks : List K} (hi : idx.Nodup)
    (h : ks.map some = idx.map (fun x => (m.nodes[x]?).map (·.key))) : ks.Nodup := by
  induction ks generalizing idx with
  | nil => simp
  | cons a ks ih =>
    cases idx with
    | nil => simp at h
    | cons i idx =>
      simp only [List.map_cons, List.cons.injEq] at h
      obtain ⟨hi1, hi2⟩ := List.nodup_cons.1 hi
      refine List.nodup_cons.2 ⟨fun ha => ?_, ih hi2 h.2⟩
      have : some a ∈ ks.map some := List.mem_map.2 ⟨a, ha, rfl⟩
      rw [h.2] at this
      obtain ⟨j, hj, hj2⟩ := List.mem_map.1 this
      have e : (m.entries.map Prod.fst) = m.nodes.map (·.key) := by
        simp [entries, Function.comp_def]
      rw [e] at hn
      have hij : i = j := by
        have h1 : (m.nodes.map (·.key))[i]? = some a := by rw [List.getElem?_map]; exact h.1.symm
        have h2 : (m.nodes.map (·.key))[j]? = some a := by rw [List.getElem?_map]; exact hj2
        have hl := (List.getElem?_eq_some_iff.1 h1).1
        exact (List.getElem?_inj hl hn).1 (h1.trans h2.symm)
      subst hij
      exact hi1 hj

theorem findIndexV_spec {hash : K → Nat} {m : UMap K V} (w : WF hash m) (hn : (m.entries.map Prod.fst).Nodup) (k : K) :
    ∃ o ks, findIndexV hash m k = .ok (o, ks) ∧ findIndex hash m k = .ok o ∧ ks.Nodup ∧
      (∀ x ∈ ks, x ∈ m.entries.map Prod.fst ∧ hash x % m.buckets.length = hash k % m.buckets.length) ∧
      (k ∉ m.entries.map Prod.fst → ∀ x ∈ m.entries.map Prod.fst, hash x % m.buckets.length = hash k % m.buckets.length → x ∈ ks) ∧
      (k ∈ m.entries.map Prod.fst → ∃ pre, ks = pre ++ [k] ∧ k ∉ pre) := by
  have hB := w.nb
  have hb : bucketOf hash m k = .ok (hash k % m.buckets.length) := by
    unfold bucketOf
    rw [if_neg (by omega)]
  have hlt : hash k % m.buckets.length < m.buckets.length := Nat.mod_lt _ hB
  have hkeys : m.entries.map Prod.fst = m.nodes.map (·.key) := by
    simp [entries, Function.comp_def]
  have get : ∀ x ∈ m.entries.map Prod.fst, ∃ (i : Nat) (nd : UNode K V), m.nodes[i]? = some nd ∧ nd.key = x := by
    intro x hx
    rw [hkeys] at hx
    obtain ⟨nd, h1, h2⟩ := List.mem_map.1 hx
    obtain ⟨i, hi⟩ := List.mem_iff_getElem?.1 h1
    exact ⟨i, nd, hi, h2⟩
  unfold findIndex findIndexV
  simp only [hb, Res.bind_ok, readAt_of_lt hlt]
  cases hf : m.buckets[hash k % m.buckets.length] with
  | none =>
    have none_here : ∀ x ∈ m.entries.map Prod.fst, hash x % m.buckets.length = hash k % m.buckets.length → False := by
      intro x hx hh
      obtain ⟨i, nd, hi, rfl⟩ := get x hx
      obtain ⟨f, hf', _⟩ := w.reach (List.getElem?_eq_some_iff.1 hi).1 hi
      rw [hh, List.getElem?_eq_getElem hlt, hf] at hf'
      cases hf'
    exact ⟨none, [], rfl, rfl, by simp, by simp, fun _ x hx hh => (none_here x hx hh).elim, fun hk => (none_here k hk rfl).elim⟩
  | some f =>
    have hf' : m.buckets[hash k % m.buckets.length]? = some (some f) := by
      rw [List.getElem?_eq_getElem hlt, hf]
    obtain ⟨hS, hS2⟩ := w.head _ _ hf'
    obtain ⟨r, hr⟩ := w.rank
    obtain ⟨o, idx, ks, a1, a2, a3, a4, a5, a6, a7, a8⟩ := findLoopV_spec w (k := k) hr hS
      (fuel := m.nodes.length + 1) (by have := ahead_le r m.nodes.length f; omega) (fun nd hnd => (hS2 nd hnd).2)
    have mem : ∀ x, x ∈ ks ↔ ∃ i ∈ idx, ∃ nd, m.nodes[i]? = some nd ∧ nd.key = x := by
      intro x
      have : x ∈ ks ↔ some x ∈ ks.map some := by simp
      rw [this, a5, List.mem_map]
      constructor
      · rintro ⟨i, hi, h⟩
        obtain ⟨nd, h1, h2⟩ := Option.map_eq_some_iff.1 h
        exact ⟨i, hi, nd, h1, h2⟩
      · rintro ⟨i, hi, nd, h1, h2⟩
        exact ⟨i, hi, by rw [h1, ← h2]; rfl⟩
    have stored : ∀ x ∈ ks, x ∈ m.entries.map Prod.fst := by
      intro x hx
      obtain ⟨i, _, nd, h1, h2⟩ := (mem x).1 hx
      rw [hkeys]
      exact List.mem_map.2 ⟨nd, List.mem_of_getElem? h1, h2⟩
    have found : o = none → ∀ x ∈ m.entries.map Prod.fst, hash x % m.buckets.length = hash k % m.buckets.length → x ∈ ks := by
      intro ho x hx hh
      obtain ⟨i, nd, hi, rfl⟩ := get x hx
      obtain ⟨f', hf2, hreach⟩ := w.reach (List.getElem?_eq_some_iff.1 hi).1 hi
      rw [hh, hf'] at hf2
      cases hf2
      exact (mem _).2 ⟨i, (a7 ho).2 i hreach, nd, hi, rfl⟩
    refine ⟨o, ks, a1, a2, keys_nodup hn a3 a5, fun x hx => ⟨stored x hx, a6 x hx⟩, ?_, ?_⟩
    · intro hk
      refine found ?_
      cases o with
      | none => rfl
      | some i =>
        obtain ⟨pre, hp, _⟩ := a8 (by simp)
        exact absurd (stored k (by rw [hp]; simp)) hk
    · intro hk
      refine a8 fun ho => ?_
      exact (a7 ho).1 (found ho k hk rfl)

omit [DecidableEq K] in
/-- Lists with pairwise different classes, each inside its class. -/
theorem sum_le_of_classes {κ : Type} (cls : K → κ) (l : List (List K × κ)) (all : List K)
    (hd : (l.map Prod.snd).Nodup) (hl : ∀ p ∈ l, p.1.Nodup ∧ ∀ x ∈ p.1, x ∈ all ∧ cls x = p.2) :
    (l.map fun p => p.1.length).sum ≤ all.length := by
  have nd : (l.flatMap Prod.fst).Nodup := by
    induction l with
    | nil => simp
    | cons p l ih =>
      obtain ⟨h1, h2⟩ := List.nodup_cons.1 hd
      rw [List.flatMap_cons]
      refine List.nodup_append.2 ⟨(hl p (by simp)).1, ih h2 (fun q hq => hl q (by simp [hq])), ?_⟩
      intro a ha b hb hab
      subst hab
      obtain ⟨q, hq, hq2⟩ := List.mem_flatMap.1 hb
      have e1 := ((hl p (by simp)).2 a ha).2
      have e2 := ((hl q (by simp [hq])).2 a hq2).2
      exact h1 (List.mem_map.2 ⟨q, hq, e2.symm.trans e1⟩)
  have := nd.length_le_of_subset (l₂ := all) (by
    intro x hx
    obtain ⟨q, hq, hq2⟩ := List.mem_flatMap.1 hx
    exact ((hl q hq).2 x hq2).1)
  rwa [List.length_flatMap] at this

end UMap

/-! ## Names with the same hash -/

/-- A text of the blocks `Ez` and `FY`. -/
def blockName : List Bool → Bytes
  | [] => []
  | true :: bs => 69 :: 122 :: blockName bs
  | false :: bs => 70 :: 89 :: blockName bs

theorem blockName_length (bs : List Bool) : (blockName bs).length = 2 * bs.length := by
  induction bs with
  | nil => rfl
  | cons b bs ih => cases b <;> simp [blockName, ih] <;> omega

theorem blockName_inj {as bs : List Bool} (h : blockName as = blockName bs) : as = bs := by
  induction as generalizing bs with
  | nil =>
    cases bs with
    | nil => rfl
    | cons b bs => cases b <;> simp [blockName] at h
  | cons a as ih =>
    cases bs with
    | nil => cases a <;> simp [blockName] at h
    | cons b bs => cases a <;> cases b <;> simp [blockName] at h <;> rw [ih h]

/-- One step of the hash. -/
private def hashStep (charSigned : Bool) (h : Nat) (c : Byte) : Nat :=
  let c64 := if charSigned = true ∧ 128 ≤ c.toNat then 2 ^ 64 - 256 + c.toNat else c.toNat
  (h * 33 + c64) % 2 ^ 64

private theorem hashStep_pair (charSigned : Bool) (h : Nat) :
    hashStep charSigned (hashStep charSigned h 69) 122 = hashStep charSigned (hashStep charSigned h 70) 89 := by
  have e : ∀ c : Byte, c.toNat < 128 → ∀ h, hashStep charSigned h c = (h * 33 + c.toNat) % 2 ^ 64 := by
    intro c hc h
    unfold hashStep
    rw [if_neg (by omega)]
  rw [e 69 (by decide), e 122 (by decide), e 70 (by decide), e 89 (by decide)]
  rw [show (69 : Byte).toNat = 69 from rfl, show (122 : Byte).toNat = 122 from rfl, show (70 : Byte).toNat = 70 from rfl,
    show (89 : Byte).toNat = 89 from rfl]
  omega

theorem djb2_block (charSigned : Bool) (as bs : List Bool) (h : as.length = bs.length) :
    djb2 charSigned (blockName as) = djb2 charSigned (blockName bs) := by
  suffices hx : ∀ x, (blockName as).foldl (hashStep charSigned) x = (blockName bs).foldl (hashStep charSigned) x from hx 5381
  induction as generalizing bs with
  | nil =>
    cases bs with
    | nil => exact fun _ => rfl
    | cons b bs => simp at h
  | cons a as ih =>
    cases bs with
    | nil => simp at h
    | cons b bs =>
      intro x
      have h' := ih bs (by simpa using h)
      cases a <;> cases b <;> simp only [blockName, List.foldl_cons, hashStep_pair, h']

end Coil
