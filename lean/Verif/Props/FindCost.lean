import Verif.Proofs.FindCost
import Verif.Props.Load

/-!
# C97: the cost of looking up a command

A look-up compares the key with stored keys of its own bucket only, each at most once. The load factor (C60) bounds the average over the
buckets; nothing bounds the worst case, as the hash function does not keep names apart.
-/

namespace Coil
open Spec UMap

variable {K V : Type} [DecidableEq K]

/-- C97: after every history that `erase` performs correctly (or every history of the repaired map), a look-up ends and finds what
`findIndex` finds. The keys it compares are stored keys of the bucket of `k`, none twice. If `k` is not stored they are all of these; if it
is, `k` is compared last. -/
theorem C97_compares_partial {hash : K → Nat} {exceeds : Nat → Nat → Bool} (hex : ∀ b, 0 < b → exceeds 1 b = false) {buckets : Nat}
    (hb : 0 < buckets) {fixed : Bool} (ops : List (DictOp K V)) (hok : fixed = true ∨ SafeFrom .calm [] ops) :
    ∃ m, mapAfter fixed hash exceeds buckets ops = .ok m ∧ ∀ k, ∃ o ks, findIndex hash m k = .ok o ∧
      findIndexV hash m k = .ok (o, ks) ∧ ks.Nodup ∧
      (∀ x ∈ ks, dictAfter ops x ≠ none ∧ hash x % m.buckets.length = hash k % m.buckets.length) ∧
      (dictAfter ops k = none → ∀ x, dictAfter ops x ≠ none → hash x % m.buckets.length = hash k % m.buckets.length → x ∈ ks) ∧
      (dictAfter ops k ≠ none → ∃ pre, ks = pre ++ [k] ∧ k ∉ pre) := by
  obtain ⟨m, h1, h2, ⟨_, h4, _⟩, _⟩ := mapAfter_spec hex hb ops hok
  refine ⟨m, h1, fun k => ?_⟩
  obtain ⟨o, ks, a1, a2, a3, a4, a5, a6⟩ := findIndexV_spec h2 h4.1 k
  have key : ∀ x, x ∈ m.entries.map Prod.fst ↔ dictAfter ops x ≠ none := fun x => by
    rw [mem_keys_iff h4 x, ← Option.isSome_iff_ne_none]
  refine ⟨o, ks, a2, a1, a3, fun x hx => ⟨(key x).1 (a4 x hx).1, (a4 x hx).2⟩, ?_, fun hk => a6 ((key k).2 hk)⟩
  intro hk x hx hh
  exact a5 (fun h => (key k).1 h hk) x ((key x).2 hx) hh

/-- C97: looking up keys of pairwise different buckets compares at most as many keys as are stored. So with a load factor `p / q` a look-up
compares `p / q` keys on average over the buckets. -/
theorem C97_average_partial {hash : K → Nat} {p q : Nat} (hpq : q ≤ p) {buckets : Nat} (hb : 0 < buckets)
    {fixed : Bool} (ops : List (DictOp K V)) (hok : fixed = true ∨ SafeFrom .calm [] ops) :
    ∃ m, mapAfter fixed hash (overRatio p q) buckets ops = .ok m ∧ m.size * q ≤ p * m.buckets.length ∧
      ∀ found : List (K × List K), (∀ x ∈ found, ∃ o, findIndexV hash m x.1 = .ok (o, x.2)) →
        (found.map fun x => hash x.1 % m.buckets.length).Nodup → (found.map fun x => x.2.length).sum ≤ m.size := by
  have hex : ∀ b, 0 < b → overRatio p q 1 b = false := (sensible_ratio hpq).one
  obtain ⟨m, h1, h2, ⟨_, h4, h5⟩, _⟩ := mapAfter_spec hex hb ops hok
  refine ⟨m, h1, C60_load_ratio_partial hpq hb ops h1, fun found hf hd => ?_⟩
  have := sum_le_of_classes (fun x => hash x % m.buckets.length) (found.map fun x => (x.2, hash x.1 % m.buckets.length))
    (m.entries.map Prod.fst) (by simpa [Function.comp_def] using hd) (by
      intro y hy
      obtain ⟨x, hx, rfl⟩ := List.mem_map.1 hy
      obtain ⟨o, ho⟩ := hf x hx
      obtain ⟨o', ks, a1, _, a3, a4, _⟩ := findIndexV_spec h2 h4.1 x.1
      rw [ho] at a1
      cases a1
      exact ⟨a3, a4⟩)
  rw [h5]
  simpa [Function.comp_def] using this

/-- C97: the names made of `n` blocks `Ez` and `FY`, of which there are `2 ^ n`, all have the same hash. -/
theorem C97_collide (charSigned : Bool) (as bs : List Bool) (h : as.length = bs.length) :
    djb2 charSigned (blockName as) = djb2 charSigned (blockName bs) ∧ (as ≠ bs → blockName as ≠ blockName bs) ∧
      (blockName as).length = 2 * as.length :=
  ⟨djb2_block charSigned as bs h, fun hne e => hne (blockName_inj e), blockName_length as⟩

theorem safe_puts (l : List (K × V)) (xs : List (K × V)) (ph : Phase) : SafeFrom ph l (xs.map fun x => DictOp.put x.1 x.2) := by
  induction xs generalizing l ph with
  | nil => trivial
  | cons x xs ih => exact ⟨trivial, ih _ _⟩

theorem order_puts (l xs : List (K × V)) (h : ((l ++ xs).map Prod.fst).Nodup) :
    (xs.map fun x => DictOp.put x.1 x.2).foldl orderStep l = l ++ xs := by
  induction xs generalizing l with
  | nil => simp
  | cons x xs ih =>
    have hx : x.1 ∉ l.map Prod.fst := by
      rw [List.map_append, List.nodup_append] at h
      intro hm
      exact h.2.2 x.1 hm x.1 (by simp) rfl
    simp only [List.map_cons, List.foldl_cons, orderStep]
    rw [if_neg hx, ih (l ++ [(x.1, x.2)]) (by simpa using h)]
    simp

/-- The `i`-th of `n + 1` names. -/
def blockAt (n i : Nat) : Bytes := blockName (List.replicate i true ++ List.replicate (n - i) false)

theorem blockAt_inj {n i j : Nat} (h : blockAt n i = blockAt n j) : i = j := by
  have := congrArg (List.count true) (blockName_inj h)
  simpa [List.count_append, List.count_replicate] using this

/-- **C97, negation for single look-ups.** For every `n` there are `n` names of `2 n` characters such that registering them one after the
other, in a map with any load factor and any number of buckets, compares each with all that are there already. -/
theorem C97_constant_false (charSigned : Bool) {exceeds : Nat → Nat → Bool} (hex : ∀ b, 0 < b → exceeds 1 b = false) {buckets : Nat}
    (hb : 0 < buckets) (fixed : Bool) (v : V) (n : Nat) :
    ∃ names : List Bytes, names.length = n ∧ names.Nodup ∧ (∀ x ∈ names, x.length = 2 * n) ∧ ∀ i (hi : i < names.length),
      ∃ m ks, mapAfter fixed (djb2 charSigned) exceeds buckets ((names.take i).map fun x => DictOp.put x v) = .ok m ∧
        findIndexV (djb2 charSigned) m names[i] = .ok (none, ks) ∧ ks.length = i := by
  have hn : ((List.range n).map (blockAt n)).Nodup :=
    List.Pairwise.map (R := (· ≠ ·)) _ (fun a b hab h => hab (blockAt_inj h)) List.nodup_range
  have hlen : ∀ i ∈ List.range n, (List.replicate i true ++ List.replicate (n - i) false).length = n := by
    intro i hi
    have := List.mem_range.1 hi
    simp
    omega
  refine ⟨(List.range n).map (blockAt n), by simp, hn, ?_, ?_⟩
  · intro x hx
    obtain ⟨i, hi, rfl⟩ := List.mem_map.1 hx
    rw [blockAt, blockName_length, hlen i hi]
  · intro i hi
    generalize hN : (List.range n).map (blockAt n) = names at hn hi
    have same : ∀ x ∈ names, ∀ y ∈ names, djb2 charSigned x = djb2 charSigned y := by
      intro x hx y hy
      rw [← hN] at hx hy
      obtain ⟨a, ha, rfl⟩ := List.mem_map.1 hx
      obtain ⟨b, hb, rfl⟩ := List.mem_map.1 hy
      exact djb2_block charSigned _ _ ((hlen a ha).trans (hlen b hb).symm)
    have e : (names.take i).map (fun x => DictOp.put x v) = ((names.take i).map fun x => (x, v)).map fun x => DictOp.put x.1 x.2 := by
      simp [Function.comp_def]
    have hnt : (names.take i).Nodup := hn.sublist (List.take_sublist ..)
    obtain ⟨m, h1, h2, ⟨_, h4, _⟩, h6⟩ := mapAfter_spec (hash := djb2 charSigned) hex hb (fixed := fixed)
      ((names.take i).map fun x => DictOp.put x v) (.inr (by rw [e]; exact safe_puts _ _ _))
    have hent : m.entries.map Prod.fst = names.take i := by
      rw [h6, orderAfter, e, order_puts [] _ (by simpa [Function.comp_def] using hnt)]
      simp [Function.comp_def]
    have hni : names[i] ∉ m.entries.map Prod.fst := by
      rw [hent]
      intro hm
      obtain ⟨j, hj, hj2⟩ := List.mem_iff_getElem.1 hm
      rw [List.getElem_take] at hj2
      have hji : j = i := (List.getElem_inj hn).1 hj2
      simp at hj
      omega
    obtain ⟨o, ks, a1, a2, a3, a4, a5, _⟩ := findIndexV_spec h2 h4.1 names[i]
    have ho : o = none := by
      rcases findIndex_spec h2 names[i] with ⟨j, nd, b1, b2, b3⟩ | ⟨b1, _⟩
      · refine absurd ?_ hni
        rw [← b3]
        exact List.mem_map.2 ⟨(nd.key, nd.value), List.mem_map.2 ⟨nd, List.mem_of_getElem? b2, rfl⟩, rfl⟩
      · rw [a2] at b1
        cases b1
        rfl
    subst ho
    refine ⟨m, ks, h1, a1, ?_⟩
    have sub1 : ks.length ≤ (names.take i).length := a3.length_le_of_subset fun x hx => hent ▸ (a4 x hx).1
    have sub2 : (names.take i).length ≤ ks.length := hnt.length_le_of_subset fun x hx => by
      refine a5 hni x (hent ▸ hx) ?_
      rw [same x (List.take_subset _ _ hx) names[i] (List.getElem_mem hi)]
    rw [List.length_take] at sub1 sub2
    omega

/-- The keys that a look-up in the map after a history compares, for the examples. -/
abbrev comparedIn (ops : List (DictOp Bytes Nat)) (k : Bytes) : Option (List Bytes) :=
  match demoMap false ops with
  | .ok m => match findIndexV (djb2 true) m k with
    | .ok (_, ks) => some ks
    | _ => none
  | _ => none

/-- `b` and `f` share a bucket of the four, `a` has its own. -/
example : comparedIn [.put (lit "a") 1, .put (lit "b") 2, .put (lit "f") 3] (lit "f") = some [lit "b", lit "f"] ∧
    comparedIn [.put (lit "a") 1, .put (lit "b") 2, .put (lit "f") 3] (lit "a") = some [lit "a"] ∧
    comparedIn [.put (lit "a") 1, .put (lit "b") 2, .put (lit "f") 3] (lit "j") = some [lit "b", lit "f"] := by
  refine ⟨?_, ?_, ?_⟩ <;> decide +kernel

/-- Four names in one bucket. -/
example : comparedIn [.put (lit "EzEz") 1, .put (lit "EzFY") 2, .put (lit "FYEz") 3] (lit "FYFY") =
    some [lit "EzEz", lit "EzFY", lit "FYEz"] := by decide +kernel

end Coil
