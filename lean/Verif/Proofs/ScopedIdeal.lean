import Verif.Proofs.Scoped

/-! # Scoped commands: what happens and what is meant to happen -/

namespace Coil
namespace Scoped
open Spec Spec.Scoped

variable {C D : Type} {acts : List (Act C D)} {f f' : Flat C D} {a : Act C D}

theorem ideal_snoc (acts : List (Act C D)) (a : Act C D) : ideal (acts ++ [a]) = (ideal acts).step a := by
  simp [ideal]

theorem claims_snoc {i : Nat} {n : Bytes} : Claims (acts ++ [a]) i n ↔
    (∃ fs, a = .addIn i n fs) ∨ (∃ j, a = .move j ∧ i = (ideal acts).alive.length ∧ Claims acts j n) ∨
    (∃ j, a = .assign i j ∧ i ≠ j ∧ Claims acts j n) ∨
    (Claims acts i n ∧ a ≠ .move i ∧ a ≠ .close i ∧ (∀ j, a ≠ .assign i j) ∧ (∀ j, a ≠ .assign j i)) := by
  constructor
  · intro h
    generalize hl : acts ++ [a] = l at h
    cases h with
    | added => obtain ⟨rfl, h2⟩ := List.append_inj' hl rfl; cases h2; exact .inl ⟨_, rfl⟩
    | moved h => obtain ⟨rfl, h2⟩ := List.append_inj' hl rfl; cases h2; exact .inr (.inl ⟨_, rfl, rfl, h⟩)
    | assigned h hne => obtain ⟨rfl, h2⟩ := List.append_inj' hl rfl; cases h2; exact .inr (.inr (.inl ⟨_, rfl, hne, h⟩))
    | kept h h1 h2 h3 h4 => obtain ⟨rfl, h5⟩ := List.append_inj' hl rfl; cases h5; exact .inr (.inr (.inr ⟨h, h1, h2, h3, h4⟩))
  · rintro (⟨fs, rfl⟩ | ⟨j, rfl, rfl, h⟩ | ⟨j, rfl, hne, h⟩ | ⟨h, h1, h2, h3, h4⟩)
    · exact .added
    · exact .moved h
    · exact .assigned h hne
    · exact .kept h h1 h2 h3 h4

theorem claims_nil {i : Nat} {n : Bytes} : ¬ Claims ([] : List (Act C D)) i n := by
  intro h
  generalize hl : ([] : List (Act C D)) = l at h
  cases h <;> simp at hl

/-- What holds after any actions. -/
structure Inv (acts : List (Act C D)) (f : Flat C D) : Prop where
  alive : (ideal acts).alive = f.scopes.map Option.isSome
  names : ∀ i n, Claims acts i n ↔ ∃ ns, f.names i = some ns ∧ n ∈ ns
  reg : f.dict.isSome = (ideal acts).commands.isSome
  sub : ∀ d e n fs, f.dict = some d → (ideal acts).commands = some e → d n = some fs →
    ∃ o, e n = some (o, fs) ∧ ∀ i, o = some i → Claims acts i n

/-- What holds after exclusive actions. -/
def Full (acts : List (Act C D)) (f : Flat C D) : Prop :=
  ∀ d e n o fs, f.dict = some d → (ideal acts).commands = some e → e n = some (o, fs) → d n = some fs ∧ ∀ i, Claims acts i n → o = some i

theorem Flat.names_lt {i : Nat} {ns : List Bytes} (h : f.names i = some ns) : i < f.scopes.length := by
  unfold Flat.names at h
  rcases Nat.lt_or_ge i f.scopes.length with hc | hc
  · exact hc
  · rw [List.getElem?_eq_none hc] at h; cases h

theorem Flat.remove_some {ns : List Bytes} (h : f.remove ns = some f') :
    f'.scopes = f.scopes ∧ f'.dict = f.dict.map (fun d k => if k ∈ ns then none else d k) := by
  unfold Flat.remove at h
  split at h
  · rename_i e
    cases h
    subst e
    refine ⟨rfl, ?_⟩
    cases f.dict with
    | none => rfl
    | some d => simp
  · obtain ⟨d, h1, rfl⟩ := Option.map_eq_some_iff.1 h
    exact ⟨rfl, by rw [h1]; rfl⟩

theorem Flat.put_some {n : Bytes} {fs : List (C × D)} (h : f.put n fs = some f') :
    ∃ d, f.dict = some d ∧ f'.scopes = f.scopes ∧ f'.dict = some (fun k => if k = n then some fs else d k) := by
  obtain ⟨d, h1, rfl⟩ := Option.map_eq_some_iff.1 h
  exact ⟨d, h1, rfl, rfl⟩

theorem getElem?_set_join (l : List (Option (List Bytes))) (i k : Nat) (x : Option (List Bytes)) (hi : i < l.length) :
    ((l.set i x)[k]?).join = if i = k then x else (l[k]?).join := by
  rw [List.getElem?_set]
  split
  · rename_i e; subst e; simp [hi]
  · rfl

theorem inv_nil : Inv ([] : List (Act C D)) ⟨none, []⟩ := by
  refine ⟨rfl, fun i n => ?_, rfl, ?_⟩
  · constructor
    · intro h; exact absurd h claims_nil
    · rintro ⟨ns, h, _⟩; simp [Flat.names] at h
  · intro d e n fs h; cases h

theorem full_nil : Full ([] : List (Act C D)) ⟨none, []⟩ := by
  intro d e n o fs h; cases h

/-- Claims stay as they are under actions that do not concern scopes. -/
theorem claims_same {i : Nat} {n : Bytes} (h1 : ∀ i n fs, a ≠ .addIn i n fs) (h2 : ∀ i, a ≠ .move i) (h3 : ∀ i j, a ≠ .assign i j)
    (h4 : ∀ i, a ≠ .close i) : Claims (acts ++ [a]) i n ↔ Claims acts i n := by
  rw [claims_snoc]
  constructor
  · rintro (⟨fs, rfl⟩ | ⟨j, rfl, _⟩ | ⟨j, rfl, _⟩ | ⟨h, _⟩)
    · exact (h1 _ _ _ rfl).elim
    · exact (h2 _ rfl).elim
    · exact (h3 _ _ rfl).elim
    · exact h
  · intro h
    exact .inr (.inr (.inr ⟨h, h2 _, h4 _, h3 _, fun j => h3 j _⟩))

theorem Inv.len (hi : Inv acts f) : (ideal acts).alive.length = f.scopes.length := by rw [hi.alive, List.length_map]

theorem claims_close {i k : Nat} {n : Bytes} : Claims (acts ++ [.close i]) k n ↔ Claims acts k n ∧ k ≠ i := by
  rw [claims_snoc]
  constructor
  · rintro (⟨fs, h⟩ | ⟨j, h, _⟩ | ⟨j, h, _⟩ | ⟨h, _, h2, _⟩)
    · cases h
    · cases h
    · cases h
    · exact ⟨h, fun e => h2 (by rw [e])⟩
  · rintro ⟨h, h1⟩
    exact .inr (.inr (.inr ⟨h, by simp, by simpa using Ne.symm h1, by simp, by simp⟩))

theorem claims_addIn {i k : Nat} {n m : Bytes} {fs : List (C × D)} :
    Claims (acts ++ [.addIn i n fs]) k m ↔ Claims acts k m ∨ (k = i ∧ m = n) := by
  rw [claims_snoc]
  constructor
  · rintro (⟨fs', h⟩ | ⟨j, h, _⟩ | ⟨j, h, _⟩ | ⟨h, _⟩)
    · cases h; exact .inr ⟨rfl, rfl⟩
    · cases h
    · cases h
    · exact .inl h
  · rintro (h | ⟨rfl, rfl⟩)
    · exact .inr (.inr (.inr ⟨h, by simp, by simp, by simp, by simp⟩))
    · exact .inl ⟨fs, rfl⟩

theorem claims_move {i k : Nat} {n : Bytes} : Claims (acts ++ [.move i]) k n ↔
    (Claims acts k n ∧ k ≠ i) ∨ (k = (ideal acts).alive.length ∧ Claims acts i n) := by
  rw [claims_snoc]
  constructor
  · rintro (⟨fs', h⟩ | ⟨j, h, h1, h2⟩ | ⟨j, h, _⟩ | ⟨h, h1, _⟩)
    · cases h
    · cases h; exact .inr ⟨h1, h2⟩
    · cases h
    · exact .inl ⟨h, fun e => h1 (by rw [e])⟩
  · rintro (⟨h, h1⟩ | ⟨rfl, h⟩)
    · exact .inr (.inr (.inr ⟨h, by simpa using Ne.symm h1, by simp, by simp, by simp⟩))
    · exact .inr (.inl ⟨i, rfl, rfl, h⟩)

theorem claims_assign {i j k : Nat} {n : Bytes} : Claims (acts ++ [.assign i j]) k n ↔
    (Claims acts k n ∧ k ≠ i ∧ k ≠ j) ∨ (k = i ∧ i ≠ j ∧ Claims acts j n) := by
  rw [claims_snoc]
  constructor
  · rintro (⟨fs', h⟩ | ⟨j', h, _⟩ | ⟨j', h, h1, h2⟩ | ⟨h, _, _, h1, h2⟩)
    · cases h
    · cases h
    · cases h; exact .inr ⟨rfl, h1, h2⟩
    · exact .inl ⟨h, fun e => h1 j (by rw [e]), fun e => h2 i (by rw [e])⟩
  · rintro (⟨h, h1, h2⟩ | ⟨rfl, h1, h2⟩)
    · exact .inr (.inr (.inr ⟨h, by simp, by simp, by simpa using fun e => absurd e.symm h1, by simpa using Ne.symm h2⟩))
    · exact .inr (.inr (.inl ⟨j, rfl, h1, h2⟩))

theorem map_isSome_set (l : List (Option (List Bytes))) (i : Nat) (x : Option (List Bytes)) :
    (l.set i x).map Option.isSome = (l.map Option.isSome).set i x.isSome := by
  rw [List.map_set]

theorem set_same {α : Type} (l : List α) (i : Nat) (x : α) (h : l[i]? = some x) : l.set i x = l := by
  apply List.ext_getElem?
  intro k
  rw [List.getElem?_set]
  split
  · rename_i e
    subst e
    split
    · exact h.symm
    · rename_i hk
      rw [List.getElem?_eq_none (by omega)] at h
      cases h
  · rfl

theorem alive_of_names {i : Nat} {ns : List Bytes} (h : f.names i = some ns) : (f.scopes.map Option.isSome)[i]? = some true := by
  unfold Flat.names at h
  rw [List.getElem?_map]
  cases hs : f.scopes[i]? with
  | none => rw [hs] at h; cases h
  | some o =>
    rw [hs] at h
    cases o with
    | none => cases h
    | some ms => rfl

/-- What is known of the states, in one statement about the commands. -/
theorem Inv.step_aux (hinv : Inv acts f) (hst : f.step a = some f') :
    Inv (acts ++ [a]) f' ∧ (Full acts f → Polite acts a → Full (acts ++ [a]) f') := by
  cases a with
  | make =>
    cases hst
    have hc : ∀ i n, Claims (acts ++ [.make]) i n ↔ Claims acts i n := fun i n => claims_same (by simp) (by simp) (by simp) (by simp)
    refine ⟨⟨?_, fun i n => ?_, ?_, ?_⟩, ?_⟩
    · rw [ideal_snoc]; exact hinv.alive
    · rw [hc]; exact hinv.names i n
    · rw [ideal_snoc]; rfl
    · intro d e n fs h1 _ h3; cases h1; cases h3
    · intro _ _ d e n o fs _ h2 h3
      rw [ideal_snoc] at h2
      cases h2; cases h3
  | drop =>
    cases hst
    have hc : ∀ i n, Claims (acts ++ [.drop]) i n ↔ Claims acts i n := fun i n => claims_same (by simp) (by simp) (by simp) (by simp)
    refine ⟨⟨?_, fun i n => ?_, ?_, ?_⟩, ?_⟩
    · rw [ideal_snoc]; exact hinv.alive
    · rw [hc]; exact hinv.names i n
    · rw [ideal_snoc]; rfl
    · intro d e n fs h1; cases h1
    · intro _ _ d e n o fs h1; cases h1
  | add m gs =>
    obtain ⟨d0, hd0, hsc, hd1⟩ := Flat.put_some hst
    have hc : ∀ i n, Claims (acts ++ [.add m gs]) i n ↔ Claims acts i n := fun i n => claims_same (by simp) (by simp) (by simp) (by simp)
    obtain ⟨e0, he0⟩ := Option.isSome_iff_exists.1 (hinv.reg ▸ (by rw [hd0]; rfl) : (ideal acts).commands.isSome = true)
    have he1 : (ideal (acts ++ [.add m gs])).commands = some (Owned.set e0 m (some (none, gs))) := by
      rw [ideal_snoc]; simp only [Ideal.step, he0, Option.map_some]
    refine ⟨⟨?_, fun i n => ?_, ?_, ?_⟩, ?_⟩
    · rw [ideal_snoc, hsc]; exact hinv.alive
    · rw [hc, hinv.names, Flat.names, Flat.names, hsc]
    · rw [hd1, he1]; rfl
    · intro d e n fs h1 h2 h3
      rw [hd1] at h1; rw [he1] at h2; cases h1; cases h2
      simp only [Owned.set] at h3 ⊢
      by_cases hn : n = m
      · simp only [hn, if_true] at h3 ⊢
        cases h3
        exact ⟨none, rfl, fun i hi => nomatch hi⟩
      · simp only [hn, if_false] at h3 ⊢
        obtain ⟨o, g1, g2⟩ := hinv.sub d0 e0 n fs hd0 he0 h3
        exact ⟨o, g1, fun i hi => (hc i n).2 (g2 i hi)⟩
    · intro hf hx d e n o fs h1 h2 h3
      rw [hd1] at h1; rw [he1] at h2; cases h1; cases h2
      simp only [Owned.set] at h3 ⊢
      by_cases hn : n = m
      · simp only [hn, if_true] at h3 ⊢
        cases h3
        exact ⟨rfl, fun i hi => absurd ((hc i m).1 hi) (hx i)⟩
      · simp only [hn, if_false] at h3 ⊢
        obtain ⟨g1, g2⟩ := hf d0 e0 n o fs hd0 he0 h3
        exact ⟨g1, fun i hi => g2 i ((hc i n).1 hi)⟩
  | remove m =>
    obtain ⟨hsc, hd1⟩ := Flat.remove_some hst
    have hc : ∀ i n, Claims (acts ++ [.remove m]) i n ↔ Claims acts i n := fun i n => claims_same (by simp) (by simp) (by simp) (by simp)
    refine ⟨⟨?_, fun i n => ?_, ?_, ?_⟩, ?_⟩
    · rw [ideal_snoc, hsc]; exact hinv.alive
    · rw [hc, hinv.names, Flat.names, Flat.names, hsc]
    · rw [hd1, ideal_snoc]; simp only [Ideal.step, Option.isSome_map, hinv.reg]
    · intro d e n fs h1 h2 h3
      rw [hd1] at h1; rw [ideal_snoc] at h2
      obtain ⟨d0, hd0, rfl⟩ := Option.map_eq_some_iff.1 h1
      obtain ⟨e0, he0, rfl⟩ := Option.map_eq_some_iff.1 h2
      simp only [Owned.set, List.mem_singleton] at h3 ⊢
      by_cases hn : n = m
      · simp [hn] at h3
      · simp only [hn, if_false] at h3 ⊢
        obtain ⟨o, g1, g2⟩ := hinv.sub d0 e0 n fs hd0 he0 h3
        exact ⟨o, g1, fun i hi => (hc i n).2 (g2 i hi)⟩
    · intro hf hx d e n o fs h1 h2 h3
      rw [hd1] at h1; rw [ideal_snoc] at h2
      obtain ⟨d0, hd0, rfl⟩ := Option.map_eq_some_iff.1 h1
      obtain ⟨e0, he0, rfl⟩ := Option.map_eq_some_iff.1 h2
      simp only [Owned.set, List.mem_singleton] at h3 ⊢
      by_cases hn : n = m
      · simp [hn] at h3
      · simp only [hn, if_false] at h3 ⊢
        obtain ⟨g1, g2⟩ := hf d0 e0 n o fs hd0 he0 h3
        exact ⟨g1, fun i hi => g2 i ((hc i n).1 hi)⟩
  | clear =>
    obtain ⟨d0, hd0, rfl⟩ := Option.map_eq_some_iff.1 hst
    have hc : ∀ i n, Claims (acts ++ [.clear]) i n ↔ Claims acts i n := fun i n => claims_same (by simp) (by simp) (by simp) (by simp)
    refine ⟨⟨?_, fun i n => ?_, ?_, ?_⟩, ?_⟩
    · rw [ideal_snoc]; exact hinv.alive
    · rw [hc]; exact hinv.names i n
    · rw [ideal_snoc]; simp only [Ideal.step, Option.isSome_map, ← hinv.reg, hd0, Option.isSome_some]
    · intro d e n fs h1 _ h3; cases h1; cases h3
    · intro _ _ d e n o fs _ h2 h3
      rw [ideal_snoc] at h2
      obtain ⟨e0, _, rfl⟩ := Option.map_eq_some_iff.1 h2
      cases h3
  | new =>
    cases hst
    have hc : ∀ i n, Claims (acts ++ [.new]) i n ↔ Claims acts i n := fun i n => claims_same (by simp) (by simp) (by simp) (by simp)
    refine ⟨⟨?_, fun i n => ?_, ?_, ?_⟩, ?_⟩
    · rw [ideal_snoc]; simp [Ideal.step, hinv.alive]
    · rw [hc, hinv.names, Flat.names, Flat.names, List.getElem?_append]
      split
      · rfl
      · rename_i hk
        rw [List.getElem?_eq_none (by omega)]
        constructor
        · rintro ⟨ns, h, _⟩; cases h
        · rintro ⟨ns, h, h2⟩
          cases hj : i - f.scopes.length with
          | zero => rw [hj] at h; cases h; cases h2
          | succ j => rw [hj] at h; simp at h
    · rw [ideal_snoc]; exact hinv.reg
    · intro d e n fs h1 h2 h3
      rw [ideal_snoc] at h2
      obtain ⟨o, g1, g2⟩ := hinv.sub d e n fs h1 h2 h3
      exact ⟨o, g1, fun i hi => (hc i n).2 (g2 i hi)⟩
    · intro hf _ d e n o fs h1 h2 h3
      rw [ideal_snoc] at h2
      obtain ⟨g1, g2⟩ := hf d e n o fs h1 h2 h3
      exact ⟨g1, fun i hi => g2 i ((hc i n).1 hi)⟩
  | addIn i m gs =>
    obtain ⟨ns, hns, hst⟩ := Option.bind_eq_some_iff.1 hst
    obtain ⟨f1, hput, rfl⟩ := Option.map_eq_some_iff.1 hst
    obtain ⟨d0, hd0, hsc, hd1⟩ := Flat.put_some hput
    obtain ⟨e0, he0⟩ := Option.isSome_iff_exists.1 (hinv.reg ▸ (by rw [hd0]; rfl) : (ideal acts).commands.isSome = true)
    have he1 : (ideal (acts ++ [.addIn i m gs])).commands = some (Owned.set e0 m (some (some i, gs))) := by
      rw [ideal_snoc]; simp only [Ideal.step, he0, Option.map_some]
    refine ⟨⟨?_, fun k n => ?_, ?_, ?_⟩, ?_⟩
    · rw [ideal_snoc]
      simp only [hsc, map_isSome_set, Option.isSome_some]
      rw [set_same _ _ _ (alive_of_names hns)]
      exact hinv.alive
    · rw [claims_addIn, hinv.names]
      simp only [Flat.names, hsc]
      rw [getElem?_set_join _ _ _ _ (Flat.names_lt hns)]
      by_cases hk : i = k
      · subst hk
        rw [Flat.names] at hns
        rw [hns]
        simp only [true_and, if_true, Option.some.injEq, exists_eq_left', List.mem_append, List.mem_singleton]
      · simp [hk, Ne.symm hk]
    · simp only [hd1, he1, Option.isSome_some]
    · intro d e n fs h1 h2 h3
      simp only [hd1] at h1; rw [he1] at h2; cases h1; cases h2
      simp only [Owned.set] at h3 ⊢
      by_cases hn : n = m
      · simp only [hn, if_true] at h3 ⊢
        cases h3
        refine ⟨some i, rfl, fun k hk => ?_⟩
        cases hk
        exact claims_addIn.2 (.inr ⟨rfl, rfl⟩)
      · simp only [hn, if_false] at h3 ⊢
        obtain ⟨o, g1, g2⟩ := hinv.sub d0 e0 n fs hd0 he0 h3
        exact ⟨o, g1, fun k hk => claims_addIn.2 (.inl (g2 k hk))⟩
    · intro hf hx d e n o fs h1 h2 h3
      simp only [hd1] at h1; rw [he1] at h2; cases h1; cases h2
      simp only [Owned.set] at h3 ⊢
      by_cases hn : n = m
      · simp only [hn, if_true] at h3 ⊢
        cases h3
        refine ⟨rfl, fun k hk => ?_⟩
        rcases claims_addIn.1 hk with h | ⟨h, _⟩
        · rw [hx k h]
        · rw [h]
      · simp only [hn, if_false] at h3 ⊢
        obtain ⟨g1, g2⟩ := hf d0 e0 n o fs hd0 he0 h3
        refine ⟨g1, fun k hk => ?_⟩
        rcases claims_addIn.1 hk with h | ⟨_, h⟩
        · exact g2 k h
        · exact absurd h hn
  | move i =>
    obtain ⟨ns, hns, rfl⟩ := Option.map_eq_some_iff.1 hst
    have hlt := Flat.names_lt hns
    have hlen := hinv.len
    have hclt : ∀ k n, Claims acts k n → k < f.scopes.length := fun k n h => by
      obtain ⟨ms, h1, _⟩ := (hinv.names k n).1 h
      exact Flat.names_lt h1
    refine ⟨⟨?_, fun k n => ?_, ?_, ?_⟩, ?_⟩
    · rw [ideal_snoc]
      simp only [Ideal.step, List.map_append, map_isSome_set, Option.isSome_some, List.map_cons, List.map_nil]
      rw [set_same _ _ _ (alive_of_names hns), hinv.alive]
    · rw [claims_move]
      simp only [Flat.names]
      rw [List.getElem?_append, List.length_set]
      split
      · rename_i hk
        rw [getElem?_set_join _ _ _ _ hlt, hinv.names]
        by_cases hik : i = k
        · subst hik
          simp only [ne_eq, not_true, and_false, false_or, if_true, Option.some.injEq, exists_eq_left', List.not_mem_nil, iff_false]
          rintro ⟨h, _⟩
          omega
        · simp only [hik, if_false, Flat.names]
          constructor
          · rintro (⟨h, _⟩ | ⟨h, _⟩)
            · exact h
            · omega
          · exact fun h => .inl ⟨h, Ne.symm hik⟩
      · rename_i hk
        constructor
        · rintro (⟨h, _⟩ | ⟨h, h2⟩)
          · exact absurd (hclt _ _ h) hk
          · obtain ⟨ms, h3, h4⟩ := (hinv.names i n).1 h2
            rw [hns] at h3
            cases h3
            exact ⟨ns, by rw [h, hlen]; simp, h4⟩
        · rintro ⟨ms, h1, h2⟩
          cases hj : k - f.scopes.length with
          | succ j => rw [hj] at h1; simp at h1
          | zero =>
            rw [hj] at h1
            simp only [List.getElem?_cons_zero, Option.join_some, Option.some.injEq] at h1
            subst h1
            exact .inr ⟨by omega, (hinv.names i n).2 ⟨ns, hns, h2⟩⟩
    · rw [ideal_snoc]; simp only [Ideal.step, Option.isSome_map, hinv.reg]
    · intro d e n fs h1 h2 h3
      rw [ideal_snoc] at h2
      obtain ⟨e0, he0, rfl⟩ := Option.map_eq_some_iff.1 h2
      obtain ⟨o, g1, g2⟩ := hinv.sub d e0 n fs h1 he0 h3
      refine ⟨_, by simp only [Owned.give, g1, Option.map_some]; rfl, fun k hk => ?_⟩
      split at hk
      · rename_i ho
        cases hk
        exact claims_move.2 (.inr ⟨rfl, g2 i ho⟩)
      · rename_i ho
        exact claims_move.2 (.inl ⟨g2 k hk, fun e => ho (by rw [hk, e])⟩)
    · intro hf _ d e n o fs h1 h2 h3
      rw [ideal_snoc] at h2
      obtain ⟨e0, he0, rfl⟩ := Option.map_eq_some_iff.1 h2
      obtain ⟨⟨o', fs'⟩, h4, h5⟩ := Option.map_eq_some_iff.1 h3
      cases h5
      obtain ⟨g1, g2⟩ := hf d e0 n o' fs' h1 he0 h4
      refine ⟨g1, fun k hk => ?_⟩
      rcases claims_move.1 hk with ⟨h, hne⟩ | ⟨rfl, h⟩
      · have := g2 k h
        subst this
        simp [hne]
      · have := g2 i h
        subst this
        simp
  | assign i j =>
    obtain ⟨ms, hms, hst⟩ := Option.bind_eq_some_iff.1 hst
    obtain ⟨f1, hrem, hst⟩ := Option.bind_eq_some_iff.1 hst
    obtain ⟨ns, hns, hst⟩ := Option.map_eq_some_iff.1 hst
    obtain ⟨hsc, hd1⟩ := Flat.remove_some hrem
    have hns0 : f.names j = some ns := by rw [← hns, Flat.names, Flat.names, hsc]
    have hilt := Flat.names_lt hms
    have hjlt := Flat.names_lt hns0
    have hf'd : f'.dict = f1.dict := by
      rw [← hst]; split <;> rfl
    have hi0 : ∀ n, n ∈ ms ↔ Claims acts i n := fun n => by
      rw [hinv.names, hms]; simp
    have hj0 : ∀ n, n ∈ ns ↔ Claims acts j n := fun n => by
      rw [hinv.names, hns0]; simp
    have hnames : ∀ k, f'.names k = if k = j then some [] else if k = i then some ns else f.names k := by
      intro k
      rw [← hst]
      split
      · rename_i hij
        subst hij
        simp only [Flat.names, hsc]
        rw [getElem?_set_join _ _ _ _ hilt]
        by_cases hk : i = k
        · simp [hk]
        · simp [hk, Ne.symm hk]
      · rename_i hij
        simp only [Flat.names, hsc]
        rw [getElem?_set_join _ _ _ _ (by rw [List.length_set]; exact hjlt), getElem?_set_join _ _ _ _ hilt]
        simp only [eq_comm]
    have halive : f'.scopes.map Option.isSome = f.scopes.map Option.isSome := by
      rw [← hst]
      split
      · simp only [hsc, map_isSome_set, Option.isSome_some]
        rw [set_same _ _ _ (alive_of_names hms)]
      · simp only [hsc, map_isSome_set, Option.isSome_some]
        rw [set_same _ _ _ (alive_of_names hms), set_same _ _ _ (alive_of_names hns0)]
    refine ⟨⟨?_, fun k n => ?_, ?_, ?_⟩, ?_⟩
    · rw [ideal_snoc, halive]; exact hinv.alive
    · rw [claims_assign, hnames]
      by_cases hkj : k = j
      · subst hkj
        simp only [ne_eq, not_true, and_false, false_or, if_true, Option.some.injEq, exists_eq_left', List.not_mem_nil, iff_false]
        rintro ⟨h, h2, _⟩
        exact h2 h.symm
      · by_cases hki : k = i
        · subst hki
          simp [hkj, hj0]
        · simp [hkj, hki, hinv.names]
    · rw [hf'd, hd1, ideal_snoc]; simp only [Ideal.step, Option.isSome_map, hinv.reg]
    · intro d e n fs h1 h2 h3
      rw [hf'd, hd1] at h1; rw [ideal_snoc] at h2
      obtain ⟨d0, hd0, rfl⟩ := Option.map_eq_some_iff.1 h1
      obtain ⟨e0, he0, rfl⟩ := Option.map_eq_some_iff.1 h2
      dsimp only at h3
      split at h3
      · cases h3
      · rename_i hn
        obtain ⟨o, g1, g2⟩ := hinv.sub d0 e0 n fs hd0 he0 h3
        have ho : o ≠ some i := fun h => hn ((hi0 n).2 (g2 i h))
        refine ⟨_, by simp only [Owned.give, Owned.without, g1, ho, if_false, Option.map_some]; rfl, fun k hk => ?_⟩
        split at hk
        · rename_i hoj
          cases hk
          exact claims_assign.2 (.inr ⟨rfl, fun h => ho (h ▸ hoj), g2 j hoj⟩)
        · rename_i hoj
          exact claims_assign.2 (.inl ⟨g2 k hk, fun h => ho (by rw [hk, h]), fun h => hoj (by rw [hk, h])⟩)
    · intro hf _ d e n o fs h1 h2 h3
      rw [hf'd, hd1] at h1; rw [ideal_snoc] at h2
      obtain ⟨d0, hd0, rfl⟩ := Option.map_eq_some_iff.1 h1
      obtain ⟨e0, he0, rfl⟩ := Option.map_eq_some_iff.1 h2
      obtain ⟨⟨o', fs'⟩, h4, h5⟩ := Option.map_eq_some_iff.1 h3
      cases h5
      simp only [Owned.without] at h4
      cases h6 : e0 n with
      | none => rw [h6] at h4; cases h4
      | some v =>
        obtain ⟨o2, fs2⟩ := v
        rw [h6] at h4
        dsimp only at h4
        split at h4
        · cases h4
        · rename_i ho
          cases h4
          obtain ⟨g1, g2⟩ := hf d0 e0 n o' fs' hd0 he0 h6
          have hnm : n ∉ ms := fun h => ho (g2 i ((hi0 n).1 h))
          refine ⟨by simp only [hnm, if_false]; exact g1, fun k hk => ?_⟩
          rcases claims_assign.1 hk with ⟨h, hne1, hne2⟩ | ⟨rfl, _, h⟩
          · have := g2 k h
            subst this
            simp [hne2]
          · have := g2 j h
            subst this
            simp
  | close i =>
    obtain ⟨ms, hms, hst⟩ := Option.bind_eq_some_iff.1 hst
    obtain ⟨f1, hrem, rfl⟩ := Option.map_eq_some_iff.1 hst
    obtain ⟨hsc, hd1⟩ := Flat.remove_some hrem
    have hilt := Flat.names_lt hms
    have hi0 : ∀ n, n ∈ ms ↔ Claims acts i n := fun n => by
      rw [hinv.names, hms]; simp
    refine ⟨⟨?_, fun k n => ?_, ?_, ?_⟩, ?_⟩
    · rw [ideal_snoc]
      simp only [Ideal.step, hsc, map_isSome_set, Option.isSome_none, hinv.alive]
    · rw [claims_close, hinv.names]
      simp only [Flat.names, hsc]
      rw [getElem?_set_join _ _ _ _ hilt]
      by_cases hk : i = k
      · subst hk
        simp
      · simp [hk, Ne.symm hk]
    · simp only [hd1]; rw [ideal_snoc]; simp only [Ideal.step, Option.isSome_map, hinv.reg]
    · intro d e n fs h1 h2 h3
      simp only [hd1] at h1; rw [ideal_snoc] at h2
      obtain ⟨d0, hd0, rfl⟩ := Option.map_eq_some_iff.1 h1
      obtain ⟨e0, he0, rfl⟩ := Option.map_eq_some_iff.1 h2
      dsimp only at h3
      split at h3
      · cases h3
      · rename_i hn
        obtain ⟨o, g1, g2⟩ := hinv.sub d0 e0 n fs hd0 he0 h3
        have ho : o ≠ some i := fun h => hn ((hi0 n).2 (g2 i h))
        exact ⟨o, by simp only [Owned.without, g1, ho, if_false], fun k hk => claims_close.2 ⟨g2 k hk, fun h => ho (by rw [hk, h])⟩⟩
    · intro hf _ d e n o fs h1 h2 h3
      simp only [hd1] at h1; rw [ideal_snoc] at h2
      obtain ⟨d0, hd0, rfl⟩ := Option.map_eq_some_iff.1 h1
      obtain ⟨e0, he0, rfl⟩ := Option.map_eq_some_iff.1 h2
      simp only [Owned.without] at h3
      cases h6 : e0 n with
      | none => rw [h6] at h3; cases h3
      | some v =>
        obtain ⟨o2, fs2⟩ := v
        rw [h6] at h3
        dsimp only at h3
        split at h3
        · cases h3
        · rename_i ho
          cases h3
          obtain ⟨g1, g2⟩ := hf d0 e0 n o fs hd0 he0 h6
          have hnm : n ∉ ms := fun h => ho (g2 i ((hi0 n).1 h))
          exact ⟨by simp only [hnm, if_false]; exact g1, fun k hk => g2 k (claims_close.1 hk).1⟩

/-- What is known after a run. -/
theorem run_inv (acts : List (Act C D)) {f : Flat C D} (h : Flat.run acts ⟨none, []⟩ = some f) :
    Inv acts f ∧ (Exclusive acts → Full acts f) := by
  induction hn : acts.length generalizing acts f with
  | zero =>
    have : acts = [] := List.length_eq_zero_iff.1 hn
    subst this
    cases h
    exact ⟨inv_nil, fun _ => full_nil⟩
  | succ k ih =>
    have hne : acts ≠ [] := fun e => by rw [e] at hn; cases hn
    obtain ⟨as, a, rfl⟩ : ∃ as a, acts = as ++ [a] := ⟨_, _, (List.dropLast_concat_getLast hne).symm⟩
    rw [Flat.run_append] at h
    obtain ⟨f1, h1, h2⟩ := Option.bind_eq_some_iff.1 h
    simp only [Flat.run, Option.bind_eq_some_iff] at h2
    obtain ⟨f2, h2, h3⟩ := h2
    cases h3
    obtain ⟨g1, g2⟩ := ih as h1 (by simpa using hn)
    obtain ⟨q1, q2⟩ := g1.step_aux h2
    refine ⟨q1, fun hx => q2 (g2 ?_) ?_⟩
    · intro before b after e
      exact hx before b (after ++ [a]) (by rw [e]; simp)
    · exact hx as a [] rfl

/-- When a step is defined. -/
theorem step_iff {acts : List (Act C D)} {f : Flat C D} (hinv : Inv acts f) {a : Act C D} :
    (∃ f', f.step a = some f') ↔ (∀ i ∈ users a, Alive acts i) ∧ (NeedsRegistry acts a → (ideal acts).commands ≠ none) := by
  have hal : ∀ i, Alive acts i ↔ ∃ ns, f.names i = some ns := by
    intro i
    unfold Alive Flat.names
    rw [hinv.alive, List.getElem?_map]
    cases f.scopes[i]? with
    | none => simp
    | some o => cases o <;> simp
  have hreg : (ideal acts).commands ≠ none ↔ ∃ d, f.dict = some d := by
    rw [← Option.isSome_iff_ne_none, ← hinv.reg, Option.isSome_iff_exists]
  have hput : ∀ n fs, (∃ f', f.put n fs = some f') ↔ ∃ d, f.dict = some d := by
    intro n fs
    unfold Flat.put
    cases f.dict <;> simp
  have hremove : ∀ i ms, f.names i = some ms → ((∃ f', f.remove ms = some f') ↔ ((∃ n, Claims acts i n) → ∃ d, f.dict = some d)) := by
    intro i ms h
    have : (∃ n, Claims acts i n) ↔ ms ≠ [] := by
      constructor
      · rintro ⟨n, hn⟩
        obtain ⟨ns, h1, h2⟩ := (hinv.names i n).1 hn
        rw [h] at h1
        cases h1
        intro e
        subst e
        cases h2
      · intro hne
        obtain ⟨n, hn⟩ := List.exists_mem_of_ne_nil ms hne
        exact ⟨n, (hinv.names i n).2 ⟨ms, h, hn⟩⟩
    rw [this]
    unfold Flat.remove
    split
    · rename_i e; simp [e]
    · rename_i e; cases f.dict <;> simp [e]
  cases a with
  | make => simp [Flat.step, users, NeedsRegistry]
  | drop => simp [Flat.step, users, NeedsRegistry]
  | add n fs => simpa [Flat.step, users, NeedsRegistry, hreg] using hput n fs
  | remove n =>
    have e : NeedsRegistry acts (.remove n : Act C D) ↔ True := Iff.rfl
    simp only [Flat.step, users, List.not_mem_nil, false_implies, implies_true, true_and, hreg, e, true_implies, Flat.remove, List.cons_ne_self,
      reduceCtorEq, if_false]
    cases f.dict <;> simp
  | clear =>
    have e : NeedsRegistry acts (.clear : Act C D) ↔ True := Iff.rfl
    simp only [Flat.step, users, List.not_mem_nil, false_implies, implies_true, true_and, hreg, e, true_implies]
    cases f.dict <;> simp
  | new => simp [Flat.step, users, NeedsRegistry]
  | addIn i n fs =>
    have e : NeedsRegistry acts (.addIn i n fs : Act C D) ↔ True := Iff.rfl
    simp only [Flat.step, users, List.mem_singleton, forall_eq, hal, hreg, e, true_implies, ← hput n fs]
    constructor
    · rintro ⟨f', h⟩
      obtain ⟨ns, h1, h⟩ := Option.bind_eq_some_iff.1 h
      obtain ⟨f1, h2, _⟩ := Option.map_eq_some_iff.1 h
      exact ⟨⟨ns, h1⟩, f1, h2⟩
    · rintro ⟨⟨ns, h1⟩, f1, h2⟩
      exact ⟨_, by rw [h1, Option.bind_some, h2]; rfl⟩
  | move i =>
    have e : NeedsRegistry acts (.move i : Act C D) ↔ False := Iff.rfl
    simp only [Flat.step, users, List.mem_singleton, forall_eq, hal, e, false_implies, and_true]
    cases f.names i <;> simp
  | assign i j =>
    have e : NeedsRegistry acts (.assign i j : Act C D) ↔ ∃ n, Claims acts i n := Iff.rfl
    simp only [Flat.step, users, List.mem_cons, List.not_mem_nil, or_false, forall_eq_or_imp, forall_eq, hal, hreg, e]
    constructor
    · rintro ⟨f', h⟩
      obtain ⟨ms, h1, h⟩ := Option.bind_eq_some_iff.1 h
      obtain ⟨f1, h2, h⟩ := Option.bind_eq_some_iff.1 h
      obtain ⟨ns, h3, _⟩ := Option.map_eq_some_iff.1 h
      exact ⟨⟨⟨ms, h1⟩, ns, by rw [← h3, Flat.names, Flat.names, (Flat.remove_some h2).1]⟩, (hremove i ms h1).1 ⟨f1, h2⟩⟩
    · rintro ⟨⟨⟨ms, h1⟩, ns, h2⟩, h3⟩
      obtain ⟨f1, h4⟩ := (hremove i ms h1).2 h3
      have h5 : f1.names j = some ns := by rw [← h2, Flat.names, Flat.names, (Flat.remove_some h4).1]
      exact ⟨_, by rw [h1, Option.bind_some, h4, Option.bind_some, h5]; rfl⟩
  | close i =>
    have e : NeedsRegistry acts (.close i : Act C D) ↔ ∃ n, Claims acts i n := Iff.rfl
    simp only [Flat.step, users, List.mem_singleton, forall_eq, hal, hreg, e]
    constructor
    · rintro ⟨f', h⟩
      obtain ⟨ms, h1, h⟩ := Option.bind_eq_some_iff.1 h
      obtain ⟨f1, h2, _⟩ := Option.map_eq_some_iff.1 h
      exact ⟨⟨ms, h1⟩, (hremove i ms h1).1 ⟨f1, h2⟩⟩
    · rintro ⟨⟨ms, h1⟩, h3⟩
      obtain ⟨f1, h4⟩ := (hremove i ms h1).2 h3
      exact ⟨_, by rw [h1, Option.bind_some, h4]; rfl⟩

/-- When a run is defined. -/
theorem run_iff (acts : List (Act C D)) : (∃ f, Flat.run acts ⟨none, []⟩ = some f) ↔ UsesAlive acts ∧ RegistryLives acts := by
  induction hn : acts.length generalizing acts with
  | zero =>
    have : acts = [] := List.length_eq_zero_iff.1 hn
    subst this
    exact ⟨fun _ => ⟨fun b a c e => by simp at e, fun b a c e => by simp at e⟩, fun _ => ⟨_, rfl⟩⟩
  | succ k ih =>
    have hne : acts ≠ [] := fun e => by rw [e] at hn; cases hn
    obtain ⟨as, a, rfl⟩ : ∃ as a, acts = as ++ [a] := ⟨_, _, (List.dropLast_concat_getLast hne).symm⟩
    have ih := ih as (by simpa using hn)
    have hsplit : ∀ {before : List (Act C D)} {b : Act C D} {after}, as ++ [a] = before ++ b :: after →
        (∃ after', as = before ++ b :: after') ∨ (before = as ∧ b = a) := by
      intro before b after e
      rcases List.eq_nil_or_concat after with rfl | ⟨xs, x, rfl⟩
      · obtain ⟨h1, h2⟩ := List.append_inj' e rfl
        cases h2
        exact .inr ⟨h1.symm, rfl⟩
      · have : as ++ [a] = (before ++ b :: xs) ++ [x] := by rw [e]; simp
        obtain ⟨h1, _⟩ := List.append_inj' this rfl
        exact .inl ⟨xs, h1⟩
    constructor
    · rintro ⟨f, h⟩
      rw [Flat.run_append] at h
      obtain ⟨f1, h1, h2⟩ := Option.bind_eq_some_iff.1 h
      simp only [Flat.run, Option.bind_eq_some_iff] at h2
      obtain ⟨f2, h2, h3⟩ := h2
      obtain ⟨g1, g2⟩ := (step_iff (run_inv as h1).1).1 ⟨f2, h2⟩
      obtain ⟨q1, q2⟩ := ih.1 ⟨f1, h1⟩
      constructor
      · intro before b after e
        rcases hsplit e with ⟨after', e'⟩ | ⟨rfl, rfl⟩
        · exact q1 before b after' e'
        · exact g1
      · intro before b after e
        rcases hsplit e with ⟨after', e'⟩ | ⟨rfl, rfl⟩
        · exact q2 before b after' e'
        · exact g2
    · rintro ⟨q1, q2⟩
      obtain ⟨f1, h1⟩ := ih.2 ⟨fun b c d e => q1 b c (d ++ [a]) (by rw [e]; simp), fun b c d e => q2 b c (d ++ [a]) (by rw [e]; simp)⟩
      obtain ⟨f2, h2⟩ := (step_iff (run_inv as h1).1).2 ⟨q1 as a [] rfl, q2 as a [] rfl⟩
      exact ⟨f2, by rw [Flat.run_append, h1, Option.bind_some]; simp only [Flat.run, h2, Option.bind_some]⟩

end Scoped
end Coil
