import Verif.Proofs.Shapes
import Verif.Proofs.Semantics
import Verif.Spec.NamesOnly

/-!
# Histories that the hash map handles: only the keys matter
-/

namespace Coil
open Spec UMap

variable {K V V' : Type} [DecidableEq K] {fixed : Bool} {hash : K → Nat} {exceeds : Nat → Nat → Bool} {f : V → V'}

theorem runOps_snoc (m : UMap K V) (ops : List (DictOp K V)) (op : DictOp K V) :
    runOps fixed hash exceeds m (ops ++ [op]) = (runOps fixed hash exceeds m ops >>= fun m' => applyOp fixed hash exceeds m' op) := by
  induction ops generalizing m with
  | nil =>
    simp only [List.nil_append, runOps, Res.bind_ok]
    cases applyOp fixed hash exceeds m op <;> rfl
  | cons o ops ih =>
    simp only [List.cons_append, runOps]
    cases applyOp fixed hash exceeds m o with
    | ok m' => simp only [Res.bind_ok, ih]
    | ub u => rfl
    | diverge => rfl

theorem mapAfter_concat {m : UMap K V} {ops : List (DictOp K V)} {n : Nat} (h : mapAfter fixed hash exceeds n ops = .ok m) (op : DictOp K V) :
    mapAfter fixed hash exceeds n (ops ++ [op]) = applyOp fixed hash exceeds m op := by
  unfold mapAfter at h ⊢
  obtain ⟨m0, h1, h2⟩ := Res.bind_eq_ok.1 h
  rw [h1, Res.bind_ok, runOps_snoc, h2, Res.bind_ok]

/-- Induction from the end. -/
theorem from_end {α : Type} {motive : List α → Prop} (nil : motive []) (snoc : ∀ l a, motive l → motive (l ++ [a])) (l : List α) : motive l := by
  have : ∀ l : List α, motive l.reverse := fun l => by
    induction l with
    | nil => exact nil
    | cons a l ih => rw [List.reverse_cons]; exact snoc _ a ih
  simpa using this l.reverse

theorem lists_put_new {l : List (K × V)} {d : K → Option V} (h : Lists l d) {k : K} (hk : d k = none) (v : V) :
    Lists (l ++ [(k, v)]) (dictStep d (.put k v)) := by
  have hnot : ∀ w, (k, w) ∉ l := fun w hw => by
    rw [(h.2 k w).1 hw] at hk
    cases hk
  refine ⟨?_, fun x w => ?_⟩
  · rw [List.map_append, List.nodup_append]
    refine ⟨h.1, by simp, fun a ha b hb => ?_⟩
    obtain ⟨⟨k', w⟩, h1, rfl⟩ := List.mem_map.1 ha
    simp only [List.map_cons, List.map_nil, List.mem_singleton] at hb
    subst hb
    rintro rfl
    exact hnot w h1
  · simp only [dictStep, List.mem_append, List.mem_singleton, Prod.mk.injEq, h.2 x w]
    split
    · rename_i e
      subst e
      rw [hk]
      simp [eq_comm]
    · rename_i e
      simp [e]

theorem lists_put_old {l1 l2 : List (K × V)} {d : K → Option V} {k : K} {v0 : V} (h : Lists (l1 ++ (k, v0) :: l2) d) (v : V) :
    Lists (l1 ++ (k, v) :: l2) (dictStep d (.put k v)) := by
  obtain ⟨hn, hm⟩ := h
  refine ⟨by simpa using hn, fun x w => ?_⟩
  have key : ∀ u, ((x, u) ∈ l1 ∨ (x, u) ∈ l2) → x ≠ k := by
    rintro u hu rfl
    simp only [List.map_append, List.map_cons, List.nodup_append, List.nodup_cons, List.mem_map, List.mem_cons] at hn
    rcases hu with hu | hu
    · exact hn.2.2 x ⟨_, hu, rfl⟩ x (.inl rfl) rfl
    · exact hn.2.1.1 ⟨_, hu, rfl⟩
  have := hm x w
  simp only [List.mem_append, List.mem_cons, Prod.mk.injEq] at this ⊢
  simp only [dictStep]
  by_cases e : x = k
  · subst e
    have h1 : (x, w) ∉ l1 := fun hh => key w (.inl hh) rfl
    have h2 : (x, w) ∉ l2 := fun hh => key w (.inr hh) rfl
    simp [h1, h2, eq_comm]
  · simpa [e] using this

theorem lists_erase {l l' : List (K × V)} {d : K → Option V} {k : K} {v0 : V} (h : Lists l d) (hp : l.Perm ((k, v0) :: l')) :
    Lists l' (dictStep d (.erase k)) := by
  obtain ⟨hn, hm⟩ := h
  have hn' : (((k, v0) :: l').map Prod.fst).Nodup := (hp.map Prod.fst).nodup_iff.1 hn
  simp only [List.map_cons, List.nodup_cons] at hn'
  refine ⟨hn'.2, fun x w => ?_⟩
  have := hm x w
  rw [hp.mem_iff, List.mem_cons, Prod.mk.injEq] at this
  simp only [dictStep]
  by_cases e : x = k
  · subst e
    simp only [if_true, reduceCtorEq, iff_false]
    exact fun hh => hn'.1 (List.mem_map.2 ⟨_, hh, rfl⟩)
  · simpa [e] using this

theorem rightAlong_prefix {a b : List (DictOp K V)} (h : RightAlong fixed hash exceeds (a ++ b)) : RightAlong fixed hash exceeds a :=
  fun p hp => h p (hp.trans (List.prefix_append a b))

theorem right_of_along {ops : List (DictOp K V)} (h : RightAlong fixed hash exceeds ops) : Right fixed hash exceeds ops := h ops (List.prefix_refl _)

/-- What is stored after one more operation. -/
theorem lists_step {ops : List (DictOp K V)} {m0 m : UMap K V} {op : DictOp K V} (l0 : Lists m0.entries (dictAfter ops))
    (h2 : ∀ k, find hash m0 k = .ok (dictAfter ops k)) (hm : applyOp fixed hash exceeds m0 op = .ok m) :
    Lists m.entries (dictAfter (ops ++ [op])) := by
  rw [dictAfter_concat]
  cases op with
  | put k v =>
    have hk := h2 k
    cases hd : dictAfter ops k with
    | none =>
      rw [hd] at hk
      rw [put_new hk hm]
      exact lists_put_new l0 hd v
    | some v0 =>
      rw [hd] at hk
      obtain ⟨l1, l2, e1, e2⟩ := put_old hk hm
      rw [e2]
      rw [e1] at l0
      exact lists_put_old l0 v
  | erase k =>
    have hk := h2 k
    cases hd : dictAfter ops k with
    | none =>
      rw [hd] at hk
      rw [erase_missing hk hm]
      refine ⟨l0.1, fun x w => ?_⟩
      rw [l0.2 x w]
      simp only [dictStep]
      split
      · rename_i e
        subst e
        rw [hd]
      · rfl
    | some v0 =>
      rw [hd] at hk
      exact lists_erase l0 (erase_found hk hm)
  | clear =>
    cases hm
    exact ⟨by simp [UMap.clear, entries], by simp [UMap.clear, entries, dictStep]⟩

/-- What is stored, along a history that is handled. -/
theorem along_lists {ops : List (DictOp K V)} {m : UMap K V} (h : RightAlong fixed hash exceeds ops)
    (hm : mapAfter fixed hash exceeds 1 ops = .ok m) : Lists m.entries (dictAfter ops) := by
  induction ops using from_end generalizing m with
  | nil =>
    unfold mapAfter at hm
    simp only [create, rehash, rehashLoop, List.length_nil, Res.bind_ok, runOps, Res.ok.injEq] at hm
    subst hm
    exact ⟨by simp [entries], by simp [entries, dictAfter]⟩
  | snoc ops op ih =>
    have hpre := rightAlong_prefix h
    obtain ⟨m0, h1, h2⟩ := right_of_along hpre
    rw [mapAfter_concat h1] at hm
    exact lists_step (ih hpre h1) h2 hm

theorem dictAfter_recast (ops : List (DictOp K V)) (k : K) : dictAfter (ops.map (recastOp f)) k = (dictAfter ops k).map f := by
  induction ops using from_end with
  | nil => rfl
  | snoc ops op ih =>
    rw [List.map_append, List.map_cons, List.map_nil, dictAfter_concat, dictAfter_concat]
    cases op with
    | put k' v => simp only [recastOp, dictStep, ih]; split <;> rfl
    | erase k' => simp only [recastOp, dictStep, ih]; split <;> rfl
    | clear => rfl

theorem right_recast {ops : List (DictOp K V)} (h : Right fixed hash exceeds ops) : Right fixed hash exceeds (ops.map (recastOp f)) := by
  obtain ⟨m, h1, h2⟩ := h
  refine ⟨m.recast f, by rw [mapAfter_recast, h1]; rfl, fun k => ?_⟩
  rw [find_recast, h2, dictAfter_recast]
  rfl

theorem prefix_map {α β : Type} {g : α → β} {l : List α} {p : List β} (h : p <+: l.map g) : ∃ q, q <+: l ∧ p = q.map g := by
  obtain ⟨t, ht⟩ := h
  obtain ⟨q, r, e, rfl, _⟩ := List.map_eq_append_iff.1 ht.symm
  exact ⟨q, ⟨r, e.symm⟩, rfl⟩

theorem along_recast {ops : List (DictOp K V)} : RightAlong fixed hash exceeds (ops.map (recastOp f)) ↔ RightAlong fixed hash exceeds ops := by
  constructor
  · intro h
    induction ops using from_end with
    | nil =>
      intro p hp
      rw [List.prefix_nil.1 hp]
      exact ⟨_, rfl, fun k => by simp [find, findIndex, bucketOf, readAt, dictAfter, Nat.mod_one, findLoop]⟩
    | snoc ops op ih =>
      have hops : RightAlong fixed hash exceeds ops := ih (by
        rw [List.map_append] at h
        exact rightAlong_prefix h)
      have last : Right fixed hash exceeds (ops ++ [op]) := by
        obtain ⟨s, h1, h2⟩ := right_of_along h
        rw [mapAfter_recast] at h1
        cases hm : mapAfter fixed hash exceeds 1 (ops ++ [op]) with
        | ub u => rw [hm] at h1; cases h1
        | diverge => rw [hm] at h1; cases h1
        | ok m =>
          rw [hm] at h1
          cases h1
          have hl : Lists m.entries (dictAfter (ops ++ [op])) := by
            obtain ⟨m0, g1, g2⟩ := right_of_along hops
            rw [mapAfter_concat g1] at hm
            exact lists_step (along_lists hops g1) g2 hm
          refine ⟨m, hm, fun k => ?_⟩
          have := h2 k
          rw [find_recast, dictAfter_recast] at this
          cases hf : find hash m k with
          | ub u => rw [hf] at this; cases this
          | diverge => rw [hf] at this; cases this
          | ok o =>
            rw [hf, on_ok, Res.ok.injEq] at this
            cases o with
            | none =>
              cases hd : dictAfter (ops ++ [op]) k with
              | none => rfl
              | some v => rw [hd] at this; cases this
            | some v => rw [(hl.2 k v).1 (find_mem hf)]
      intro p hp
      rcases List.prefix_concat_iff.1 hp with e | e
      · rw [e]; exact last
      · exact hops p e
  · intro h p hp
    obtain ⟨q, hq, rfl⟩ := prefix_map hp
    exact right_recast (h q hq)

omit [DecidableEq K] in
theorem same_recast {ops : List (DictOp K V)} {ops' : List (DictOp K V')} (h : Forall2 SameKey ops ops') :
    ops.map (recastOp fun _ => ()) = ops'.map (recastOp fun _ => ()) := by
  induction h with
  | nil => rfl
  | cons h _ ih =>
    rw [List.map_cons, List.map_cons, ih]
    cases h <;> rfl

section Registry
variable {C D : Type}

/-- The history of a registry is handled all along. -/
def Traced (fixed charSigned : Bool) (exceeds : Nat → Nat → Bool) (h : List (RegEvent C D)) : Prop :=
  RightAlong fixed (djb2 charSigned) exceeds (h.map asDictOp)

theorem traced_prefix {charSigned : Bool} (a b : List (RegEvent C D)) (h : Traced fixed charSigned exceeds (a ++ b)) : Traced fixed charSigned exceeds a := by
  unfold Traced at h ⊢
  rw [List.map_append] at h
  exact rightAlong_prefix h

theorem traced_step {charSigned : Bool} {h : List (RegEvent C D)} {m : UMap Bytes (Command C D)} (hm : MapOf fixed (djb2 charSigned) exceeds h m)
    (ev : RegEvent C D) (hs : Traced fixed charSigned exceeds (h ++ [ev])) :
    ∃ m', UMap.applyOp fixed (djb2 charSigned) exceeds m (asDictOp ev) = .ok m' ∧ MapOf fixed (djb2 charSigned) exceeds (h ++ [ev]) m' := by
  obtain ⟨m', h1, _⟩ := right_of_along hs
  exact ⟨m', by rw [← mapAfter_snoc hm ev]; exact h1, h1⟩

/-- The map implements the registry for the histories that it handles. -/
theorem traced_implements {charSigned : Bool} :
    Implements (Traced fixed charSigned exceeds) (mapOps (C := C) (D := D) fixed charSigned exceeds) (MapOf fixed (djb2 charSigned) exceeds) where
  find {h m} hi hs k := by
    obtain ⟨m', h1, h2⟩ := right_of_along hs
    rw [show mapAfter fixed (djb2 charSigned) exceeds 1 (h.map asDictOp) = .ok m from hi] at h1
    cases h1
    exact h2 k
  put n fs hi hs := traced_step hi (.added n fs) hs
  erase n hi hs := traced_step hi (.removed n) hs
  clear hi hs := by
    obtain ⟨m', h1, h2⟩ := traced_step hi .cleared hs
    cases h1
    exact h2
  all hi hs id := ids_iff (along_lists hs hi) id

theorem handled_traced {charSigned : Bool} (hex : ∀ b, 0 < b → exceeds 1 b = false) {h : List (RegEvent C D)} (hs : Handled fixed h) :
    Traced fixed charSigned exceeds h := by
  intro p hp
  obtain ⟨q, hq, rfl⟩ := prefix_map hp
  obtain ⟨r, rfl⟩ := hq
  obtain ⟨m, h1, _, h2, _⟩ := mapAfter_spec hex (buckets := 1) (by omega) (hash := djb2 charSigned) (q.map asDictOp) (handled_prefix q r hs)
  exact ⟨m, h1, h2.1⟩

end Registry

end Coil
