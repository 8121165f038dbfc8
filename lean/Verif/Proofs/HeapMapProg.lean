import Verif.Proofs.HeapMap

/-! # Programs with several maps on the heap -/

namespace Coil
namespace HMap
open Spec Vec

variable {K V : Type} {c : Cfg K V}

/-! ## The list model of programs -/

/-- The map of a live variable. -/
def liveMap (ms : Lmaps K V) (v : Nat) : Res (UMap K V) :=
  match ms[v]? with
  | some (some m) => .ok m
  | _ => .ub .deadObject

/-- A statement on the maps of `Model/UMap.lean`. -/
def lstep [DecidableEq K] (c : Cfg K V) (ms : Lmaps K V) : MapOp K V → Res (Lmaps K V)
  | .create n => do
    let m ← UMap.create c.hash n
    .ok (ms ++ [some m])
  | .copyNew src => do
    let m ← liveMap ms src
    .ok (ms ++ [some m])
  | .moveNew src => do
    let m ← liveMap ms src
    .ok (ms.set src (some UMap.movedFrom) ++ [some m])
  | .copyAssign dst src => do
    let m ← liveMap ms src
    let _ ← liveMap ms dst
    .ok (ms.set dst (some m))
  | .moveAssign dst src => do
    let m ← liveMap ms src
    let old ← liveMap ms dst
    .ok ((ms.set src (some old)).set dst (some m))
  | .on v op => do
    let m ← liveMap ms v
    let m' ← UMap.applyOp c.fixed c.hash c.exceeds m op
    .ok (ms.set v (some m'))
  | .destroy v => do
    let _ ← liveMap ms v
    .ok (ms.set v none)

/-- A program on the maps of `Model/UMap.lean`. -/
def lrun [DecidableEq K] (c : Cfg K V) : Lmaps K V → List (MapOp K V) → Res (Lmaps K V)
  | ms, [] => .ok ms
  | ms, op :: ops => do
    let ms' ← lstep c ms op
    lrun c ms' ops

theorem live_or_dead (ms : Lmaps K V) (v : Nat) :
    (∃ m, ms[v]? = some (some m) ∧ liveMap ms v = .ok m) ∨ ((ms[v]?).join = none ∧ liveMap ms v = .ub .deadObject) := by
  unfold liveMap
  cases ms[v]? with
  | none => exact .inr ⟨rfl, rfl⟩
  | some o =>
    cases o with
    | none => exact .inr ⟨rfl, rfl⟩
    | some m => exact .inl ⟨m, rfl, rfl⟩

/-- A statement that both kinds of vectors accept. -/
theorem both_ok (hN : 0 < c.nodeSize) (hB : 0 < c.indexSize) {h : HState K V} {ms ms' : Lmaps K V} (r : Rel c h ms)
    {opN : Op (UNode K V)} {opB : Op (Option Nat)} (fN : Fits c.nodeSize (ms.map (·.map UMap.nodes)) opN)
    (fB : Fits c.indexSize (ms.map (·.map UMap.buckets)) opB)
    (hn : seqStep c.spare (ms.map (·.map UMap.nodes)) opN = some (ms'.map (·.map UMap.nodes)))
    (hb : seqStep (some 0) (ms.map (·.map UMap.buckets)) opB = some (ms'.map (·.map UMap.buckets))) :
    ∃ sN sB, onNodes c h opN = .ok { h with nodes := sN } ∧ onBuckets c h opB = .ok { h with buckets := sB } ∧
      Rel c ⟨sN, sB⟩ ms' ∧ (∀ h', h'.nodes = h.nodes → onNodes c h' opN = .ok { h' with nodes := sN }) ∧
      (∀ h', h'.buckets = h.buckets → onBuckets c h' opB = .ok { h' with buckets := sB }) := by
  obtain ⟨sN, g1, g2⟩ := Vec.step_spec hN (moved := c.moved) r.nodes fN hn
  obtain ⟨sB, k1, k2⟩ := Vec.step_spec hB (moved := id) r.buckets fB hb
  refine ⟨sN, sB, by simp only [onNodes, g1, Res.bind_ok], by simp only [onBuckets, k1, Res.bind_ok], ⟨g2, k2⟩, ?_, ?_⟩
  · intro h' e
    simp only [onNodes, e, g1, Res.bind_ok]
  · intro h' e
    simp only [onBuckets, e, k1, Res.bind_ok]

theorem onBuckets_dead (hB : 0 < c.indexSize) {h : HState K V} {ms : Lmaps K V} (r : Rel c h ms) {op : Op (Option Nat)}
    (hs : seqStep (some 0) (ms.map (·.map UMap.buckets)) op = none) : ∃ u, onBuckets c h op = .ub u := by
  obtain ⟨u, hu⟩ := Vec.step_misuse hB (moved := id) r.buckets hs
  exact ⟨u, by simp only [onBuckets, hu, Res.bind_ub]⟩

theorem onNodes_dead (hN : 0 < c.nodeSize) {h : HState K V} {ms : Lmaps K V} (r : Rel c h ms) {op : Op (UNode K V)}
    (hs : seqStep c.spare (ms.map (·.map UMap.nodes)) op = none) : ∃ u, onNodes c h op = .ub u := by
  obtain ⟨u, hu⟩ := Vec.step_misuse hN (moved := c.moved) r.nodes hs
  exact ⟨u, by simp only [onNodes, hu, Res.bind_ub]⟩

theorem findIndex_dead [DecidableEq K] {h : HState K V} {ms : Lmaps K V} (r : Rel c h ms) {v : Nat}
    (hv : (ms[v]?).join = none) (k : K) : findIndex c h v k = .ub .deadObject := by
  simp only [findIndex, bucketOf, sizeVar, r.buckets.getDead (seqOf_dead hv), Res.bind_ub]

/-- What must fit for one statement on lists. -/
def LFits (c : Cfg K V) (ms : Lmaps K V) : MapOp K V → Prop
  | .create n => n * c.indexSize < 2 ^ 64
  | .on v (.put _ _) => ∀ m, ms[v]? = some (some m) →
      3 * (m.nodes.length + 1) * c.nodeSize < 2 ^ 64 ∧ m.nodes.length * 2 * c.indexSize < 2 ^ 64
  | _ => True

theorem map_len {β : Type} {f : UMap K V → β} (ms : Lmaps K V) : (ms.map (·.map f)).length = ms.length := by simp

theorem step_prog_sim [DecidableEq K] (hN : 0 < c.nodeSize) (hB : 0 < c.indexSize) {h : HState K V} {ms : Lmaps K V}
    (r : Rel c h ms) {op : MapOp K V} (hf : LFits c ms op) : Sim (Rel c) (step c h op) (lstep c ms op) := by
  cases op with
  | create n =>
    obtain ⟨sN, sB, g1, g2, g3, g4, g5⟩ := both_ok hN hB r (ms' := ms ++ [some ⟨[], []⟩]) (opN := .create 0) (opB := .create 0)
      (show 0 * c.nodeSize < 2 ^ 64 by simp) (show 0 * c.indexSize < 2 ^ 64 by simp) (by simp [seqStep]) (by simp [seqStep])
    have hl : h.nodes.vars.length = ms.length := by rw [r.nodes.len, map_len]
    simp only [step, g2, Res.bind_ok, g4 { h with buckets := sB } rfl, lstep]
    have h1 := rehash_sim hN hB (c := c) g3 (v := ms.length) (m := ⟨[], []⟩) (by simp) (n := n) hf
    rw [hl]
    refine Sim.map_right (h1.imp ?_)
    intro h' m' _ _ r'
    unfold RelAt at r'
    rw [List.set_append_right _ _ (Nat.le_refl _)] at r'
    simpa using r'
  | copyNew src =>
    rcases live_or_dead ms src with ⟨m, hv, e⟩ | ⟨hv, e⟩
    · obtain ⟨sN, sB, g1, g2, g3, g4, g5⟩ := both_ok hN hB r (ms' := ms ++ [some m]) (opN := .copyNew src) (opB := .copyNew src)
        trivial trivial (by simp [seqStep, seqOf_map hv]) (by simp [seqStep, seqOf_map hv])
      simp only [step, g2, Res.bind_ok, g4 { h with buckets := sB } rfl, lstep, e]
      exact g3
    · obtain ⟨u, hu⟩ := onBuckets_dead hB r (op := .copyNew src) (by simp [seqStep, seqOf_dead hv])
      simp only [step, hu, Res.bind_ub, lstep, e]
      trivial
  | moveNew src =>
    rcases live_or_dead ms src with ⟨m, hv, e⟩ | ⟨hv, e⟩
    · obtain ⟨sN, sB, g1, g2, g3, g4, g5⟩ := both_ok hN hB r (ms' := ms.set src (some UMap.movedFrom) ++ [some m])
        (opN := .moveNew src) (opB := .moveNew src)
        trivial trivial (by simp [seqStep, seqOf_map hv, List.map_set, UMap.movedFrom])
        (by simp [seqStep, seqOf_map hv, List.map_set, UMap.movedFrom])
      simp only [step, g2, Res.bind_ok, g4 { h with buckets := sB } rfl, lstep, e]
      exact g3
    · obtain ⟨u, hu⟩ := onBuckets_dead hB r (op := .moveNew src) (by simp [seqStep, seqOf_dead hv])
      simp only [step, hu, Res.bind_ub, lstep, e]
      trivial
  | copyAssign dst src =>
    rcases live_or_dead ms src with ⟨m, hv, e⟩ | ⟨hv, e⟩
    · rcases live_or_dead ms dst with ⟨m2, hv2, e2⟩ | ⟨hv2, e2⟩
      · obtain ⟨sN, sB, g1, g2, g3, g4, g5⟩ := both_ok hN hB r (ms' := ms.set dst (some m))
          (opN := .copyAssign dst src) (opB := .copyAssign dst src)
          trivial trivial (by simp [seqStep, seqOf_map hv, seqOf_map hv2, List.map_set])
          (by simp [seqStep, seqOf_map hv, seqOf_map hv2, List.map_set])
        simp only [step, g2, Res.bind_ok, g4 { h with buckets := sB } rfl, lstep, e, e2]
        exact g3
      · obtain ⟨u, hu⟩ := onBuckets_dead hB r (op := .copyAssign dst src) (by simp [seqStep, seqOf_map hv, seqOf_dead hv2])
        simp only [step, hu, Res.bind_ub, lstep, e, e2, Res.bind_ok]
        trivial
    · obtain ⟨u, hu⟩ := onBuckets_dead hB r (op := .copyAssign dst src) (by simp [seqStep, seqOf_dead hv])
      simp only [step, hu, Res.bind_ub, lstep, e]
      trivial
  | moveAssign dst src =>
    rcases live_or_dead ms src with ⟨m, hv, e⟩ | ⟨hv, e⟩
    · rcases live_or_dead ms dst with ⟨m2, hv2, e2⟩ | ⟨hv2, e2⟩
      · obtain ⟨sN, sB, g1, g2, g3, g4, g5⟩ := both_ok hN hB r (ms' := (ms.set src (some m2)).set dst (some m))
          (opN := .moveAssign dst src) (opB := .moveAssign dst src)
          trivial trivial (by simp [seqStep, seqOf_map hv, seqOf_map hv2, List.map_set])
          (by simp [seqStep, seqOf_map hv, seqOf_map hv2, List.map_set])
        simp only [step, g2, Res.bind_ok, g4 { h with buckets := sB } rfl, lstep, e, e2]
        exact g3
      · obtain ⟨u, hu⟩ := onBuckets_dead hB r (op := .moveAssign dst src) (by simp [seqStep, seqOf_map hv, seqOf_dead hv2])
        simp only [step, hu, Res.bind_ub, lstep, e, e2, Res.bind_ok]
        trivial
    · obtain ⟨u, hu⟩ := onBuckets_dead hB r (op := .moveAssign dst src) (by simp [seqStep, seqOf_dead hv])
      simp only [step, hu, Res.bind_ub, lstep, e]
      trivial
  | on v op =>
    rcases live_or_dead ms v with ⟨m, hv, e⟩ | ⟨hv, e⟩
    · simp only [lstep, e, Res.bind_ok]
      cases op with
      | put k x =>
        obtain ⟨f1, f2⟩ := hf m hv
        exact Sim.map_right (insertOrAssign_sim hN hB r hv f1 f2 k x)
      | erase k => exact Sim.map_right (erase_sim hN hB r hv k)
      | clear =>
        obtain ⟨h', g1, g2⟩ := clear_sim hN hB r hv
        simp only [step, g1, UMap.applyOp, Res.bind_ok]
        exact g2
    · simp only [lstep, e, Res.bind_ub]
      cases op with
      | put k x =>
        simp only [step, insertOrAssign, findIndex_dead r hv, Res.bind_ub]
        trivial
      | erase k =>
        simp only [step, erase, findIndex_dead r hv, Res.bind_ub]
        trivial
      | clear =>
        obtain ⟨u, hu⟩ := onNodes_dead hN r (op := .clear v) (by simp [seqStep, seqOf_dead hv])
        simp only [step, clear, hu, Res.bind_ub]
        trivial
  | destroy v =>
    rcases live_or_dead ms v with ⟨m, hv, e⟩ | ⟨hv, e⟩
    · obtain ⟨sN, sB, g1, g2, g3, g4, g5⟩ := both_ok hN hB r (ms' := ms.set v none)
        (opN := .destroy v) (opB := .destroy v)
        trivial trivial (by simp [seqStep, seqOf_map hv, List.map_set])
        (by simp [seqStep, seqOf_map hv, List.map_set])
      simp only [step, g1, Res.bind_ok, g5 { h with nodes := sN } rfl, lstep, e]
      exact g3
    · obtain ⟨u, hu⟩ := onNodes_dead hN r (op := .destroy v) (by simp [seqStep, seqOf_dead hv])
      simp only [step, hu, Res.bind_ub, lstep, e]
      trivial

/-! ## Sizes -/

theorem insertOrAssign_length [DecidableEq K] {hash : K → Nat} {ex : Nat → Nat → Bool} {m m' : UMap K V} {k : K} {x : V}
    (h : UMap.insertOrAssign hash ex m k x = .ok m') : m'.nodes.length ≤ m.nodes.length + 1 := by
  unfold UMap.insertOrAssign at h
  obtain ⟨o, _, h⟩ := Res.bind_eq_ok.1 h
  cases o with
  | some i =>
    simp only at h
    obtain ⟨n, h1, h2⟩ := Res.bind_eq_ok.1 h
    cases h2
    simp only [(modifyAt_length h1).1]
    omega
  | none =>
    simp only at h
    obtain ⟨m1, h1, h2⟩ := Res.bind_eq_ok.1 h
    rw [insertNode_length h2]
    simp [growIfNeeded_length h1]

theorem unlink_length {m m' : UMap K V} {i : Nat} (h : UMap.unlink m i = .ok m') : m'.nodes.length = m.nodes.length := by
  rw [unlink_eq] at h
  obtain ⟨e, _, h⟩ := Res.bind_eq_ok.1 h
  obtain ⟨m1, h1, h⟩ := Res.bind_eq_ok.1 h
  obtain ⟨e1, _, h⟩ := Res.bind_eq_ok.1 h
  obtain ⟨n2, h2, h⟩ := Res.bind_eq_ok.1 h
  obtain ⟨n3, h3, h⟩ := Res.bind_eq_ok.1 h
  cases h
  simp only [(modifyAt_length h3).1, lAfter_length h2, lBefore_length h1]

theorem fillHole_length {fixed : Bool} {m m' : UMap K V} {i : Nat} (h : UMap.fillHole fixed m i = .ok m') :
    m'.nodes.length = m.nodes.length - 1 := by
  rw [fillHole_eq] at h
  split at h
  · obtain ⟨l, _, h⟩ := Res.bind_eq_ok.1 h
    obtain ⟨m1, h1, h⟩ := Res.bind_eq_ok.1 h
    obtain ⟨l1, _, h⟩ := Res.bind_eq_ok.1 h
    obtain ⟨n2, h2, h⟩ := Res.bind_eq_ok.1 h
    obtain ⟨n4, h4, h⟩ := Res.bind_eq_ok.1 h
    cases h
    obtain ⟨_, _, h4⟩ := Res.bind_eq_ok.1 h4
    obtain ⟨_, _, h4⟩ := Res.bind_eq_ok.1 h4
    obtain ⟨n3, h3, h4⟩ := Res.bind_eq_ok.1 h4
    have hl2 : n2.length = m1.nodes.length := by
      unfold lRelink at h2
      split at h2
      · exact lAfter_length h2
      · cases h2; rfl
    simp only [List.length_dropLast, writeAt_length h4, writeAt_length h3, hl2, lBefore_length h1]
  · cases h
    simp

theorem applyOp_length [DecidableEq K] {fixed : Bool} {hash : K → Nat} {ex : Nat → Nat → Bool} {m m' : UMap K V} {op : DictOp K V}
    (h : UMap.applyOp fixed hash ex m op = .ok m') : m'.nodes.length ≤ m.nodes.length + 1 := by
  cases op with
  | put k x => exact insertOrAssign_length h
  | erase k =>
    simp only [UMap.applyOp, UMap.eraseWith] at h
    obtain ⟨o, _, h⟩ := Res.bind_eq_ok.1 h
    cases o with
    | none => cases h; omega
    | some i =>
      simp only at h
      obtain ⟨m1, h1, h2⟩ := Res.bind_eq_ok.1 h
      rw [fillHole_length h2, unlink_length h1]
      omega
  | clear =>
    cases h
    simp [UMap.clear]

/-- No map has more than `n` nodes. -/
def AtMost (n : Nat) (ms : Lmaps K V) : Prop := ∀ m, some m ∈ ms → m.nodes.length ≤ n

theorem AtMost.set {n : Nat} {ms : Lmaps K V} (h : AtMost n ms) (v : Nat) {o : Option (UMap K V)}
    (ho : ∀ m, o = some m → m.nodes.length ≤ n) : AtMost n (ms.set v o) := by
  intro m hm
  rcases List.mem_or_eq_of_mem_set hm with hm | hm
  · exact h m hm
  · exact ho m hm.symm

theorem AtMost.push {n : Nat} {ms : Lmaps K V} (h : AtMost n ms) {m : UMap K V} (hm : m.nodes.length ≤ n) : AtMost n (ms ++ [some m]) := by
  intro m' hm'
  rcases List.mem_append.1 hm' with hm' | hm'
  · exact h m' hm'
  · simp at hm'
    rw [hm']
    exact hm

theorem AtMost.mono {n k : Nat} {ms : Lmaps K V} (h : AtMost n ms) (hk : n ≤ k) : AtMost k ms := fun m hm => Nat.le_trans (h m hm) hk

theorem liveMap_mem {ms : Lmaps K V} {v : Nat} {m : UMap K V} (h : liveMap ms v = .ok m) : some m ∈ ms := by
  rcases live_or_dead ms v with ⟨m', hv, e⟩ | ⟨_, e⟩
  · rw [e] at h
    cases h
    exact List.mem_iff_getElem?.2 ⟨v, hv⟩
  · rw [e] at h
    cases h

theorem lstep_atMost [DecidableEq K] {n : Nat} {ms ms' : Lmaps K V} (h : AtMost n ms) {op : MapOp K V} (hs : lstep c ms op = .ok ms') :
    AtMost (n + 1) ms' := by
  have h1 := h.mono (Nat.le_succ n)
  cases op with
  | create k =>
    obtain ⟨m, e1, e2⟩ := Res.bind_eq_ok.1 hs
    cases e2
    have : m.nodes.length = 0 := by
      have := rehashLoop_length e1
      simpa using this
    exact h1.push (by omega)
  | copyNew src =>
    obtain ⟨m, e1, e2⟩ := Res.bind_eq_ok.1 hs
    cases e2
    exact h1.push (h1 m (liveMap_mem e1))
  | moveNew src =>
    obtain ⟨m, e1, e2⟩ := Res.bind_eq_ok.1 hs
    cases e2
    exact (h1.set src (by rintro _ ⟨⟩; simp [UMap.movedFrom])).push (h1 m (liveMap_mem e1))
  | copyAssign dst src =>
    obtain ⟨m, e1, e2⟩ := Res.bind_eq_ok.1 hs
    obtain ⟨m2, e3, e2⟩ := Res.bind_eq_ok.1 e2
    cases e2
    exact h1.set dst (by rintro _ ⟨⟩; exact h1 m (liveMap_mem e1))
  | moveAssign dst src =>
    obtain ⟨m, e1, e2⟩ := Res.bind_eq_ok.1 hs
    obtain ⟨m2, e3, e2⟩ := Res.bind_eq_ok.1 e2
    cases e2
    exact (h1.set src (by rintro _ ⟨⟩; exact h1 m2 (liveMap_mem e3))).set dst (by rintro _ ⟨⟩; exact h1 m (liveMap_mem e1))
  | on v op =>
    obtain ⟨m, e1, e2⟩ := Res.bind_eq_ok.1 hs
    obtain ⟨m2, e3, e2⟩ := Res.bind_eq_ok.1 e2
    cases e2
    refine h1.set v ?_
    rintro _ ⟨⟩
    have := applyOp_length e3
    have := h m (liveMap_mem e1)
    omega
  | destroy v =>
    obtain ⟨m, e1, e2⟩ := Res.bind_eq_ok.1 hs
    cases e2
    exact h1.set v (by rintro _ ⟨⟩)

theorem run_prog_sim [DecidableEq K] (hN : 0 < c.nodeSize) (hB : 0 < c.indexSize) {h : HState K V} {ms : Lmaps K V}
    (r : Rel c h ms) {n : Nat} (ha : AtMost n ms) (ops : List (MapOp K V))
    (hf : 3 * (n + ops.length + 1) * c.nodeSize < 2 ^ 64) (hg : (n + ops.length) * 2 * c.indexSize < 2 ^ 64)
    (hc : ∀ k, MapOp.create k ∈ ops → k * c.indexSize < 2 ^ 64) : Sim (Rel c) (run c h ops) (lrun c ms ops) := by
  induction ops generalizing h ms n with
  | nil => exact r
  | cons op ops ih =>
    simp only [run, lrun]
    simp only [List.length_cons] at hf hg
    have hL : LFits c ms op := by
      cases op with
      | create k => exact hc k (by simp)
      | on v op =>
        cases op with
        | put k x =>
          intro m hm
          have hl := ha m (List.mem_iff_getElem?.2 ⟨v, hm⟩)
          constructor
          · refine Nat.lt_of_le_of_lt (Nat.mul_le_mul_right _ ?_) hf
            omega
          · refine Nat.lt_of_le_of_lt (Nat.mul_le_mul_right _ ?_) hg
            omega
        | _ => trivial
      | _ => trivial
    refine (step_prog_sim hN hB r hL).bind ?_
    intro h1 ms1 _ e1 r1
    refine ih r1 (lstep_atMost ha e1) ?_ ?_ ?_
    · rw [show n + 1 + ops.length + 1 = n + (ops.length + 1) + 1 by omega]
      exact hf
    · rw [show n + 1 + ops.length = n + (ops.length + 1) by omega]
      exact hg
    · intro k hk
      exact hc k (List.mem_cons_of_mem _ hk)

theorem rel_start : Rel c (start : HState K V) [] := by
  have h0 : ∀ {α : Type} (sz : Nat), Inv sz (⟨Mem.empty, []⟩ : State α) [] := by
    intro α sz
    refine ⟨rfl, ?_, ?_, ?_, ?_, ?_⟩ <;> simp [Mem.empty, total]
  exact ⟨h0 _, h0 _⟩

/-! ## The specification -/

/-- A map on lists has the content. -/
def Holds (c : Cfg K V) (m : UMap K V) (x : Content K V) : Prop :=
  match x with
  | none => m = ⟨[], []⟩
  | some (ph, l) => UMap.Good c.hash ph m ∧ m.entries = l ∧ (l.map Prod.fst).Nodup

/-- Maps on lists and contents. -/
structure Holding (c : Cfg K V) (ms : Lmaps K V) (e : Maps K V) : Prop where
  len : ms.length = e.length
  at_ : ∀ (v : Nat) (o : Option (UMap K V)) (x : Option (Content K V)), ms[v]? = some o → e[v]? = some x →
    match o, x with
    | none, none => True
    | some m, some x => Holds c m x
    | _, _ => False

theorem Holding.live {ms : Lmaps K V} {e : Maps K V} (h : Holding c ms e) {v : Nat} {x : Content K V}
    (hx : contentOf e v = some x) : ∃ m, ms[v]? = some (some m) ∧ e[v]? = some (some x) ∧ liveMap ms v = .ok m ∧ Holds c m x := by
  have he : e[v]? = some (some x) := by
    unfold contentOf at hx
    cases h' : e[v]? with
    | none => rw [h'] at hx; simp at hx
    | some o => rw [h'] at hx; simp at hx; rw [hx]
  have hl : v < ms.length := by rw [h.len]; exact (List.getElem?_eq_some_iff.1 he).1
  have hm : ms[v]? = some ms[v] := by simp [hl]
  have := h.at_ v ms[v] (some x) hm he
  cases ho : ms[v] with
  | none => rw [ho] at this; exact this.elim
  | some m =>
    rw [ho] at this hm
    exact ⟨m, hm, he, by simp [liveMap, hm], this⟩

theorem Holding.dead {ms : Lmaps K V} {e : Maps K V} (h : Holding c ms e) {v : Nat}
    (hx : contentOf e v = none) : (ms[v]?).join = none ∧ liveMap ms v = .ub .deadObject := by
  rcases live_or_dead ms v with ⟨m, hv, _⟩ | h'
  · have hl : v < e.length := by rw [← h.len]; exact (List.getElem?_eq_some_iff.1 hv).1
    have he : e[v]? = some e[v] := by simp [hl]
    have := h.at_ v _ _ hv he
    cases ho : e[v] with
    | none => rw [ho] at this; exact this.elim
    | some x =>
      simp [contentOf, he, ho] at hx
  · exact h'

theorem Holding.set {ms : Lmaps K V} {e : Maps K V} (h : Holding c ms e) (v : Nat) {o : Option (UMap K V)} {x : Option (Content K V)}
    (hx : match o, x with
      | none, none => True
      | some m, some x => Holds c m x
      | _, _ => False) : Holding c (ms.set v o) (e.set v x) := by
  refine ⟨by simp [h.len], ?_⟩
  intro w o' x' ho hx'
  rw [List.getElem?_set] at ho hx'
  by_cases hw : v = w
  · rw [if_pos hw] at ho hx'
    split at ho
    · split at hx'
      · cases ho; cases hx'; exact hx
      · cases hx'
    · cases ho
  · rw [if_neg hw] at ho hx'
    exact h.at_ w o' x' ho hx'

theorem Holding.push {ms : Lmaps K V} {e : Maps K V} (h : Holding c ms e) {m : UMap K V} {x : Content K V} (hx : Holds c m x) :
    Holding c (ms ++ [some m]) (e ++ [some x]) := by
  refine ⟨by simp [h.len], ?_⟩
  intro w o' x' ho hx'
  by_cases hw : w < ms.length
  · rw [List.getElem?_append_left hw] at ho
    rw [List.getElem?_append_left (by rw [← h.len]; exact hw)] at hx'
    exact h.at_ w o' x' ho hx'
  · rw [List.getElem?_append_right (by omega)] at ho
    rw [List.getElem?_append_right (by rw [← h.len]; omega), ← h.len] at hx'
    cases hk : w - ms.length with
    | zero =>
      rw [hk] at ho hx'
      simp at ho hx'
      cases ho; cases hx'
      exact hx
    | succ k =>
      rw [hk] at ho
      simp at ho


theorem lists_lookup [DecidableEq K] {l : List (K × V)} (h : (l.map Prod.fst).Nodup) : Lists l (lookup l) := by
  refine ⟨h, ?_⟩
  intro k v
  induction l with
  | nil => simp [lookup]
  | cons p l ih =>
    simp only [List.map_cons, List.nodup_cons] at h
    have ih := ih h.2
    unfold lookup at *
    by_cases hp : p.1 = k
    · subst hp
      simp only [List.mem_cons, List.find?_cons, decide_true, Option.map_some, Option.some.injEq]
      constructor
      · rintro (hm | hm)
        · rw [← hm]
        · exact absurd (List.mem_map.2 ⟨_, hm, rfl⟩) h.1
      · rintro rfl
        exact .inl rfl
    · simp only [List.mem_cons, List.find?_cons, hp, decide_false]
      rw [← ih]
      constructor
      · rintro (rfl | hm)
        · exact absurd rfl hp
        · exact hm
      · exact .inr

theorem nodup_step [DecidableEq K] {l : List (K × V)} (h : (l.map Prod.fst).Nodup) (op : DictOp K V) :
    ((orderStep l op).map Prod.fst).Nodup := (UMap.lists_step (lists_lookup h) op).1

theorem hollow_op [DecidableEq K] (op : DictOp K V) (hop : op ≠ .clear) :
    UMap.applyOp c.fixed c.hash c.exceeds (⟨[], []⟩ : UMap K V) op = .ub .divByZero := by
  cases op with
  | put k x => rfl
  | erase k => rfl
  | clear => exact absurd rfl hop

theorem lstep_spec [DecidableEq K] (hex : ∀ b, 0 < b → c.exceeds 1 b = false) {ms : Lmaps K V} {e : Maps K V} (h : Holding c ms e)
    {op : MapOp K V} (hs : c.fixed = true ∨ MapSafe e op) :
    match mapsStep e op with
    | some e' => ∃ ms', lstep c ms op = .ok ms' ∧ Holding c ms' e'
    | none => ∃ u, lstep c ms op = .ub u := by
  cases op with
  | create n =>
    simp only [mapsStep, lstep]
    by_cases hn : n = 0
    · subst hn
      exact ⟨_, rfl, h.push (x := none) rfl⟩
    · obtain ⟨m, g1, g2, g3⟩ := UMap.create_spec (V := V) c.hash (Nat.pos_of_ne_zero hn)
      rw [if_neg hn]
      exact ⟨_, by simp only [g1, Res.bind_ok], h.push (x := some (.calm, [])) ⟨g2, g3, by simp⟩⟩
  | copyNew src =>
    simp only [mapsStep, lstep]
    cases hc : contentOf e src with
    | none => exact ⟨_, by simp only [(h.dead hc).2, Res.bind_ub]; rfl⟩
    | some x =>
      obtain ⟨m, g1, g2, g3, g4⟩ := h.live hc
      exact ⟨_, by simp only [g3, Res.bind_ok], h.push g4⟩
  | moveNew src =>
    simp only [mapsStep, lstep]
    cases hc : contentOf e src with
    | none => exact ⟨_, by simp only [(h.dead hc).2, Res.bind_ub]; rfl⟩
    | some x =>
      obtain ⟨m, g1, g2, g3, g4⟩ := h.live hc
      exact ⟨_, by simp only [g3, Res.bind_ok], (h.set src (o := some UMap.movedFrom) (x := some none) rfl).push g4⟩
  | copyAssign dst src =>
    simp only [mapsStep, lstep]
    cases hc : contentOf e src with
    | none => exact ⟨_, by simp only [(h.dead hc).2, Res.bind_ub]; rfl⟩
    | some x =>
      obtain ⟨m, g1, g2, g3, g4⟩ := h.live hc
      cases hd : contentOf e dst with
      | none => exact ⟨_, by simp only [g3, Res.bind_ok, (h.dead hd).2, Res.bind_ub]; rfl⟩
      | some y =>
        obtain ⟨m2, k1, k2, k3, k4⟩ := h.live hd
        exact ⟨_, by simp only [g3, k3, Res.bind_ok], h.set dst (o := some m) (x := some x) g4⟩
  | moveAssign dst src =>
    simp only [mapsStep, lstep]
    cases hc : contentOf e src with
    | none => exact ⟨_, by simp only [(h.dead hc).2, Res.bind_ub]; rfl⟩
    | some x =>
      obtain ⟨m, g1, g2, g3, g4⟩ := h.live hc
      cases hd : contentOf e dst with
      | none => exact ⟨_, by simp only [g3, Res.bind_ok, (h.dead hd).2, Res.bind_ub]; rfl⟩
      | some y =>
        obtain ⟨m2, k1, k2, k3, k4⟩ := h.live hd
        exact ⟨_, by simp only [g3, k3, Res.bind_ok],
          (h.set src (o := some m2) (x := some y) k4).set dst (o := some m) (x := some x) g4⟩
  | on v op =>
    simp only [mapsStep, lstep]
    cases hc : contentOf e v with
    | none => exact ⟨_, by simp only [(h.dead hc).2, Res.bind_ub]; rfl⟩
    | some x =>
      obtain ⟨m, g1, g2, g3, g4⟩ := h.live hc
      simp only [Option.bind_some, g3, Res.bind_ok]
      cases x with
      | none =>
        cases g4
        by_cases hop : op = .clear
        · subst hop
          exact ⟨_, rfl, h.set v (o := some ⟨[], []⟩) (x := some none) rfl⟩
        · have : contentStep (none : Content K V) op = none := by
            cases op <;> first | rfl | exact absurd rfl hop
          rw [this]
          exact ⟨_, by rw [hollow_op op hop]; rfl⟩
      | some p =>
        obtain ⟨ph, l⟩ := p
        obtain ⟨a1, a2, a3⟩ := g4
        obtain ⟨m', b1, b2, b3⟩ := UMap.step_spec hex a1 (by rw [a2]; exact a3) op
          (hs.imp id (fun hs => by rw [a2]; exact hs ph l hc))
        refine ⟨_, by simp only [b1, Res.bind_ok], h.set v (o := some m') (x := some (some (phaseStep ph l op, orderStep l op))) ?_⟩
        rw [a2] at b2 b3
        exact ⟨b2, b3, nodup_step a3 op⟩
  | destroy v =>
    simp only [mapsStep, lstep]
    cases hc : contentOf e v with
    | none => exact ⟨_, by simp only [(h.dead hc).2, Res.bind_ub]; rfl⟩
    | some x =>
      obtain ⟨m, g1, g2, g3, g4⟩ := h.live hc
      exact ⟨_, by simp only [g3, Res.bind_ok], h.set v (o := none) (x := none) trivial⟩

theorem lrun_spec [DecidableEq K] (hex : ∀ b, 0 < b → c.exceeds 1 b = false) {ms : Lmaps K V} {e : Maps K V} (h : Holding c ms e)
    (ops : List (MapOp K V)) (hs : c.fixed = true ∨ MapsSafe e ops) :
    match mapsRun e ops with
    | some e' => ∃ ms', lrun c ms ops = .ok ms' ∧ Holding c ms' e'
    | none => ∃ u, lrun c ms ops = .ub u := by
  induction ops generalizing ms e with
  | nil => exact ⟨ms, rfl, h⟩
  | cons op ops ih =>
    have h1 := lstep_spec hex h (op := op) (hs.imp id (fun h => h.1))
    simp only [mapsRun, lrun]
    cases hm : mapsStep e op with
    | none =>
      rw [hm] at h1
      obtain ⟨u, hu⟩ := h1
      exact ⟨u, by rw [hu]; rfl⟩
    | some e1 =>
      rw [hm] at h1
      obtain ⟨ms1, k1, k2⟩ := h1
      simp only [Option.bind_some, k1, Res.bind_ok]
      exact ih k2 (hs.imp id (fun h => h.2 e1 hm))

theorem holding_nil : Holding c ([] : Lmaps K V) [] := ⟨rfl, by simp⟩

end HMap
end Coil
