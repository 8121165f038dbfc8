import Verif.Model.HeapMap
import Verif.Proofs.VecProg
import Verif.Proofs.UMapRefine

/-! # The map on the heap does what the map on lists does -/

namespace Coil
namespace HMap
open Spec Vec

/-- Two outcomes of the same kind, with related values. -/
def Sim {α β : Type} (R : α → β → Prop) : Res α → Res β → Prop
  | .ok a, .ok b => R a b
  | .ub _, .ub _ => True
  | .diverge, .diverge => True
  | _, _ => False

theorem Sim.ok {α β : Type} {R : α → β → Prop} {a : α} {b : β} (h : R a b) : Sim R (.ok a) (.ok b) := h

theorem Sim.bind {α β γ δ : Type} {R : α → β → Prop} {S : γ → δ → Prop} {x : Res α} {y : Res β} {f : α → Res γ} {g : β → Res δ}
    (h : Sim R x y) (hf : ∀ a b, x = .ok a → y = .ok b → R a b → Sim S (f a) (g b)) : Sim S (x >>= f) (y >>= g) := by
  cases x <;> cases y <;> first | exact h.elim | exact hf _ _ rfl rfl h | exact trivial

theorem Sim.imp {α β : Type} {R S : α → β → Prop} {x : Res α} {y : Res β} (h : Sim R x y)
    (hi : ∀ a b, x = .ok a → y = .ok b → R a b → S a b) : Sim S x y := by
  cases x <;> cases y <;> first | exact h.elim | exact hi _ _ rfl rfl h | exact trivial

theorem Sim.ok_right {α β : Type} {R : α → β → Prop} {x : Res α} {b : β} (h : Sim R x (.ok b)) : ∃ a, x = .ok a ∧ R a b := by
  cases x <;> first | exact h.elim | exact ⟨_, rfl, h⟩

theorem Sim.ok_left {α β : Type} {R : α → β → Prop} {a : α} {y : Res β} (h : Sim R (.ok a) y) : ∃ b, y = .ok b ∧ R a b := by
  cases y <;> first | exact h.elim | exact ⟨_, rfl, h⟩

/-! ## Vectors as lists -/

section vectors
variable {α : Type}

theorem readElem_out {sz : Nat} {m : Mem α} {buf : Buf} {l : List α} (h : Owns sz m buf l) {i : Nat} (hi : l[i]? = none) :
    ∃ u, Mem.readElem m buf i = .ub u := by
  rcases h with ⟨rfl, _⟩ | ⟨b, h1, h2, h3, h4, h5, h6⟩
  · exact ⟨.nullDeref, rfl⟩
  · have hl : l.length ≤ i := by simpa using hi
    have h7 : m.cells b = .ok (l.map some ++ List.replicate (buf.cap - l.length) none) := by
      unfold Mem.cells
      rw [h2]
    simp only [Mem.readElem, Mem.deref, h1, h7, Res.bind_ok]
    rw [List.getElem?_append_right (by simpa using hl)]
    simp only [List.length_map, List.getElem?_replicate]
    by_cases h8 : i - l.length < buf.cap - l.length
    · rw [if_pos h8]
      exact ⟨_, rfl⟩
    · rw [if_neg h8]
      exact ⟨_, rfl⟩

theorem readVar_sim {sz : Nat} {s : State α} {e : Seqs α} (h : Inv sz s e) {v : Nat} {l : List α} (hv : seqOf e v = some l) (i : Nat) :
    Sim Eq (readVar s v i) (readAt l i) := by
  obtain ⟨buf, h1, h2, h3, h4⟩ := h.getVar hv
  unfold readVar readAt
  simp only [h1, Res.bind_ok]
  cases hx : l[i]? with
  | none =>
    obtain ⟨u, hu⟩ := readElem_out h4 hx
    rw [hu]
    trivial
  | some x =>
    rw [readElem_spec h4 hx]
    rfl

theorem sizeVar_eq {sz : Nat} {s : State α} {e : Seqs α} (h : Inv sz s e) {v : Nat} {l : List α} (hv : seqOf e v = some l) :
    sizeVar s v = .ok l.length := by
  obtain ⟨buf, h1, h2, h3, h4⟩ := h.getVar hv
  unfold sizeVar
  simp only [h1, Res.bind_ok, h4.size.1]

theorem step_sim {sz : Nat} (hsz : 0 < sz) {moved : α → α} {dflt : α} {s : State α} {e : Seqs α} (h : Inv sz s e)
    {op : Op α} (hf : Fits sz e op) :
    match seqStep dflt e op with
    | some e' => ∃ s', Vec.step sz moved dflt s op = .ok s' ∧ Inv sz s' e'
    | none => ∃ u, Vec.step sz moved dflt s op = .ub u := by
  cases hs : seqStep dflt e op with
  | some e' => exact Vec.step_spec hsz h hf hs
  | none => exact Vec.step_misuse hsz h hs

end vectors

/-! ## Maps -/

variable {K V : Type} {c : Cfg K V}

/-- The lists of all maps. -/
abbrev Lmaps (K V : Type) := List (Option (UMap K V))

/-- The vectors of the state hold the lists of the maps. -/
structure Rel (c : Cfg K V) (h : HState K V) (ms : Lmaps K V) : Prop where
  nodes : Inv c.nodeSize h.nodes (ms.map (·.map UMap.nodes))
  buckets : Inv c.indexSize h.buckets (ms.map (·.map UMap.buckets))

theorem seqOf_map {α β : Type} {ms : List (Option α)} {f : α → List β} {v : Nat} {m : α} (h : ms[v]? = some (some m)) :
    seqOf (ms.map (·.map f)) v = some (f m) := by
  simp [seqOf, h]

theorem seqOf_dead {α β : Type} {ms : List (Option α)} {f : α → List β} {v : Nat} (h : (ms[v]?).join = none) :
    seqOf (ms.map (·.map f)) v = none := by
  simp only [seqOf, List.getElem?_map]
  cases hx : ms[v]? with
  | none => rfl
  | some o =>
    cases o with
    | none => rfl
    | some m => rw [hx] at h; simp at h

theorem get_set_self {ms : Lmaps K V} {v : Nat} {m m' : UMap K V} (h : ms[v]? = some (some m)) :
    (ms.set v (some m'))[v]? = some (some m') := by
  have hl := (List.getElem?_eq_some_iff.1 h).1
  simp [hl]

theorem map_set_same {ms : Lmaps K V} {β : Type} {f : UMap K V → β} {v : Nat} {m m' : UMap K V} (h : ms[v]? = some (some m)) (hf : f m' = f m) :
    (ms.set v (some m')).map (·.map f) = ms.map (·.map f) := by
  have h1 : (ms.map (·.map f))[v]? = some (some (f m)) := by simp [h]
  rw [List.map_set, Option.map_some, hf]
  obtain ⟨hl, he⟩ := List.getElem?_eq_some_iff.1 h1
  conv => lhs; rw [← he]
  exact List.set_getElem_self hl

/-- A statement on the nodes of one map. -/
theorem onNodes_sim (hN : 0 < c.nodeSize) {h : HState K V} {ms : Lmaps K V} (r : Rel c h ms) {v : Nat} {m : UMap K V}
    (hv : ms[v]? = some (some m)) {op : Op (UNode K V)} (hf : Fits c.nodeSize (ms.map (·.map UMap.nodes)) op) {x : Res (List (UNode K V))}
    (hx : match seqStep c.spare (ms.map (·.map UMap.nodes)) op with
      | some e' => ∃ l, x = .ok l ∧ e' = (ms.map (·.map UMap.nodes)).set v (some l)
      | none => ∃ u, x = .ub u) :
    Sim (fun h' l => Rel c h' (ms.set v (some ⟨m.buckets, l⟩))) (onNodes c h op) x := by
  have := step_sim hN (moved := c.moved) (dflt := c.spare) r.nodes hf
  cases hs : seqStep c.spare (ms.map (·.map UMap.nodes)) op with
  | none =>
    rw [hs] at this hx
    obtain ⟨u, hu⟩ := this
    obtain ⟨w, rfl⟩ := hx
    simp only [onNodes, hu, Res.bind_ub]
    trivial
  | some e' =>
    rw [hs] at this hx
    obtain ⟨s', h1, h2⟩ := this
    obtain ⟨l, rfl, rfl⟩ := hx
    simp only [onNodes, h1, Res.bind_ok]
    refine Sim.ok ⟨?_, ?_⟩
    · simpa [List.map_set] using h2
    · rw [map_set_same (f := UMap.buckets) (m' := ⟨m.buckets, l⟩) hv rfl]
      exact r.buckets

/-- A statement on the buckets of one map. -/
theorem onBuckets_sim (hB : 0 < c.indexSize) {h : HState K V} {ms : Lmaps K V} (r : Rel c h ms) {v : Nat} {m : UMap K V}
    (hv : ms[v]? = some (some m)) {op : Op (Option Nat)} (hf : Fits c.indexSize (ms.map (·.map UMap.buckets)) op)
    {x : Res (List (Option Nat))}
    (hx : match seqStep (some 0) (ms.map (·.map UMap.buckets)) op with
      | some e' => ∃ l, x = .ok l ∧ e' = (ms.map (·.map UMap.buckets)).set v (some l)
      | none => ∃ u, x = .ub u) :
    Sim (fun h' l => Rel c h' (ms.set v (some ⟨l, m.nodes⟩))) (onBuckets c h op) x := by
  have := step_sim hB (moved := id) (dflt := some 0) r.buckets hf
  cases hs : seqStep (some 0) (ms.map (·.map UMap.buckets)) op with
  | none =>
    rw [hs] at this hx
    obtain ⟨u, hu⟩ := this
    obtain ⟨w, rfl⟩ := hx
    simp only [onBuckets, hu, Res.bind_ub]
    trivial
  | some e' =>
    rw [hs] at this hx
    obtain ⟨s', h1, h2⟩ := this
    obtain ⟨l, rfl, rfl⟩ := hx
    simp only [onBuckets, h1, Res.bind_ok]
    refine Sim.ok ⟨?_, ?_⟩
    · rw [map_set_same (f := UMap.nodes) (m' := ⟨l, m.nodes⟩) hv rfl]
      exact r.nodes
    · simpa [List.map_set] using h2

theorem writeNode_sim (hN : 0 < c.nodeSize) {h : HState K V} {ms : Lmaps K V} (r : Rel c h ms) {v : Nat} {m : UMap K V}
    (hv : ms[v]? = some (some m)) (i : Nat) (x : UNode K V) :
    Sim (fun h' l => Rel c h' (ms.set v (some ⟨m.buckets, l⟩))) (onNodes c h (.write v i x)) (writeAt m.nodes i x) := by
  refine onNodes_sim hN r hv (op := .write v i x) trivial ?_
  simp only [seqStep, seqOf_map hv, Option.bind_some, writeAt]
  by_cases hi : i < m.nodes.length
  · simp [hi]
  · simp [hi]

theorem writeBucket_sim' (hB : 0 < c.indexSize) {h : HState K V} {ms : Lmaps K V} (r : Rel c h ms) {v : Nat} {m : UMap K V}
    (hv : ms[v]? = some (some m)) (i : Nat) (x : Option Nat) :
    Sim (fun h' l => Rel c h' (ms.set v (some ⟨l, m.nodes⟩))) (onBuckets c h (.write v i x)) (writeAt m.buckets i x) := by
  refine onBuckets_sim hB r hv (op := .write v i x) trivial ?_
  simp only [seqStep, seqOf_map hv, Option.bind_some, writeAt]
  by_cases hi : i < m.buckets.length
  · simp [hi]
  · simp [hi]

theorem writeBucket_sim (hB : 0 < c.indexSize) {h : HState K V} {ms : Lmaps K V} (r : Rel c h ms) {v : Nat} {m : UMap K V}
    (hv : ms[v]? = some (some m)) (b x : Option Nat) :
    Sim (fun h' l => Rel c h' (ms.set v (some ⟨l, m.nodes⟩))) (writeBucket c h v b x) (UMap.setBucket m.buckets b x) := by
  cases b with
  | none => trivial
  | some b => exact writeBucket_sim' hB r hv b x

theorem readNode_sim {h : HState K V} {ms : Lmaps K V} (r : Rel c h ms) {v : Nat} {m : UMap K V}
    (hv : ms[v]? = some (some m)) (i : Nat) : Sim Eq (readVar h.nodes v i) (readAt m.nodes i) :=
  readVar_sim r.nodes (seqOf_map hv) i

theorem readBucket_sim {h : HState K V} {ms : Lmaps K V} (r : Rel c h ms) {v : Nat} {m : UMap K V}
    (hv : ms[v]? = some (some m)) (i : Nat) : Sim Eq (readVar h.buckets v i) (readAt m.buckets i) :=
  readVar_sim r.buckets (seqOf_map hv) i

theorem nodesSize_eq {h : HState K V} {ms : Lmaps K V} (r : Rel c h ms) {v : Nat} {m : UMap K V}
    (hv : ms[v]? = some (some m)) : sizeVar h.nodes v = .ok m.nodes.length := sizeVar_eq r.nodes (seqOf_map hv)

theorem bucketsSize_eq {h : HState K V} {ms : Lmaps K V} (r : Rel c h ms) {v : Nat} {m : UMap K V}
    (hv : ms[v]? = some (some m)) : sizeVar h.buckets v = .ok m.buckets.length := sizeVar_eq r.buckets (seqOf_map hv)

theorem modifyNode_sim (hN : 0 < c.nodeSize) {h : HState K V} {ms : Lmaps K V} (r : Rel c h ms) {v : Nat} {m : UMap K V}
    (hv : ms[v]? = some (some m)) (i : Nat) (f : UNode K V → UNode K V) :
    Sim (fun h' l => Rel c h' (ms.set v (some ⟨m.buckets, l⟩))) (modifyNode c h v i f) (modifyAt m.nodes i f) := by
  have h1 := readNode_sim r hv i
  have h2 : modifyAt m.nodes i f = (readAt m.nodes i >>= fun nd => writeAt m.nodes i (f nd)) ∨
      (∃ u, readAt m.nodes i = .ub u) ∧ ∃ u, modifyAt m.nodes i f = .ub u := by
    unfold modifyAt readAt
    cases hx : m.nodes[i]? with
    | none => exact .inr ⟨⟨_, rfl⟩, ⟨_, rfl⟩⟩
    | some nd =>
      left
      have hl := (List.getElem?_eq_some_iff.1 hx).1
      simp [writeAt, hl]
  rcases h2 with h2 | ⟨⟨u, h3⟩, ⟨w, h4⟩⟩
  · rw [h2]
    unfold modifyNode
    refine h1.bind ?_
    rintro nd _ _ _ rfl
    exact writeNode_sim hN r hv i _
  · rw [h4]
    rw [h3] at h1
    unfold modifyNode
    cases hr : readVar h.nodes v i with
    | ok _ => rw [hr] at h1; exact h1.elim
    | ub _ => trivial
    | diverge => rw [hr] at h1; exact h1.elim

theorem bucketOf_eq {h : HState K V} {ms : Lmaps K V} (r : Rel c h ms) {v : Nat} {m : UMap K V}
    (hv : ms[v]? = some (some m)) (k : K) : bucketOf c h v k = UMap.bucketOf c.hash m k := by
  simp only [bucketOf, bucketsSize_eq r hv, Res.bind_ok, UMap.bucketOf]

theorem Sim.refl {α : Type} (x : Res α) : Sim Eq x x := by
  cases x <;> first | rfl | trivial

theorem findLoop_sim [DecidableEq K] {h : HState K V} {ms : Lmaps K V} (r : Rel c h ms) {v : Nat} {m : UMap K V}
    (hv : ms[v]? = some (some m)) (k : K) (fuel : Nat) (i : Option Nat) :
    Sim Eq (findLoop h v k fuel i) (UMap.findLoop m.nodes k fuel i) := by
  induction fuel generalizing i with
  | zero => cases i <;> simp [findLoop, UMap.findLoop, Sim]
  | succ fuel ih =>
    cases i with
    | none => simp [findLoop, UMap.findLoop, Sim]
    | some i =>
      simp only [findLoop, UMap.findLoop]
      refine (readNode_sim r hv i).bind ?_
      rintro nd _ _ _ rfl
      by_cases hk : nd.key = k
      · simp [hk, Sim]
      · rw [if_neg hk, if_neg hk]
        exact ih nd.next

theorem findIndex_sim [DecidableEq K] {h : HState K V} {ms : Lmaps K V} (r : Rel c h ms) {v : Nat} {m : UMap K V}
    (hv : ms[v]? = some (some m)) (k : K) : Sim Eq (findIndex c h v k) (UMap.findIndex c.hash m k) := by
  unfold findIndex UMap.findIndex
  rw [bucketOf_eq r hv]
  refine (Sim.refl _).bind ?_
  rintro b _ _ _ rfl
  refine (readBucket_sim r hv b).bind ?_
  rintro first _ _ _ rfl
  rw [nodesSize_eq r hv]
  exact findLoop_sim r hv k _ _

theorem find_sim [DecidableEq K] {h : HState K V} {ms : Lmaps K V} (r : Rel c h ms) {v : Nat} {m : UMap K V}
    (hv : ms[v]? = some (some m)) (k : K) : Sim Eq (find c h v k) (UMap.find c.hash m k) := by
  unfold find UMap.find
  refine (findIndex_sim r hv k).bind ?_
  rintro o _ _ _ rfl
  cases o with
  | none => exact rfl
  | some i =>
    refine (readNode_sim r hv i).bind ?_
    rintro nd _ _ _ rfl
    exact rfl

/-- Like `Rel`, for the map `v` replaced by `m`. -/
abbrev RelAt (c : Cfg K V) (ms : Lmaps K V) (v : Nat) (h : HState K V) (m : UMap K V) : Prop := Rel c h (ms.set v (some m))

theorem RelAt.again {ms : Lmaps K V} {v : Nat} {m m' : UMap K V} {h : HState K V}
    (h1 : RelAt c (ms.set v (some m')) v h m) : RelAt c ms v h m := by
  unfold RelAt at *
  simpa using h1

theorem insertLoop_sim (hN : 0 < c.nodeSize) {v new : Nat} (fuel : Nat) (i : Nat) {h : HState K V} {ms : Lmaps K V}
    (r : Rel c h ms) {m : UMap K V} (hv : ms[v]? = some (some m)) :
    Sim (fun h' l => RelAt c ms v h' ⟨m.buckets, l⟩) (insertLoop c v new fuel i h) (UMap.insertLoop m.nodes new fuel i) := by
  induction fuel generalizing i with
  | zero => trivial
  | succ fuel ih =>
    simp only [insertLoop, UMap.insertLoop]
    refine (readNode_sim r hv i).bind ?_
    rintro nd _ _ _ rfl
    cases hn : nd.next with
    | none =>
      simp only
      refine (modifyNode_sim hN r hv i _).bind ?_
      intro h1 l1 _ _ r1
      refine (modifyNode_sim hN r1 (get_set_self hv) new _).imp ?_
      intro h2 l2 _ _ r2
      exact RelAt.again r2
    | some j => exact ih j

theorem insertNode_sim (hN : 0 < c.nodeSize) (hB : 0 < c.indexSize) {h : HState K V} {ms : Lmaps K V} (r : Rel c h ms) {v new : Nat}
    {m : UMap K V} (hv : ms[v]? = some (some m)) :
    Sim (RelAt c ms v) (insertNode c h v new) (UMap.insertNode c.hash m new) := by
  unfold insertNode UMap.insertNode
  refine (readNode_sim r hv new).bind ?_
  rintro nd _ _ _ rfl
  rw [bucketOf_eq r hv]
  refine (Sim.refl _).bind ?_
  rintro b _ _ _ rfl
  refine (modifyNode_sim hN r hv new _).bind ?_
  intro h1 l1 _ _ r1
  have hv1 := get_set_self (m' := (⟨m.buckets, l1⟩ : UMap K V)) hv
  refine (readBucket_sim r1 hv1 b).bind ?_
  rintro first _ _ _ rfl
  cases first with
  | none =>
    have h3 := writeBucket_sim' hB r1 hv1 b (some new)
    have : Sim (RelAt c ms v) (onBuckets c h1 (.write v b (some new)) >>= fun x => .ok x)
        (writeAt m.buckets b (some new) >>= fun bs => .ok (⟨bs, l1⟩ : UMap K V)) := by
      refine h3.bind ?_
      intro h2 bs _ _ r2
      exact RelAt.again r2
    simp only
    cases hx : onBuckets c h1 (.write v b (some new)) <;> rw [hx] at this <;> exact this
  | some f =>
    simp only [nodesSize_eq r1 hv1, Res.bind_ok]
    have h3 := insertLoop_sim hN (new := new) (l1.length + 1) f r1 hv1
    have : Sim (RelAt c ms v) (insertLoop c v new (l1.length + 1) f h1 >>= fun x => .ok x)
        (UMap.insertLoop l1 new (l1.length + 1) f >>= fun ns => .ok (⟨m.buckets, ns⟩ : UMap K V)) := by
      refine h3.bind ?_
      intro h2 ns _ _ r2
      exact RelAt.again r2
    cases hx : insertLoop c v new (l1.length + 1) f h1 <;> rw [hx] at this <;> exact this

theorem resetLoop_ok (hB : 0 < c.indexSize) {v : Nat} (count : Nat) (i : Nat) {h : HState K V} {ms : Lmaps K V}
    (r : Rel c h ms) {m : UMap K V} (hv : ms[v]? = some (some m)) {d l : List (Option Nat)} (hb : m.buckets = d ++ l)
    (hd : d.length = i) (hl : l.length = count) :
    ∃ h', resetLoop c v count i h = .ok h' ∧ RelAt c ms v h' ⟨d ++ l.map (fun _ => none), m.nodes⟩ := by
  induction count generalizing i h ms m d l with
  | zero =>
    cases l with
    | cons _ _ => simp at hl
    | nil =>
      refine ⟨h, rfl, ?_⟩
      have : (⟨d ++ List.map (fun _ => none) ([] : List (Option Nat)), m.nodes⟩ : UMap K V) = m := by
        cases m
        simp at hb ⊢
        exact hb.symm
      rw [this]
      unfold RelAt
      obtain ⟨hlt, he⟩ := List.getElem?_eq_some_iff.1 hv
      rw [← he, List.set_getElem_self hlt]
      exact r
  | succ count ih =>
    cases l with
    | nil => simp at hl
    | cons x l =>
      have h1 := writeBucket_sim' hB r hv i none
      have h2 : writeAt m.buckets i none = .ok (d ++ none :: l) := by
        rw [hb]
        simp [writeAt, ← hd]
      rw [h2] at h1
      obtain ⟨h', g1, g2⟩ := h1.ok_right
      obtain ⟨h'', k1, k2⟩ := ih (i + 1) g2 (get_set_self hv) (d := d ++ [none]) (l := l) (by simp) (by simp [hd]) (by simpa using hl)
      refine ⟨h'', by simp only [resetLoop, g1, Res.bind_ok, k1], ?_⟩
      have := RelAt.again k2
      simpa using this

theorem resetBuckets_ok (hB : 0 < c.indexSize) {v : Nat} {h : HState K V} {ms : Lmaps K V}
    (r : Rel c h ms) {m : UMap K V} (hv : ms[v]? = some (some m)) :
    ∃ h', resetBuckets c h v = .ok h' ∧ RelAt c ms v h' ⟨m.buckets.map (fun _ => none), m.nodes⟩ := by
  obtain ⟨h', g1, g2⟩ := resetLoop_ok hB m.buckets.length 0 r hv (d := []) (l := m.buckets) rfl rfl rfl
  exact ⟨h', by simp only [resetBuckets, bucketsSize_eq r hv, Res.bind_ok, g1], by simpa using g2⟩

theorem rehashLoop_sim (hN : 0 < c.nodeSize) (hB : 0 < c.indexSize) {v : Nat} (count i : Nat) {h : HState K V} {ms : Lmaps K V}
    (r : Rel c h ms) {m : UMap K V} (hv : ms[v]? = some (some m)) :
    Sim (RelAt c ms v) (rehashLoop c v count i h) (UMap.rehashLoop c.hash count i m) := by
  induction count generalizing i h ms m with
  | zero =>
    refine Sim.ok ?_
    unfold RelAt
    obtain ⟨hlt, he⟩ := List.getElem?_eq_some_iff.1 hv
    rw [← he, List.set_getElem_self hlt]
    exact r
  | succ count ih =>
    simp only [rehashLoop, UMap.rehashLoop]
    refine (insertNode_sim hN hB r hv).bind ?_
    intro h1 m1 _ _ r1
    refine (ih (i + 1) r1 (get_set_self hv)).imp ?_
    intro h2 m2 _ _ r2
    exact RelAt.again r2

theorem rehash_sim (hN : 0 < c.nodeSize) (hB : 0 < c.indexSize) {v : Nat} {h : HState K V} {ms : Lmaps K V}
    (r : Rel c h ms) {m : UMap K V} (hv : ms[v]? = some (some m)) {n : Nat} (hn : n * c.indexSize < 2 ^ 64) :
    Sim (RelAt c ms v) (rehash c h v n) (UMap.rehash c.hash m n) := by
  unfold rehash UMap.rehash
  have h1 := onBuckets_sim hB r hv (op := .resize v n) (x := .ok (resized (some 0) n m.buckets)) hn (by
    simp only [seqStep, seqOf_map hv, Option.map_some]
    exact ⟨_, rfl, rfl⟩)
  obtain ⟨h1, g1, g2⟩ := h1.ok_right
  obtain ⟨h2, k1, k2⟩ := resetBuckets_ok hB g2 (get_set_self hv)
  have k3 : RelAt c ms v h2 ⟨List.replicate n none, m.nodes⟩ := by
    have := RelAt.again k2
    have e : (resized (some 0) n m.buckets).map (fun _ => (none : Option Nat)) = List.replicate n none := by
      rw [List.map_const']
      congr 1
      simp [resized]
      omega
    simpa [e] using this
  have hv2 := get_set_self (m' := (⟨List.replicate n none, m.nodes⟩ : UMap K V)) hv
  simp only [g1, Res.bind_ok, k1, nodesSize_eq k3 hv2]
  refine (rehashLoop_sim hN hB m.nodes.length 0 k3 hv2).imp ?_
  intro h3 m3 _ _ r3
  exact RelAt.again r3

theorem rel_refl {ms : Lmaps K V} {v : Nat} {m : UMap K V} {h : HState K V} (r : Rel c h ms) (hv : ms[v]? = some (some m)) :
    RelAt c ms v h m := by
  unfold RelAt
  obtain ⟨hlt, he⟩ := List.getElem?_eq_some_iff.1 hv
  rw [← he, List.set_getElem_self hlt]
  exact r

theorem growIfNeeded_sim (hN : 0 < c.nodeSize) (hB : 0 < c.indexSize) {v : Nat} {h : HState K V} {ms : Lmaps K V}
    (r : Rel c h ms) {m : UMap K V} (hv : ms[v]? = some (some m)) (hn : m.nodes.length * 2 * c.indexSize < 2 ^ 64) :
    Sim (RelAt c ms v) (growIfNeeded c h v) (UMap.growIfNeeded c.hash c.exceeds m) := by
  simp only [growIfNeeded, UMap.growIfNeeded, nodesSize_eq r hv, bucketsSize_eq r hv, Res.bind_ok]
  by_cases hx : c.exceeds (m.nodes.length + 1) m.buckets.length = true
  · rw [if_pos hx, if_pos hx]
    exact rehash_sim hN hB r hv hn
  · rw [if_neg hx, if_neg hx]
    exact rel_refl r hv

theorem Sim.map_right {α β γ : Type} {R : α → γ → Prop} {x : Res α} {y : Res β} {g : β → γ} (h : Sim (fun a b => R a (g b)) x y) :
    Sim R x (y >>= fun b => .ok (g b)) := by
  cases x <;> cases y <;> first | exact h.elim | exact h | exact trivial

omit c in
theorem insertLoop_length {new fuel i : Nat} {nodes l : List (UNode K V)} (h : UMap.insertLoop nodes new fuel i = .ok l) :
    l.length = nodes.length := by
  induction fuel generalizing i with
  | zero => simp [UMap.insertLoop] at h
  | succ fuel ih =>
    simp only [UMap.insertLoop] at h
    obtain ⟨nd, _, h⟩ := Res.bind_eq_ok.1 h
    cases hn : nd.next with
    | some j => rw [hn] at h; exact ih h
    | none =>
      rw [hn] at h
      simp only at h
      obtain ⟨l1, h1, h2⟩ := Res.bind_eq_ok.1 h
      have e : ∀ {a b : List (UNode K V)} {i f}, modifyAt a i f = .ok b → b.length = a.length := by
        intro a b i f hm
        unfold modifyAt at hm
        split at hm
        · simp at hm; rw [← hm]; simp
        · simp at hm
      rw [e h2, e h1]

theorem modifyAt_length {α : Type} {a b : List α} {i : Nat} {f : α → α} (hm : modifyAt a i f = .ok b) :
    b.length = a.length ∧ i < a.length := by
  unfold modifyAt at hm
  split at hm
  · rename_i x hx
    simp at hm
    rw [← hm]
    exact ⟨by simp, (List.getElem?_eq_some_iff.1 hx).1⟩
  · simp at hm

omit c in
theorem insertNode_length {hash : K → Nat} {m m' : UMap K V} {new : Nat} (h : UMap.insertNode hash m new = .ok m') :
    m'.nodes.length = m.nodes.length := by
  unfold UMap.insertNode at h
  obtain ⟨nd, _, h⟩ := Res.bind_eq_ok.1 h
  obtain ⟨b, _, h⟩ := Res.bind_eq_ok.1 h
  obtain ⟨n1, h1, h⟩ := Res.bind_eq_ok.1 h
  obtain ⟨f, _, h⟩ := Res.bind_eq_ok.1 h
  cases f with
  | none =>
    simp only at h
    obtain ⟨bs, _, h⟩ := Res.bind_eq_ok.1 h
    cases h
    exact (modifyAt_length h1).1
  | some f =>
    simp only at h
    obtain ⟨bs, h2, h⟩ := Res.bind_eq_ok.1 h
    cases h
    simp only [insertLoop_length h2, (modifyAt_length h1).1]

omit c in
theorem rehashLoop_length {hash : K → Nat} {count i : Nat} {m m' : UMap K V} (h : UMap.rehashLoop hash count i m = .ok m') :
    m'.nodes.length = m.nodes.length := by
  induction count generalizing i m with
  | zero => cases h; rfl
  | succ count ih =>
    simp only [UMap.rehashLoop] at h
    obtain ⟨m1, h1, h⟩ := Res.bind_eq_ok.1 h
    rw [ih h, insertNode_length h1]

omit c in
theorem growIfNeeded_length {hash : K → Nat} {ex : Nat → Nat → Bool} {m m' : UMap K V} (h : UMap.growIfNeeded hash ex m = .ok m') :
    m'.nodes.length = m.nodes.length := by
  unfold UMap.growIfNeeded at h
  split at h
  · have := rehashLoop_length h
    exact this
  · cases h; rfl

theorem insertOrAssign_sim [DecidableEq K] (hN : 0 < c.nodeSize) (hB : 0 < c.indexSize) {v : Nat} {h : HState K V} {ms : Lmaps K V}
    (r : Rel c h ms) {m : UMap K V} (hv : ms[v]? = some (some m)) (hf : 3 * (m.nodes.length + 1) * c.nodeSize < 2 ^ 64)
    (hn : m.nodes.length * 2 * c.indexSize < 2 ^ 64) (k : K) (x : V) :
    Sim (RelAt c ms v) (insertOrAssign c h v k x) (UMap.insertOrAssign c.hash c.exceeds m k x) := by
  unfold insertOrAssign UMap.insertOrAssign
  refine (findIndex_sim r hv k).bind ?_
  rintro o _ _ _ rfl
  cases o with
  | some i => exact Sim.map_right (modifyNode_sim hN r hv i _)
  | none =>
    refine (growIfNeeded_sim hN hB r hv hn).bind ?_
    intro h1 m1 _ e1 r1
    have hv1 := get_set_self (m' := m1) hv
    simp only [nodesSize_eq r1 hv1, Res.bind_ok]
    have hl := growIfNeeded_length e1
    have h2 := onNodes_sim hN r1 hv1 (op := .pushBack v ⟨k, x, none, none, none⟩)
      (x := .ok (m1.nodes ++ [⟨k, x, none, none, none⟩])) (by
        intro l hls
        rw [seqOf_map hv1] at hls
        cases hls
        rw [hl]
        exact hf) (by
      simp only [seqStep, seqOf_map hv1, Option.map_some]
      exact ⟨_, rfl, rfl⟩)
    obtain ⟨h2, g1, g2⟩ := h2.ok_right
    simp only [g1, Res.bind_ok]
    refine (insertNode_sim hN hB (RelAt.again g2) (get_set_self hv)).imp ?_
    intro h3 m3 _ _ r3
    exact RelAt.again r3

omit c in
/-- `linkBefore` on lists. -/
def lBefore (m : UMap K V) (nd : UNode K V) (x : Option Nat) : Res (UMap K V) :=
  match nd.prev with
  | some p => modifyAt m.nodes p (fun n => { n with next := x }) >>= fun nodes => .ok ⟨m.buckets, nodes⟩
  | none => UMap.setBucket m.buckets nd.bucket x >>= fun bs => .ok ⟨bs, m.nodes⟩

omit c in
/-- `linkAfter` on lists. -/
def lAfter (nodes : List (UNode K V)) (nd : UNode K V) (x : Option Nat) : Res (List (UNode K V)) :=
  match nd.next with
  | some q => modifyAt nodes q (fun n => { n with prev := x })
  | none => .ok nodes

omit c in
theorem unlink_eq (m : UMap K V) (i : Nat) : UMap.unlink m i = (do
    let e ← readAt m.nodes i
    let m1 ← lBefore m e e.next
    let e1 ← readAt m1.nodes i
    let nodes2 ← lAfter m1.nodes e1 e1.prev
    let nodes3 ← modifyAt nodes2 i (fun n => { n with prev := none, next := none })
    .ok ⟨m1.buckets, nodes3⟩) := by
  have inner : ∀ (m1 : UMap K V),
      (do
        let e1 ← readAt m1.nodes i
        let nodes2 ← match e1.next with
          | some q => modifyAt m1.nodes q (fun n => { n with prev := e1.prev })
          | none => Res.ok m1.nodes
        let nodes3 ← modifyAt nodes2 i (fun n => { n with prev := none, next := none })
        Res.ok (⟨m1.buckets, nodes3⟩ : UMap K V)) = (do
        let e1 ← readAt m1.nodes i
        let nodes2 ← lAfter m1.nodes e1 e1.prev
        let nodes3 ← modifyAt nodes2 i (fun n => { n with prev := none, next := none })
        .ok ⟨m1.buckets, nodes3⟩) := by
    intro m1
    cases readAt m1.nodes i with
    | ub _ => rfl
    | diverge => rfl
    | ok e1 =>
      simp only [Res.bind_ok, lAfter]
      cases e1.next <;> rfl
  unfold UMap.unlink
  cases readAt m.nodes i with
  | ub _ => rfl
  | diverge => rfl
  | ok e =>
    simp only [Res.bind_ok, lBefore]
    cases e.prev with
    | some p =>
      simp only
      cases modifyAt m.nodes p (fun n => { n with next := e.next }) with
      | ub _ => rfl
      | diverge => rfl
      | ok n => exact inner ⟨m.buckets, n⟩
    | none =>
      simp only
      cases UMap.setBucket m.buckets e.bucket e.next with
      | ub _ => rfl
      | diverge => rfl
      | ok n => exact inner ⟨n, m.nodes⟩

theorem linkBefore_sim (hN : 0 < c.nodeSize) (hB : 0 < c.indexSize) {v : Nat} {h : HState K V} {ms : Lmaps K V}
    (r : Rel c h ms) {m : UMap K V} (hv : ms[v]? = some (some m)) (nd : UNode K V) (x : Option Nat) :
    Sim (RelAt c ms v) (linkBefore c h v nd x) (lBefore m nd x) := by
  unfold linkBefore lBefore
  cases nd.prev with
  | some p => exact Sim.map_right (modifyNode_sim hN r hv p _)
  | none => exact Sim.map_right (writeBucket_sim hB r hv _ _)

theorem linkAfter_sim (hN : 0 < c.nodeSize) {v : Nat} {h : HState K V} {ms : Lmaps K V}
    (r : Rel c h ms) {m : UMap K V} (hv : ms[v]? = some (some m)) (nd : UNode K V) (x : Option Nat) :
    Sim (fun h' l => RelAt c ms v h' ⟨m.buckets, l⟩) (linkAfter c h v nd x) (lAfter m.nodes nd x) := by
  unfold linkAfter lAfter
  cases nd.next with
  | some q => exact modifyNode_sim hN r hv q _
  | none => exact rel_refl r hv

omit c in
theorem lBefore_length {m m' : UMap K V} {nd : UNode K V} {x : Option Nat} (h : lBefore m nd x = .ok m') :
    m'.nodes.length = m.nodes.length := by
  unfold lBefore at h
  split at h
  · obtain ⟨n, h1, h2⟩ := Res.bind_eq_ok.1 h
    cases h2
    exact (modifyAt_length h1).1
  · obtain ⟨n, h1, h2⟩ := Res.bind_eq_ok.1 h
    cases h2
    rfl

omit c in
theorem lAfter_length {l l' : List (UNode K V)} {nd : UNode K V} {x : Option Nat} (h : lAfter l nd x = .ok l') :
    l'.length = l.length := by
  unfold lAfter at h
  split at h
  · exact (modifyAt_length h).1
  · cases h
    rfl

theorem unlink_sim (hN : 0 < c.nodeSize) (hB : 0 < c.indexSize) {v : Nat} {h : HState K V} {ms : Lmaps K V}
    (r : Rel c h ms) {m : UMap K V} (hv : ms[v]? = some (some m)) (i : Nat) :
    Sim (RelAt c ms v) (unlink c h v i) (UMap.unlink m i) := by
  rw [unlink_eq]
  unfold unlink
  refine (readNode_sim r hv i).bind ?_
  rintro e _ _ _ rfl
  refine (linkBefore_sim hN hB r hv e _).bind ?_
  intro h1 m1 _ _ r1
  have hv1 := get_set_self (m' := m1) hv
  refine (readNode_sim r1 hv1 i).bind ?_
  rintro e1 _ _ _ rfl
  refine (linkAfter_sim hN r1 hv1 e1 _).bind ?_
  intro h2 l2 _ _ r2
  refine Sim.map_right ?_
  refine (modifyNode_sim hN (RelAt.again r2) (get_set_self hv) i _).imp ?_
  intro h3 l3 _ _ r3
  exact RelAt.again r3

omit c in
theorem unlink_nonempty {m m' : UMap K V} {i : Nat} (h : UMap.unlink m i = .ok m') : m'.nodes ≠ [] := by
  rw [unlink_eq] at h
  obtain ⟨e, _, h⟩ := Res.bind_eq_ok.1 h
  obtain ⟨m1, _, h⟩ := Res.bind_eq_ok.1 h
  obtain ⟨e1, _, h⟩ := Res.bind_eq_ok.1 h
  obtain ⟨n2, _, h⟩ := Res.bind_eq_ok.1 h
  obtain ⟨n3, h3, h⟩ := Res.bind_eq_ok.1 h
  cases h
  have := modifyAt_length h3
  intro h0
  simp only at h0
  rw [h0] at this
  simp at this
  omega

theorem exchange_sim (hN : 0 < c.nodeSize) {v : Nat} {h : HState K V} {ms : Lmaps K V}
    (r : Rel c h ms) {m : UMap K V} (hv : ms[v]? = some (some m)) {i j : Nat} (hij : i ≠ j) :
    Sim (fun h' l => RelAt c ms v h' ⟨m.buckets, l⟩) (exchangeNodes c h v i j) (do
      let e ← readAt m.nodes i
      let l2 ← readAt m.nodes j
      let nodes3 ← writeAt m.nodes i l2
      writeAt nodes3 j e) := by
  unfold exchangeNodes
  refine (readNode_sim r hv i).bind ?_
  rintro e _ _ he rfl
  have hi : i < m.nodes.length := by
    unfold readAt at he
    split at he
    · rename_i hx
      exact (List.getElem?_eq_some_iff.1 hx).1
    · simp at he
  have h1 := writeNode_sim hN r hv i (c.moved e)
  rw [show writeAt m.nodes i (c.moved e) = .ok (m.nodes.set i (c.moved e)) by simp [writeAt, hi]] at h1
  obtain ⟨h1, g1, r1⟩ := h1.ok_right
  have hv1 := get_set_self (m' := (⟨m.buckets, m.nodes.set i (c.moved e)⟩ : UMap K V)) hv
  simp only [g1, Res.bind_ok]
  have h2 := readNode_sim r1 hv1 j
  rw [show readAt (m.nodes.set i (c.moved e)) j = readAt m.nodes j by simp [readAt, List.getElem?_set_ne hij]] at h2
  refine h2.bind ?_
  rintro nd _ _ hnd rfl
  have hj : j < m.nodes.length := by
    unfold readAt at hnd
    split at hnd
    · rename_i hx
      exact (List.getElem?_eq_some_iff.1 hx).1
    · simp at hnd
  have h3 := writeNode_sim hN r1 hv1 j (c.moved nd)
  simp only at h3
  rw [show writeAt (m.nodes.set i (c.moved e)) j (c.moved nd) = .ok ((m.nodes.set i (c.moved e)).set j (c.moved nd)) by
    simp [writeAt, hj]] at h3
  obtain ⟨h3, g3, r3⟩ := h3.ok_right
  have r3 := RelAt.again r3
  have hv3 := get_set_self (m' := (⟨m.buckets, (m.nodes.set i (c.moved e)).set j (c.moved nd)⟩ : UMap K V)) hv
  simp only [g3, Res.bind_ok]
  have h4 := writeNode_sim hN r3 hv3 i nd
  simp only at h4
  have e4 : ((m.nodes.set i (c.moved e)).set j (c.moved nd)).set i nd = (m.nodes.set i nd).set j (c.moved nd) := by
    rw [List.set_comm _ _ hij.symm, List.set_set]
  rw [show writeAt ((m.nodes.set i (c.moved e)).set j (c.moved nd)) i nd = .ok ((m.nodes.set i nd).set j (c.moved nd)) by
    simp [writeAt, hi, e4]] at h4
  obtain ⟨h4, g4, r4⟩ := h4.ok_right
  have r4 := RelAt.again r4
  have hv4 := get_set_self (m' := (⟨m.buckets, (m.nodes.set i nd).set j (c.moved nd)⟩ : UMap K V)) hv
  rw [show writeAt m.nodes i nd = .ok (m.nodes.set i nd) by simp [writeAt, hi]]
  simp only [g4, Res.bind_ok]
  have h5 := writeNode_sim hN r4 hv4 j e
  simp only at h5
  rw [show writeAt ((m.nodes.set i nd).set j (c.moved nd)) j e = writeAt (m.nodes.set i nd) j e by simp [writeAt, hj]] at h5
  refine h5.imp ?_
  intro h6 l6 _ _ r6
  exact RelAt.again r6

omit c in
theorem writeAt_length {α : Type} {a b : List α} {i : Nat} {x : α} (h : writeAt a i x = .ok b) : b.length = a.length := by
  unfold writeAt at h
  split at h
  · cases h; simp
  · simp at h

theorem popBack_sim (hN : 0 < c.nodeSize) {v : Nat} {h : HState K V} {ms : Lmaps K V}
    (r : Rel c h ms) {m : UMap K V} (hv : ms[v]? = some (some m)) (hne : m.nodes ≠ []) :
    Sim (RelAt c ms v) (onNodes c h (.popBack v)) (.ok ⟨m.buckets, m.nodes.dropLast⟩) := by
  refine (onNodes_sim hN r hv (op := .popBack v) (x := .ok m.nodes.dropLast) trivial ?_).ok_right |>.elim ?_
  · simp only [seqStep, seqOf_map hv, Option.bind_some, if_neg hne]
    exact ⟨_, rfl, rfl⟩
  · rintro h' ⟨g1, g2⟩
    rw [g1]
    exact g2

theorem Sim.id_left {α β : Type} {R : α → β → Prop} {x : Res α} {y : Res β} (h : Sim R (x >>= fun a => .ok a) y) : Sim R x y := by
  cases x <;> exact h

omit c in
/-- `relinkNext` on lists. -/
def lRelink (fixed : Bool) (nodes : List (UNode K V)) (nd : UNode K V) (i : Nat) : Res (List (UNode K V)) :=
  if fixed = true then lAfter nodes nd (some i) else .ok nodes

omit c in
theorem fillHole_eq (fixed : Bool) (m : UMap K V) (i : Nat) : UMap.fillHole fixed m i =
    if i ≠ m.nodes.length - 1 then do
      let l ← readAt m.nodes (m.nodes.length - 1)
      let m1 ← lBefore m l (some i)
      let l1 ← readAt m1.nodes (m.nodes.length - 1)
      let nodes2 ← lRelink fixed m1.nodes l1 i
      let nodes4 ← (do
        let e ← readAt nodes2 i
        let l2 ← readAt nodes2 (m.nodes.length - 1)
        let nodes3 ← writeAt nodes2 i l2
        writeAt nodes3 (m.nodes.length - 1) e)
      .ok ⟨m1.buckets, nodes4.dropLast⟩
    else .ok ⟨m.buckets, m.nodes.dropLast⟩ := by
  have inner : ∀ (m1 : UMap K V),
      (do
        let l1 ← readAt m1.nodes (m.nodes.length - 1)
        let nodes2 ← UMap.relinkNext fixed m1.nodes l1.next i
        let e ← readAt nodes2 i
        let l2 ← readAt nodes2 (m.nodes.length - 1)
        let nodes3 ← writeAt nodes2 i l2
        let nodes4 ← writeAt nodes3 (m.nodes.length - 1) e
        Res.ok (⟨m1.buckets, nodes4.dropLast⟩ : UMap K V)) = (do
        let l1 ← readAt m1.nodes (m.nodes.length - 1)
        let nodes2 ← lRelink fixed m1.nodes l1 i
        let nodes4 ← (do
          let e ← readAt nodes2 i
          let l2 ← readAt nodes2 (m.nodes.length - 1)
          let nodes3 ← writeAt nodes2 i l2
          writeAt nodes3 (m.nodes.length - 1) e)
        .ok ⟨m1.buckets, nodes4.dropLast⟩) := by
    intro m1
    cases readAt m1.nodes (m.nodes.length - 1) with
    | ub _ => rfl
    | diverge => rfl
    | ok l1 =>
      have e1 : UMap.relinkNext fixed m1.nodes l1.next i = lRelink fixed m1.nodes l1 i := by
        unfold UMap.relinkNext lRelink lAfter
        cases fixed <;> cases l1.next <;> rfl
      simp only [Res.bind_ok, e1]
      cases lRelink fixed m1.nodes l1 i with
      | ub _ => rfl
      | diverge => rfl
      | ok n2 =>
        simp only [Res.bind_ok]
        cases readAt n2 i with
        | ub _ => rfl
        | diverge => rfl
        | ok e =>
          simp only [Res.bind_ok]
          cases readAt n2 (m.nodes.length - 1) with
          | ub _ => rfl
          | diverge => rfl
          | ok l2 =>
            simp only [Res.bind_ok]
            cases writeAt n2 i l2 <;> rfl
  unfold UMap.fillHole
  by_cases hi : i ≠ m.nodes.length - 1
  · rw [if_pos hi, if_pos hi]
    simp only
    cases readAt m.nodes (m.nodes.length - 1) with
    | ub _ => rfl
    | diverge => rfl
    | ok l =>
      simp only [Res.bind_ok, lBefore]
      cases l.prev with
      | some p =>
        simp only
        cases modifyAt m.nodes p (fun n => { n with next := some i }) with
        | ub _ => rfl
        | diverge => rfl
        | ok n => exact inner ⟨m.buckets, n⟩
      | none =>
        simp only
        cases UMap.setBucket m.buckets l.bucket (some i) with
        | ub _ => rfl
        | diverge => rfl
        | ok n => exact inner ⟨n, m.nodes⟩
  · rw [if_neg hi, if_neg hi]

theorem fillHole_sim (hN : 0 < c.nodeSize) (hB : 0 < c.indexSize) {v : Nat} {h : HState K V} {ms : Lmaps K V}
    (r : Rel c h ms) {m : UMap K V} (hv : ms[v]? = some (some m)) (hne : m.nodes ≠ []) (i : Nat) :
    Sim (RelAt c ms v) (fillHole c h v i) (UMap.fillHole c.fixed m i) := by
  rw [fillHole_eq]
  unfold fillHole
  simp only [nodesSize_eq r hv, Res.bind_ok]
  by_cases hi : i ≠ m.nodes.length - 1
  · rw [if_pos hi, if_pos hi]
    refine (readNode_sim r hv _).bind ?_
    rintro l _ _ _ rfl
    refine (linkBefore_sim hN hB r hv l _).bind ?_
    intro h1 m1 _ e1 r1
    have hl1 := lBefore_length e1
    have hv1 := get_set_self (m' := m1) hv
    refine (readNode_sim r1 hv1 _).bind ?_
    rintro l1 _ _ _ rfl
    refine Sim.bind (R := fun h' l => RelAt c ms v h' ⟨m1.buckets, l⟩ ∧ l.length = m.nodes.length) ?_ ?_
    · unfold relinkNext lRelink
      cases c.fixed with
      | false => exact ⟨r1, hl1⟩
      | true =>
        refine (linkAfter_sim hN r1 hv1 l1 _).imp ?_
        intro h' l' _ e' r'
        exact ⟨RelAt.again r', by rw [lAfter_length e', hl1]⟩
    rintro h2 n2 _ _ ⟨r2, hl2⟩
    have hv2 := get_set_self (m' := (⟨m1.buckets, n2⟩ : UMap K V)) hv
    refine (exchange_sim hN r2 hv2 hi).bind ?_
    intro h' n4 _ e4 r4
    have hl4 : n4.length = m.nodes.length := by
      obtain ⟨_, _, e4⟩ := Res.bind_eq_ok.1 e4
      obtain ⟨_, _, e4⟩ := Res.bind_eq_ok.1 e4
      obtain ⟨n3, e3, e4⟩ := Res.bind_eq_ok.1 e4
      rw [writeAt_length e4, writeAt_length e3]
      exact hl2
    refine (popBack_sim hN (RelAt.again r4) (get_set_self hv) ?_).imp ?_
    · intro h0
      simp only at h0
      rw [h0] at hl4
      exact hne (List.length_eq_zero_iff.1 hl4.symm)
    · intro h5 m5 _ _ r5
      exact RelAt.again r5
  · rw [if_neg hi, if_neg hi]
    exact popBack_sim hN r hv hne

theorem erase_sim [DecidableEq K] (hN : 0 < c.nodeSize) (hB : 0 < c.indexSize) {v : Nat} {h : HState K V} {ms : Lmaps K V}
    (r : Rel c h ms) {m : UMap K V} (hv : ms[v]? = some (some m)) (k : K) :
    Sim (RelAt c ms v) (erase c h v k) (UMap.eraseWith c.hash c.fixed m k) := by
  unfold erase UMap.eraseWith
  refine (findIndex_sim r hv k).bind ?_
  rintro o _ _ _ rfl
  cases o with
  | none => exact rel_refl r hv
  | some i =>
    refine (unlink_sim hN hB r hv i).bind ?_
    intro h1 m1 _ e1 r1
    refine (fillHole_sim hN hB r1 (get_set_self hv) (unlink_nonempty e1) i).imp ?_
    intro h2 m2 _ _ r2
    exact RelAt.again r2

theorem clear_sim (hN : 0 < c.nodeSize) (hB : 0 < c.indexSize) {v : Nat} {h : HState K V} {ms : Lmaps K V}
    (r : Rel c h ms) {m : UMap K V} (hv : ms[v]? = some (some m)) :
    ∃ h', clear c h v = .ok h' ∧ RelAt c ms v h' (UMap.clear m) := by
  have h1 := onNodes_sim hN r hv (op := .clear v) (x := .ok []) trivial (by
    simp only [seqStep, seqOf_map hv, Option.map_some]
    exact ⟨_, rfl, rfl⟩)
  obtain ⟨h1, g1, g2⟩ := h1.ok_right
  obtain ⟨h2, k1, k2⟩ := resetBuckets_ok hB g2 (get_set_self hv)
  refine ⟨h2, by simp only [clear, g1, Res.bind_ok, k1], ?_⟩
  exact RelAt.again k2

theorem iterateFrom_eq {h : HState K V} {ms : Lmaps K V} (r : Rel c h ms) {v : Nat} {m : UMap K V}
    (hv : ms[v]? = some (some m)) (count i : Nat) (hi : i + count = m.nodes.length) :
    iterateFrom h v count i = .ok ((m.nodes.drop i).map UMap.entry) := by
  induction count generalizing i with
  | zero =>
    rw [List.drop_of_length_le (by omega)]
    rfl
  | succ count ih =>
    have hl : i < m.nodes.length := by omega
    have h1 := readNode_sim r hv i
    rw [show readAt m.nodes i = .ok m.nodes[i] by simp [readAt, hl]] at h1
    obtain ⟨_, g1, rfl⟩ := h1.ok_right
    simp only [iterateFrom, g1, Res.bind_ok, ih (i + 1) (by omega)]
    rw [List.drop_eq_getElem_cons hl]
    rfl

theorem iterate_eq {h : HState K V} {ms : Lmaps K V} (r : Rel c h ms) {v : Nat} {m : UMap K V}
    (hv : ms[v]? = some (some m)) : iterate h v = .ok m.entries := by
  simp only [iterate, nodesSize_eq r hv, Res.bind_ok, iterateFrom_eq r hv m.nodes.length 0 (by omega)]
  rfl

end HMap
end Coil
