import Verif.Proofs.MapRefs
import Verif.Proofs.VectorThrow
import Verif.Spec.HeapMapThrow

/-! # Maps when memory runs out -/

namespace Coil
namespace Vec
open Mem Spec

section
variable {α : Type}

/-- A result without an exception, with what is left of the fuse. -/
def fineWith (f : Fuse) (r : Res (Mem α × Buf)) : Res (Thrown α) := r.bind (fun p => .ok (p.1, p.2, some f))

theorem moveLoopT_false (moved spoilt : α → α) (k i : Nat) (m : Mem α) (buf new : Buf) (f : Fuse) :
    moveLoopT false moved spoilt k i m buf new f = fineWith f (moveLoop moved k i m buf new) := by
  induction k generalizing i m new with
  | zero => rfl
  | succ k ih =>
    simp only [moveLoopT, moveLoop, tickMove, fineWith]
    cases readElem m buf i with
    | ub u => rfl
    | diverge => rfl
    | ok x =>
      simp only [Res.bind_ok]
      cases constructNext m new x with
      | ub u => rfl
      | diverge => rfl
      | ok p =>
        simp only [Res.bind_ok]
        cases writeElem p.1 buf i (moved x) with
        | ub u => rfl
        | diverge => rfl
        | ok q =>
          simp only [Res.bind_ok]
          exact ih _ _ _

theorem growT_false (sz : Nat) (moved spoilt : α → α) (m : Mem α) (buf : Buf) (n : Nat) (f : Fuse) :
    (growT sz false moved spoilt m buf n f = .ok (m, buf, none) ∧ f = some 0) ∨
      ∃ f', growT sz false moved spoilt m buf n f = fineWith f' (grow sz moved m buf n) := by
  unfold growT grow
  rcases newBufT_cases sz m n f with ⟨h1, h2⟩ | ⟨f', h1, _⟩
  · rw [h1]
    exact .inl ⟨rfl, h2⟩
  · rw [h1]
    refine .inr ⟨f', ?_⟩
    simp only [moveLoopT_false, fineWith]
    cases moveLoop moved buf.size 0 (newBuf sz m n).1 buf (newBuf sz m n).2 with
    | ub u => rfl
    | diverge => rfl
    | ok p =>
      simp only [Res.bind_ok, rbind_ok]
      cases destructMany buf.size p.1 buf with
      | ub u => rfl
      | diverge => rfl
      | ok q =>
        simp only [Res.bind_ok, rbind_ok]
        cases freeBuf q.1 q.2 <;> rfl

theorem pushBackT_false (sz : Nat) (moved spoilt : α → α) (m : Mem α) (buf : Buf) (x : α) (f : Fuse) :
    (pushBackT sz false moved spoilt m buf x f = .ok (m, buf, none) ∧ f = some 0) ∨
      ∃ f', pushBackT sz false moved spoilt m buf x f = fineWith f' (pushBack sz moved m buf x) := by
  have key : ∀ f1, growForOneT sz false moved spoilt m buf f = fineWith f1 (growForOne sz moved m buf) →
      pushBackT sz false moved spoilt m buf x f = fineWith f1 (pushBack sz moved m buf x) := by
    intro f1 hg
    simp only [pushBackT, pushBack, hg, fineWith]
    cases growForOne sz moved m buf with
    | ub u => rfl
    | diverge => rfl
    | ok p =>
      simp only [Res.bind_ok, rbind_ok, tickMove]
      cases constructNext p.1 p.2 x <;> rfl
  by_cases hc : buf.size + 1 > buf.cap
  · rcases growT_false sz moved spoilt m buf (nextCapacity buf.size) f with ⟨h1, h2⟩ | ⟨f', h1⟩
    · refine .inl ⟨?_, h2⟩
      simp only [pushBackT, growForOneT, if_pos hc, h1, Res.bind_ok]
    · exact .inr ⟨f', key f' (by simp only [growForOneT, growForOne, if_pos hc, h1])⟩
  · exact .inr ⟨f, key f (by simp only [growForOneT, growForOne, if_neg hc]; rfl)⟩

theorem Inv.dropDead {sz : Nat} {s : State α} {e : Seqs α} {leak : Nat} (h : Inv sz s (e ++ [none]) leak) :
    Inv sz ⟨s.mem, s.vars.dropLast⟩ e leak := by
  have hl : s.vars.length = e.length + 1 := by simpa using h.len
  have hget : ∀ v : Nat, ∀ o, s.vars.dropLast[v]? = some o → s.vars[v]? = some o ∧ v < e.length := by
    intro v o hv
    rw [List.getElem?_dropLast] at hv
    split at hv
    · exact ⟨hv, by omega⟩
    · cases hv
  have hkeep : ∀ (v : Nat) (buf : Buf), s.vars[v]? = some (some buf) → s.vars.dropLast[v]? = some (some buf) := by
    intro v buf hv
    obtain ⟨l, h1, _⟩ := h.own v buf hv
    have hlt : v < e.length := by
      rcases Nat.lt_or_ge v e.length with hlt | hge
      · exact hlt
      · rw [List.getElem?_append_right hge] at h1
        cases hk : v - e.length with
        | zero => rw [hk] at h1; simp at h1
        | succ k => rw [hk] at h1; simp at h1
    rw [List.getElem?_dropLast, if_pos (by omega)]
    exact hv
  refine ⟨by simp [hl], ?_, ?_, ?_, ?_, ?_⟩
  · intro v buf hv
    obtain ⟨h1, h2⟩ := hget v _ hv
    obtain ⟨l, h3, h4⟩ := h.own v buf h1
    rw [List.getElem?_append_left h2] at h3
    exact ⟨l, h3, h4⟩
  · intro v hv
    obtain ⟨h1, h2⟩ := hget v _ hv
    have h3 := h.dead v h1
    rw [List.getElem?_append_left h2] at h3
    exact h3
  · intro v w bv bw b h1 h2
    exact h.dist v w bv bw b (hget v _ h1).1 (hget w _ h2).1
  · intro b c hb
    obtain ⟨v, buf, h1, h2⟩ := h.live b c hb
    exact ⟨v, buf, hkeep v buf h1, h2⟩
  · have := h.count
    have ht : total (e ++ [none]) = total e := by simp [total]
    rw [ht] at this
    exact this

end
end Vec

namespace HMap
open Spec Vec

variable {K V : Type} {c : Cfg K V}

theorem nodesT_push (h : HState K V) {v : Nat} {buf : Buf} (hb : getVar h.nodes.vars v = .ok buf) (x : UNode K V) (f : Fuse) :
    (nodesT c h (.pushBack v x) f = .ok (h, true) ∧ f = some 0) ∨
      nodesT c h (.pushBack v x) f = calmly (onNodes c h (.pushBack v x)) := by
  simp only [nodesT, calmly, onNodes, Vec.stepT, Vec.step, onVarT, onVar, hb, Res.bind_ok]
  rcases pushBackT_false c.nodeSize c.moved id h.nodes.mem buf x f with ⟨h1, h2⟩ | ⟨f', h1⟩
  · refine .inl ⟨?_, h2⟩
    rw [h1]
    simp only [Res.bind_ok, Option.isNone_none, HMap.set_same (getVar_some hb)]
  · refine .inr ?_
    rw [h1]
    simp only [fineWith]
    cases pushBack c.nodeSize c.moved h.nodes.mem buf x <;> rfl

theorem live_getVar {sz : Nat} {α : Type} {s : State α} {ms : Lmaps K V} {f : UMap K V → List α} (h : Inv sz s (ms.map (·.map f)))
    {v : Nat} {m : UMap K V} (hv : ms[v]? = some (some m)) : ∃ buf, getVar s.vars v = .ok buf := by
  obtain ⟨buf, h1, _⟩ := h.getVar (seqOf_map hv)
  exact ⟨buf, h1⟩

theorem growT_cases {h : HState K V} {ms : Lmaps K V} (r : Rel c h ms) {v : Nat} {m : UMap K V} (hv : ms[v]? = some (some m)) (fail : Bool) :
    (growIfNeededT c h v fail = .ok (h, true) ∧ fail = true) ∨ growIfNeededT c h v fail = calmly (growIfNeeded c h v) := by
  obtain ⟨buf, hb⟩ := live_getVar r.buckets hv
  simp only [growIfNeededT, growIfNeeded, nodesSize_eq r hv, bucketsSize_eq r hv, Res.bind_ok, calmly]
  split
  · simp only [rehashT, resizeAsks, hb, Res.bind_ok]
    split
    · rename_i hx
      simp only [Bool.and_eq_true] at hx
      exact .inl ⟨rfl, hx.1⟩
    · exact .inr rfl
  · exact .inr rfl

/-- `insertOrAssign` with failing allocations: it is as without failures, or it throws before the new node is there. -/
theorem put_cases [DecidableEq K] (hN : 0 < c.nodeSize) (hB : 0 < c.indexSize) {h : HState K V} {ms : Lmaps K V} (r : Rel c h ms)
    {v : Nat} {m : UMap K V} (hv : ms[v]? = some (some m)) (hn : m.nodes.length * 2 * c.indexSize < 2 ^ 64) (k : K) (x : V) (fail : Fail) :
    insertOrAssignT c h v k x fail = calmly (insertOrAssign c h v k x) ∨
      (findIndex c h v k = .ok none ∧ HMapFails fail ∧ ∃ h1, insertOrAssignT c h v k x fail = .ok (h1, true) ∧
        (h1 = h ∨ growIfNeeded c h v = .ok h1)) := by
  simp only [insertOrAssignT, insertOrAssign]
  cases hfi : findIndex c h v k with
  | ub u => exact .inl rfl
  | diverge => exact .inl rfl
  | ok o =>
    cases o with
    | some i => exact .inl rfl
    | none =>
      simp only [Res.bind_ok]
      rcases growT_cases r hv fail.buckets with ⟨g1, g2⟩ | g1
      · exact .inr ⟨trivial, .inl g2, h, by rw [g1]; rfl, .inl rfl⟩
      · rw [g1]
        cases hg : growIfNeeded c h v with
        | ub u => exact .inl rfl
        | diverge => exact .inl rfl
        | ok h1 =>
          simp only [calmly, Res.bind_ok, addT]
          have hs := growIfNeeded_sim hN hB r hv hn
          rw [hg] at hs
          obtain ⟨m1, e1, r1⟩ := hs.ok_left
          have hv1 := get_set_self (m' := m1) hv
          obtain ⟨buf, hb⟩ := live_getVar r1.nodes hv1
          simp only [nodesSize_eq r1 hv1, Res.bind_ok]
          rcases nodesT_push (c := c) h1 hb ⟨k, x, none, none, none⟩ fail.nodes with ⟨p1, p2⟩ | p1
          · exact .inr ⟨trivial, .inr (by rw [p2]; simp), h1, by rw [p1]; rfl, .inr rfl⟩
          · refine .inl ?_
            rw [p1]
            simp only [calmly]
            cases onNodes c h1 (.pushBack v ⟨k, x, none, none, none⟩) <;> rfl

/-- Making or replacing a node vector by copying. -/
theorem nodesT_copy (hN : 0 < c.nodeSize) {h : HState K V} {e : Seqs (UNode K V)} (hi : Inv c.nodeSize h.nodes e)
    {op : Op (UNode K V)} (hop : (∃ s, op = .copyNew s) ∨ ∃ d s, op = .copyAssign d s) {e' : Seqs (UNode K V)}
    (hs : seqStep c.spare e op = some e') (f : Fuse) :
    ∃ s t, nodesT c h op f = .ok ({ h with nodes := s }, t) ∧ (t = false → Inv c.nodeSize s e') ∧
      (t = true → Inv c.nodeSize s e ∧ f ≠ none) := by
  have hfit : Fits c.nodeSize e op := by
    rcases hop with ⟨s, rfl⟩ | ⟨d, s, rfl⟩ <;> trivial
  obtain ⟨s, t, h1, h2⟩ := Vec.stepT_spec hN (b := false) (moved := c.moved) (spoilt := id) (torn := fun _ x => x) (f := f) hi hfit
    (by rw [hs]; simp)
  refine ⟨s, t, by simp only [nodesT, h1, Res.bind_ok], ?_, ?_⟩
  · rintro rfl
    rcases h2 with ⟨_, e2, h3, h4⟩ | ⟨h0, _⟩
    · rw [hs] at h3
      cases h3
      exact h4
    · cases h0
  · rintro rfl
    rcases h2 with ⟨h0, _⟩ | ⟨_, n, hn, e2, lost, h3, h4⟩
    · cases h0
    · refine ⟨?_, by rw [hn]; simp⟩
      rcases hop with ⟨s, rfl⟩ | ⟨d, s, rfl⟩ <;> cases h3 <;> first | exact h4 | contradiction

/-- Growing does not change what a map holds. -/
theorem holds_grow [DecidableEq K] (hex : ∀ b, 0 < b → c.exceeds 1 b = false) {m m1 : UMap K V} {ph : Phase} {l : List (K × V)}
    (h : Holds c m (some (ph, l))) (hg : UMap.growIfNeeded c.hash c.exceeds m = .ok m1) : Holds c m1 (some (ph, l)) := by
  obtain ⟨a1, a2, a3⟩ := h
  unfold UMap.growIfNeeded at hg
  split at hg
  · rename_i hx
    have h0 : 0 < m.nodes.length := by
      rcases Nat.eq_zero_or_pos m.nodes.length with h0 | h0
      · rw [h0] at hx
        rw [hex _ a1.wf.nb] at hx
        cases hx
      · exact h0
    obtain ⟨m', g1, g2, g3, g4, g5⟩ := UMap.rehash_spec c.hash m (n := m.nodes.length * 2) (by omega)
    rw [g1] at hg
    cases hg
    have hc : UMap.Good c.hash .calm m1 := ⟨g2, fun _ => g3, by simp⟩
    exact ⟨⟨g2, fun _ => g3, fun _ => hc.tailLast (by simp)⟩, by rw [g4, a2], a3⟩
  · cases hg
    exact ⟨a1, a2, a3⟩

theorem holds_length {m : UMap K V} {x : Content K V} (h : Holds c m x) : m.nodes.length = x.entries.length := by
  cases x with
  | none => cases h; rfl
  | some p =>
    obtain ⟨_, h2, _⟩ := h
    rw [Content.entries, ← h2]
    simp [UMap.entries]

theorem lfits {ms : Lmaps K V} {e : Maps K V} (hh : Holding c ms e) {op : MapOp K V} (hf : StepFits c.nodeSize c.indexSize e op)
    (hm : ∀ v k x, op = .on v (.put k x) → contentOf e v ≠ none) : LFits c ms op := by
  cases op with
  | create n => exact hf
  | on v op =>
    cases op with
    | put k x =>
      intro m hv
      obtain ⟨y, hy⟩ := Option.ne_none_iff_exists'.1 (hm v k x rfl)
      obtain ⟨m', g1, _, _, g4⟩ := hh.live hy
      rw [hv] at g1
      cases g1
      have := hf y hy
      rw [← holds_length g4] at this
      exact this
    | _ => trivial
  | _ => trivial

theorem put_live [DecidableEq K] {e e1 : Maps K V} {v : Nat} {op : DictOp K V} (h : mapsStep e (.on v op) = some e1) :
    ∃ x, contentOf e v = some x := by
  simp only [mapsStep, Option.bind_eq_some_iff] at h
  obtain ⟨x, hx, _⟩ := h
  exact ⟨x, hx⟩

/-- A statement without exceptions. -/
theorem step_whole [DecidableEq K] (hN : 0 < c.nodeSize) (hB : 0 < c.indexSize) (hex : ∀ b, 0 < b → c.exceeds 1 b = false)
    {h : HState K V} {ms : Lmaps K V} {e e1 : Maps K V} (r : Rel c h ms) (hh : Holding c ms e) {op : MapOp K V}
    (hf : StepFits c.nodeSize c.indexSize e op) (hs : c.fixed = true ∨ MapSafe e op) (hm : mapsStep e op = some e1) :
    ∃ h1 ms1, step c h op = .ok h1 ∧ Rel c h1 ms1 ∧ Holding c ms1 e1 := by
  have hl := lfits hh hf (by
    rintro v k x rfl h0
    obtain ⟨y, hy⟩ := put_live hm
    rw [hy] at h0
    cases h0)
  have h1 := lstep_spec hex hh hs
  rw [hm] at h1
  obtain ⟨ms1, g1, g2⟩ := h1
  have h2 := step_prog_sim hN hB r hl
  rw [g1] at h2
  obtain ⟨h1, k1, k2⟩ := h2.ok_right
  exact ⟨h1, ms1, k1, k2, g2⟩

theorem calmly_ok {x : Res (HState K V)} {h1 : HState K V} (h : x = .ok h1) : calmly x = .ok (h1, false) := by
  rw [h]
  rfl

/-- A statement returns or throws, in accordance with the contents. -/
structure Went (c : Cfg K V) (e e1 : Maps K V) (op : MapOp K V) (fail : Fail) (h : HState K V) (t : Bool) : Prop where
  done : t = false → ∃ ms, Rel c h ms ∧ Holding c ms e1
  threw : t = true → needsMemory op = true ∧ HMapFails fail ∧ ∃ ms, Rel c h ms ∧ Holding c ms e

theorem put_went [DecidableEq K] (hN : 0 < c.nodeSize) (hB : 0 < c.indexSize) (hex : ∀ b, 0 < b → c.exceeds 1 b = false)
    {h : HState K V} {ms : Lmaps K V} {e e1 : Maps K V} (r : Rel c h ms) (hh : Holding c ms e) {v : Nat} {k : K} {x : V}
    (hf : StepFits c.nodeSize c.indexSize e (.on v (.put k x))) (hm : mapsStep e (.on v (.put k x)) = some e1) (fail : Fail) :
    ∃ h1 t, insertOrAssignT c h v k x fail = .ok (h1, t) ∧ Went c e e1 (.on v (.put k x)) fail h1 t ∧
      (t = true → shape h1.nodes = shape h.nodes) := by
  obtain ⟨y, hy⟩ := put_live hm
  obtain ⟨m, g1, g2, g3, g4⟩ := hh.live hy
  have hl := lfits hh hf (by rintro _ _ _ ⟨⟩; rw [hy]; simp)
  obtain ⟨f1, f2⟩ := hl m g1
  rcases put_cases hN hB r g1 f2 k x fail with hp | ⟨p1, p2, h1, p3, p4⟩
  · obtain ⟨h1, ms1, a1, a2, a3⟩ := step_whole hN hB hex r hh hf (.inr (by intro _ _ _; trivial)) hm
    exact ⟨h1, false, by rw [hp]; exact calmly_ok a1, ⟨fun _ => ⟨ms1, a2, a3⟩, by simp⟩, by simp⟩
  · refine ⟨h1, true, p3, ⟨by simp, fun _ => ⟨rfl, p2, ?_⟩⟩, ?_⟩
    · rcases p4 with rfl | p4
      · exact ⟨ms, r, hh⟩
      · have hs := growIfNeeded_sim hN hB r g1 f2
        rw [p4] at hs
        obtain ⟨m1, e1, r1⟩ := hs.ok_left
        refine ⟨_, r1, ?_⟩
        have hkeep : Holding c (ms.set v (some m1)) (e.set v (some y)) := hh.set v (o := some m1) (x := some y) (by
          cases y with
          | none =>
            cases g4
            have := findIndex_sim r g1 k
            rw [p1] at this
            obtain ⟨_, q, _⟩ := this.ok_left
            cases q
          | some p => exact holds_grow hex (ph := p.1) (l := p.2) g4 e1)
        rw [HMap.set_same g2] at hkeep
        exact hkeep
    · intro _
      rcases p4 with rfl | p4
      · rfl
      · exact growIfNeeded_keeps h v h1 p4

theorem copyAsks_ok {h : HState K V} {ms : Lmaps K V} (r : Rel c h ms) {v : Nat} {m : UMap K V} (hv : ms[v]? = some (some m)) :
    ∃ a, copyAsks c h v = .ok a := by
  obtain ⟨buf, hb⟩ := live_getVar r.buckets hv
  exact ⟨_, by simp only [copyAsks, hb, Res.bind_ok]; rfl⟩

theorem step_went [DecidableEq K] (hN : 0 < c.nodeSize) (hB : 0 < c.indexSize) (hex : ∀ b, 0 < b → c.exceeds 1 b = false)
    {h : HState K V} {ms : Lmaps K V} {e e1 : Maps K V} (r : Rel c h ms) (hh : Holding c ms e) {op : MapOp K V}
    (hf : StepFits c.nodeSize c.indexSize e op) (hs : c.fixed = true ∨ MapSafe e op) (hm : mapsStep e op = some e1) (fail : Fail)
    (ha : AssignsWhole op fail) :
    ∃ h1 t, stepT c h op fail = .ok (h1, t) ∧ Went c e e1 op fail h1 t := by
  have calm : ∀ (op : MapOp K V), StepFits c.nodeSize c.indexSize e op → (c.fixed = true ∨ MapSafe e op) → mapsStep e op = some e1 →
      ∃ h1, calmly (step c h op) = .ok (h1, false) ∧ Went c e e1 op fail h1 false := by
    intro op hf hs hm
    obtain ⟨h1, ms1, a1, a2, a3⟩ := step_whole hN hB hex r hh hf hs hm
    exact ⟨h1, calmly_ok a1, ⟨fun _ => ⟨ms1, a2, a3⟩, by simp⟩⟩
  have plain : ∀ (op : MapOp K V), StepFits c.nodeSize c.indexSize e op → (c.fixed = true ∨ MapSafe e op) → mapsStep e op = some e1 →
      stepT c h op fail = calmly (step c h op) → ∃ h1 t, stepT c h op fail = .ok (h1, t) ∧ Went c e e1 op fail h1 t := by
    intro op hf hs hm heq
    obtain ⟨h1, a1, a2⟩ := calm op hf hs hm
    exact ⟨h1, false, by rw [heq]; exact a1, a2⟩
  cases op with
  | create n =>
    simp only [stepT, createT]
    split
    · rename_i hx
      simp only [Bool.and_eq_true] at hx
      exact ⟨h, true, rfl, ⟨by simp, fun _ => ⟨rfl, .inl hx.1, ms, r, hh⟩⟩⟩
    · obtain ⟨h1, a1, a2⟩ := calm _ hf hs hm
      exact ⟨h1, false, a1, a2⟩
  | copyNew src =>
    have hm' := hm
    simp only [mapsStep, Option.map_eq_some_iff] at hm
    obtain ⟨x, hx, rfl⟩ := hm
    obtain ⟨m, g1, g2, g3, g4⟩ := hh.live hx
    obtain ⟨a, ha⟩ := copyAsks_ok r g1
    simp only [stepT, copyNewT, ha, Res.bind_ok]
    split
    · rename_i hx
      simp only [Bool.and_eq_true] at hx
      exact ⟨h, true, rfl, ⟨by simp, fun _ => ⟨rfl, .inl hx.1, ms, r, hh⟩⟩⟩
    · obtain ⟨sB, k1, k2⟩ := Vec.step_spec hB (moved := id) (dflt := some 0) (op := .copyNew src) r.buckets trivial
        (e' := (ms ++ [some m]).map (·.map UMap.buckets)) (by simp [seqStep, seqOf_map g1])
      have hob : onBuckets c h (.copyNew src) = .ok { h with buckets := sB } := by simp only [onBuckets, k1, Res.bind_ok]
      obtain ⟨sN, t, n1, n2, n3⟩ := nodesT_copy hN (h := { h with buckets := sB }) (op := .copyNew src) r.nodes (.inl ⟨src, rfl⟩)
        (e' := (ms ++ [some m]).map (·.map UMap.nodes)) (by simp [seqStep, seqOf_map g1]) fail.nodes
      simp only [hob, Res.bind_ok, n1, unwindCopy]
      cases t with
      | false => exact ⟨_, false, rfl, ⟨fun _ => ⟨ms ++ [some m], ⟨n2 rfl, k2⟩, hh.push g4⟩, by simp⟩⟩
      | true =>
        have hv : h.buckets.vars.length = ms.length := by rw [r.buckets.len, map_len]
        obtain ⟨sD, d1, d2⟩ := Vec.step_spec hB (moved := id) (dflt := some 0) (op := .destroy ms.length) k2 trivial
          (e' := ms.map (·.map UMap.buckets) ++ [none]) (by simp [seqStep, seqOf, List.map_append])
        refine ⟨⟨sN, ⟨sD.mem, sD.vars.dropLast⟩⟩, true, ?_, ⟨by simp, fun _ => ⟨rfl, .inr (n3 rfl).2, ms, ⟨(n3 rfl).1, d2.dropDead⟩, hh⟩⟩⟩
        simp only [onBuckets, hv, d1, Res.bind_ok]
  | copyAssign dst src =>
    have hnone := ha dst src rfl
    have hm' := hm
    simp only [mapsStep, Option.bind_eq_some_iff, Option.map_eq_some_iff] at hm
    obtain ⟨x, hx, y, hy, rfl⟩ := hm
    obtain ⟨m, g1, g2, g3, g4⟩ := hh.live hx
    obtain ⟨m2, j1, j2, j3, j4⟩ := hh.live hy
    obtain ⟨a, ha⟩ := copyAsks_ok r g1
    simp only [stepT, copyAssignT, ha, Res.bind_ok]
    split
    · rename_i hx
      simp only [Bool.and_eq_true] at hx
      exact ⟨h, true, rfl, ⟨by simp, fun _ => ⟨rfl, .inl hx.1, ms, r, hh⟩⟩⟩
    · obtain ⟨sB, k1, k2⟩ := Vec.step_spec hB (moved := id) (dflt := some 0) (op := .copyAssign dst src) r.buckets trivial
        (e' := (ms.set dst (some m)).map (·.map UMap.buckets)) (by simp [seqStep, seqOf_map g1, seqOf_map j1, List.map_set])
      have hob : onBuckets c h (.copyAssign dst src) = .ok { h with buckets := sB } := by simp only [onBuckets, k1, Res.bind_ok]
      obtain ⟨sN, t, n1, n2, n3⟩ := nodesT_copy hN (h := { h with buckets := sB }) (op := .copyAssign dst src) r.nodes (.inr ⟨dst, src, rfl⟩)
        (e' := (ms.set dst (some m)).map (·.map UMap.nodes)) (by simp [seqStep, seqOf_map g1, seqOf_map j1, List.map_set]) fail.nodes
      simp only [hob, Res.bind_ok, n1]
      cases t with
      | false => exact ⟨_, false, rfl, ⟨fun _ => ⟨ms.set dst (some m), ⟨n2 rfl, k2⟩, hh.set dst (o := some m) (x := some x) g4⟩, by simp⟩⟩
      | true => exact absurd hnone (n3 rfl).2
  | moveNew src => exact plain _ hf hs hm rfl
  | moveAssign dst src => exact plain _ hf hs hm rfl
  | destroy v => exact plain _ hf hs hm rfl
  | on v op =>
    cases op with
    | put k x =>
      obtain ⟨h1, t, a1, a2, _⟩ := put_went hN hB hex r hh hf hm fail
      exact ⟨h1, t, a1, a2⟩
    | erase k => exact plain _ hf hs hm rfl
    | clear => exact plain _ hf hs hm rfl

theorem run_went [DecidableEq K] (hN : 0 < c.nodeSize) (hB : 0 < c.indexSize) (hex : ∀ b, 0 < b → c.exceeds 1 b = false)
    {p : TryMaps K V} {h : HState K V} {ms : Lmaps K V} {e : Maps K V} (r : Rel c h ms) (hh : Holding c ms e)
    (hl : LegalMaps c.nodeSize c.indexSize c.fixed e p) :
    ∃ h1 ms1 e1, runT c h p = .ok h1 ∧ MapCourse e p e1 ∧ Rel c h1 ms1 ∧ Holding c ms1 e1 := by
  induction p generalizing h ms e with
  | stop => exact ⟨h, ms, e, rfl, .stop, r, hh⟩
  | stmt op fail next ih =>
    obtain ⟨l1, l2, l3, l4, l5, l6⟩ := hl
    obtain ⟨e1, he1⟩ := Option.ne_none_iff_exists'.1 l4
    obtain ⟨h1, t, a1, a2⟩ := step_went hN hB hex r hh l1 l2 he1 fail l3
    cases t with
    | false =>
      obtain ⟨ms1, r1, hh1⟩ := a2.done rfl
      obtain ⟨h2, ms2, e2, b1, b2, b3, b4⟩ := ih false r1 hh1 (l5 e1 he1)
      exact ⟨h2, ms2, e2, by simp only [runT, a1, Res.bind_ok, b1], .done he1 b2, b3, b4⟩
    | true =>
      obtain ⟨c1, c2, ms1, r1, hh1⟩ := a2.threw rfl
      obtain ⟨h2, ms2, e2, b1, b2, b3, b4⟩ := ih true r1 hh1 (l6 c1 c2)
      exact ⟨h2, ms2, e2, by simp only [runT, a1, Res.bind_ok, b1], .threw c1 c2 b2, b3, b4⟩

end HMap
end Coil
