import Verif.Spec.Names
import Verif.Proofs.Functor

/-! # Names of commands: invariant -/

namespace Coil
namespace Names
open Spec
open Fun (alive alive_snoc alive_set alive_lt alive_get countP_setv countP_snoc countP_pos f2_get f2_set f2_snoc f2_imp)

/-- The node's key is text block `b`. -/
def owns (b : Nat) (n : Node) : Bool := decide (n.key = some b)

/-- A node represents a row. -/
def NRel (texts : List (Bytes × Bool)) (n : Node) (r : Row) : Prop :=
  ∃ b a, n.key = some b ∧ texts[b]? = some (r.1, a) ∧ n.name = some (b, r.1.length) ∧ n.cmd = r.2

structure Inv (s : State) (l : List Row) (adds : Nat) : Prop where
  rel : Forall2 (NRel s.texts) s.nodes l
  own : ∀ b, s.nodes.countP (owns b) = (alive s.texts b).toNat
  adds : s.adds = adds

theorem Inv.init : Inv State.init [] 0 := ⟨.nil, fun b => by simp [State.init, alive], rfl⟩

theorem NRel.texts {texts texts' : List (Bytes × Bool)}
    (h : ∀ (b : Nat) t a, texts[b]? = some (t, a) → ∃ a', texts'[b]? = some (t, a')) (n : Node) (r : Row) (hn : NRel texts n r) :
    NRel texts' n r := by
  obtain ⟨b, a, h1, h2, h3⟩ := hn
  obtain ⟨a', h4⟩ := h b _ a h2
  exact ⟨b, a', h1, h4, h3⟩

theorem snoc_keeps (texts : List (Bytes × Bool)) (t : Bytes) :
    ∀ (b : Nat) t' a, texts[b]? = some (t', a) → ∃ a', (texts ++ [(t, true)])[b]? = some (t', a') := by
  intro b t' a h
  exact ⟨a, by rw [List.getElem?_append_left (List.getElem?_eq_some_iff.1 h).1]; exact h⟩

theorem set_keeps {texts : List (Bytes × Bool)} {i : Nat} {t : Bytes} {a0 : Bool} (ht : texts[i]? = some (t, a0)) :
    ∀ (b : Nat) t' a, texts[b]? = some (t', a) → ∃ a', (texts.set i (t, false))[b]? = some (t', a') := by
  intro b t' a h
  by_cases hb : b = i
  · subst hb
    rw [ht] at h
    simp at h
    exact ⟨false, by simp [(List.getElem?_eq_some_iff.1 ht).1, h.1]⟩
  · exact ⟨a, by rw [List.getElem?_set_ne (by omega)]; exact h⟩

theorem Inv.aliveKey {s : State} {l : List Row} {adds : Nat} (h : Inv s l adds) {n : Node} {j b : Nat} (hn : s.nodes[j]? = some n)
    (hk : n.key = some b) : alive s.texts b = true := by
  have h1 := h.own b
  cases ha : alive s.texts b
  · rw [ha] at h1
    simp at h1
    have := h1 n (List.mem_of_getElem? hn)
    simp [owns, hk] at this
  · rfl

theorem free_spec {texts : List (Bytes × Bool)} {b : Nat} (h : alive texts b = true) :
    ∃ t, texts[b]? = some (t, true) ∧ freeKey texts (some b) = .ok (texts.set b (t, false)) := by
  obtain ⟨t, ht⟩ := alive_get h
  exact ⟨t, ht, by simp [freeKey, ht]⟩

theorem destroyAll_moved (texts : List (Bytes × Bool)) (ns : List Node) :
    destroyAll texts (ns.map (fun n => n.moveOut.2)) = .ok texts := by
  induction ns with
  | nil => rfl
  | cons n ns ih => simp only [List.map_cons, destroyAll, ih, Res.bind_ok]; rfl

theorem destroyAll_spec {texts : List (Bytes × Bool)} {ns : List Node} (h : ∀ b, ns.countP (owns b) ≤ (alive texts b).toNat) :
    ∃ texts', destroyAll texts ns = .ok texts' ∧ ∀ b, (alive texts' b).toNat + ns.countP (owns b) = (alive texts b).toNat := by
  induction ns with
  | nil => exact ⟨texts, rfl, fun b => by simp⟩
  | cons n ns ih =>
    have h' : ∀ b, ns.countP (owns b) ≤ (alive texts b).toNat := by
      intro b
      have := h b
      rw [List.countP_cons] at this
      omega
    obtain ⟨t1, h1, h2⟩ := ih h'
    cases hk : n.key with
    | none =>
      refine ⟨t1, by simp [destroyAll, h1, hk, freeKey], fun b => ?_⟩
      have := h2 b
      have h3 : owns b n = false := by simp [owns, hk]
      rw [List.countP_cons, h3]
      simpa using this
    | some c =>
      have ha : alive t1 c = true := by
        have h3 := h c
        have h4 := h2 c
        have h5 : owns c n = true := by simp [owns, hk]
        rw [List.countP_cons, h5] at h3
        cases hb : alive t1 c
        · rw [hb] at h4
          have h6 : (alive texts c).toNat ≤ 1 := by cases alive texts c <;> simp
          simp at h3 h4
          omega
        · rfl
      obtain ⟨t, ht, hf⟩ := free_spec ha
      refine ⟨t1.set c (t, false), by simp [destroyAll, h1, hk, hf], fun b => ?_⟩
      have h3 := h2 b
      rw [alive_set (alive_lt ha), List.countP_cons]
      by_cases hb : b = c
      · subst hb
        have h5 : owns b n = true := by simp [owns, hk]
        rw [ha] at h3
        simp only [h5, if_true, ne_eq, not_true_eq_false, decide_false, Bool.and_false, Bool.toNat_false, Bool.toNat_true] at h3 ⊢
        omega
      · have h5 : owns b n = false := by simp [owns, hk]; omega
        simp only [h5, ne_eq, hb, not_false_eq_true, decide_true, Bool.and_true, Bool.false_eq_true, if_false, Nat.add_zero]
        exact h3

theorem grow_spec (s : State) : ∃ b c, growForPush s = .ok { s with block := b, cap := c } := by
  unfold growForPush
  split
  · refine ⟨s.block + 1, (if s.nodes.length + 1 > s.nodes.length * 3 / 2 then s.nodes.length + 1 else s.nodes.length * 3 / 2), ?_⟩
    simp only [grow, destroyAll_moved, Res.bind_ok]
    congr 1
    simp [Node.moveOut]
  · exact ⟨s.block, s.cap, rfl⟩

theorem f2_dropLast {α β : Type} {R : α → β → Prop} {l : List α} {l' : List β} (h : Forall2 R l l') : Forall2 R l.dropLast l'.dropLast := by
  induction h with
  | nil => exact .nil
  | cons h1 h2 ih =>
    cases h2 with
    | nil => exact .nil
    | cons h3 h4 => exact .cons h1 ih

theorem f2_len {α β : Type} {R : α → β → Prop} {l : List α} {l' : List β} (h : Forall2 R l l') : l.length = l'.length := by
  induction h with
  | nil => rfl
  | cons _ _ ih => simp [ih]

theorem dropLast_snoc {α : Type} {l : List α} {x : α} (h : l[l.length - 1]? = some x) : l.dropLast ++ [x] = l := by
  have hne : l ≠ [] := by intro h0; subst h0; simp at h
  have h1 := List.dropLast_concat_getLast hne
  have h2 : l.getLast hne = x := by
    rw [List.getLast_eq_getElem]
    exact (List.getElem?_eq_some_iff.1 h).2
  rw [h2] at h1
  exact h1

theorem swap_count {α : Type} (p : α → Bool) {l : List α} {i : Nat} {n x : α} (hn : l[i]? = some n) (hx : l[l.length - 1]? = some x) :
    ((if i ≠ l.length - 1 then (l.set i x).set (l.length - 1) n else l).dropLast).countP p + (p n).toNat = l.countP p := by
  split
  · rename_i hi
    have h1 := countP_setv p hn x
    have h2 : (l.set i x)[l.length - 1]? = some x := by rw [List.getElem?_set_ne hi]; exact hx
    have h3 := countP_setv p h2 n
    have hlt := (List.getElem?_eq_some_iff.1 hx).1
    have h4 : ((l.set i x).set (l.length - 1) n)[((l.set i x).set (l.length - 1) n).length - 1]? = some n := by
      simp [hlt]
    have h5 := dropLast_snoc h4
    have h6 := countP_snoc p ((l.set i x).set (l.length - 1) n).dropLast n
    rw [h5] at h6
    omega
  · rename_i hi
    have hi' : i = l.length - 1 := by omega
    have h5 := dropLast_snoc (hi' ▸ hn)
    have h6 := countP_snoc p l.dropLast n
    rw [h5] at h6
    omega

theorem swap_dropLast {α : Type} {l : List α} {i : Nat} {n x : α} (hx : l[l.length - 1]? = some x) :
    (if i ≠ l.length - 1 then (l.set i x).set (l.length - 1) n else l).dropLast = (l.set i x).dropLast := by
  split
  · rename_i hi
    apply List.ext_getElem?
    intro j
    simp only [List.getElem?_dropLast, List.length_set]
    split
    · rw [List.getElem?_set_ne (by omega)]
    · rfl
  · rename_i hi
    have hi' : i = l.length - 1 := by omega
    congr 1
    apply List.ext_getElem?
    intro j
    by_cases hj : j = i
    · subst hj
      have := (List.getElem?_eq_some_iff.1 hx).1
      rw [hi', hx]
      simp [this]
    · rw [List.getElem?_set_ne (by omega)]

theorem step_spec {s : State} {l l' : List Row} {adds : Nat} (h : Inv s l adds) {op : Op} (hs : rows adds l op = some l') :
    ∃ s', step s op = .ok s' ∧ Inv s' l' (adds + isAdd op) := by
  cases op with
  | add name found =>
    cases found with
    | none =>
      simp only [rows, Option.some.injEq] at hs
      subst hs
      obtain ⟨bk, cp, hg⟩ := grow_spec { s with texts := s.texts ++ [(name, true)] }
      have hv : viewOf (s.texts ++ [(name, true)]) (some s.texts.length) = .ok (s.texts.length, name.length) := by
        simp [viewOf]
      simp only [step, alloc, hg, Res.bind_ok, hv]
      refine ⟨_, rfl, ?_, ?_, by simp [h.adds, isAdd]⟩
      · refine f2_snoc (f2_imp h.rel (NRel.texts (snoc_keeps _ _))) ?_
        exact ⟨s.texts.length, true, rfl, by simp, rfl, h.adds⟩
      · intro b
        have h1 := h.own b
        simp only
        rw [countP_snoc, alive_snoc]
        by_cases hb : b = s.texts.length
        · have h2 : alive s.texts b = false := by
            cases ha : alive s.texts b
            · rfl
            · exact absurd (alive_lt ha) (by omega)
          rw [h2] at h1
          have h3 : owns b ⟨some s.texts.length, some (s.texts.length, name.length), s.adds⟩ = true := by simp [owns, hb]
          have h4 : decide (b = s.texts.length) = true := by simp [hb]
          rw [h3, h4]
          simp only [Bool.toNat_true, Bool.or_true, Bool.toNat_false] at h1 ⊢
          omega
        · have h3 : owns b ⟨some s.texts.length, some (s.texts.length, name.length), s.adds⟩ = false := by simp [owns]; omega
          have h4 : decide (b = s.texts.length) = false := by simp [hb]
          rw [h3, h4, Bool.or_false]
          simpa using h1
    | some i =>
      simp only [rows, Option.map_eq_some_iff] at hs
      obtain ⟨r, hr, rfl⟩ := hs
      obtain ⟨n, hn, b, a, hk, ht, hname, hcmd⟩ := f2_get h.rel hr
      have hal := h.aliveKey hn hk
      have hlt := alive_lt hal
      have ha : a = true := by
        obtain ⟨x, hx⟩ := alive_get hal
        rw [ht] at hx
        simp at hx
        exact hx.2
      subst ha
      have hrd : readAt s.nodes i = .ok n := by simp [readAt, hn]
      have hf : freeKey (s.texts ++ [(name, true)]) (some s.texts.length) = .ok (s.texts ++ [(name, false)]) := by
        simp [freeKey]
      have hv : viewOf (s.texts ++ [(name, false)]) (some b) = .ok (b, r.1.length) := by
        simp only [viewOf]
        rw [List.getElem?_append_left hlt, ht]
      simp only [step, alloc, hrd, Res.bind_ok, hf, hk, hv]
      have keep : ∀ (b : Nat) t' a, s.texts[b]? = some (t', a) → ∃ a', (s.texts ++ [(name, false)])[b]? = some (t', a') := by
        intro b t' a h
        exact ⟨a, by rw [List.getElem?_append_left (List.getElem?_eq_some_iff.1 h).1]; exact h⟩
      refine ⟨_, rfl, ?_, ?_, by simp [h.adds, isAdd]⟩
      · refine f2_set (f2_imp h.rel (NRel.texts keep)) i ?_
        exact ⟨b, true, rfl, by simp only; rw [List.getElem?_append_left hlt, ht], rfl, h.adds⟩
      · intro c
        have h1 := h.own c
        have h2 := countP_setv (owns c) hn ⟨some b, some (b, r.1.length), s.adds⟩
        have h3 : owns c ⟨some b, some (b, r.1.length), s.adds⟩ = owns c n := by simp [owns, hk]
        rw [h3] at h2
        have h4 : alive (s.texts ++ [(name, false)]) c = alive s.texts c := by
          unfold alive
          rcases Nat.lt_trichotomy c s.texts.length with h5 | h5 | h5
          · rw [List.getElem?_append_left h5]
          · subst h5; simp
          · have h6 : s.texts[c]? = none := by simp; omega
            have h7 : (s.texts ++ [(name, false)])[c]? = none := by simp; omega
            rw [h6, h7]
        simp only [h4]
        omega
  | remove found =>
    cases found with
    | none =>
      simp only [rows, Option.some.injEq] at hs
      subst hs
      exact ⟨s, rfl, h.rel, h.own, by simp [h.adds, isAdd]⟩
    | some i =>
      simp only [rows] at hs
      split at hs
      · rename_i hi
        cases hs
        have hlen := f2_len h.rel
        obtain ⟨n, hn, b, a, hk, ht, hname, hcmd⟩ := f2_get h.rel (List.getElem?_eq_getElem hi)
        obtain ⟨x, hx, hxr⟩ := f2_get h.rel (v := l.length - 1) (List.getElem?_eq_getElem (by omega))
        have hal := h.aliveKey hn hk
        obtain ⟨t, ht', hf⟩ := free_spec hal
        have hx' : s.nodes[s.nodes.length - 1]? = some x := by rw [hlen]; exact hx
        have hrd : readAt s.nodes i = .ok n := by simp [readAt, hn]
        have hrx : readAt s.nodes (s.nodes.length - 1) = .ok x := by simp only [readAt, hx']
        simp only [step, hrd, hrx, Res.bind_ok, hk, hf]
        refine ⟨_, rfl, ?_, ?_, by simp [h.adds, isAdd]⟩
        · simp only
          rw [swap_dropLast hx']
          have : swapRemove l i = (l.set i l[l.length - 1]).dropLast := by
            have hne : l ≠ [] := by intro h0; subst h0; simp at hi
            simp [swapRemove, List.getLast?_eq_getElem?, List.getElem?_eq_getElem (show l.length - 1 < l.length by omega)]
          rw [this]
          exact f2_dropLast (f2_set (f2_imp h.rel (NRel.texts (set_keeps ht'))) i (NRel.texts (set_keeps ht') _ _ hxr))
        · intro c
          have h1 := h.own c
          have h2 := swap_count (owns c) hn hx'
          simp only
          rw [alive_set (alive_lt hal)]
          by_cases hc : c = b
          · subst hc
            have h3 : owns c n = true := by simp [owns, hk]
            rw [h3] at h2
            rw [hal] at h1
            simp only [ne_eq, not_true_eq_false, decide_false, Bool.and_false, Bool.toNat_false, Bool.toNat_true] at h1 h2 ⊢
            omega
          · have h3 : owns c n = false := by simp [owns, hk]; omega
            rw [h3] at h2
            simp only [ne_eq, hc, not_false_eq_true, decide_true, Bool.and_true, Bool.toNat_false] at h1 h2 ⊢
            omega
      · simp at hs
  | clear =>
    simp only [rows, Option.some.injEq] at hs
    subst hs
    obtain ⟨t', h1, h2⟩ := destroyAll_spec (texts := s.texts) (ns := s.nodes) (fun b => Nat.le_of_eq (h.own b))
    simp only [step, h1, Res.bind_ok]
    refine ⟨_, rfl, .nil, fun b => ?_, by simp [h.adds, isAdd]⟩
    have h3 := h2 b
    rw [h.own b] at h3
    simp only [List.countP_nil]
    omega

theorem run_spec {s : State} {l l' : List Row} {adds : Nat} (h : Inv s l adds) {ops : List Op} (hs : rowsRun adds l ops = some l') :
    ∃ s' adds', run s ops = .ok s' ∧ Inv s' l' adds' := by
  induction ops generalizing s l adds with
  | nil => simp only [rowsRun, Option.some.injEq] at hs; subst hs; exact ⟨s, adds, rfl, h⟩
  | cons op ops ih =>
    simp only [rowsRun, Option.bind_eq_some_iff] at hs
    obtain ⟨l1, h1, h2⟩ := hs
    obtain ⟨s1, h3, h4⟩ := step_spec h h1
    obtain ⟨s', a', h5, h6⟩ := ih h4 h2
    exact ⟨s', a', by simp [run, h3, h5], h6⟩

end Names
end Coil
