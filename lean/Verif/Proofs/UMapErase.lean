import Verif.Proofs.UMapInsert

/-! # `erase` -/

namespace Coil
namespace UMap

variable {K V : Type}

/-! ## Unlinking -/

/-- A link after node `i` with links `e` has been taken out. -/
def skip (i : Nat) (o : Option Nat) (x : Option Nat) : Option Nat := if x = some i then o else x

/-- A node after node `i` has been taken out. -/
def skipNode (i : Nat) (e nd : UNode K V) : UNode K V :=
  { nd with next := skip i e.next nd.next, prev := skip i e.prev nd.prev }

theorem rank_facts {hash : K → Nat} {m : UMap K V} {S : Nat → Prop} (w : WFs hash S m) {i : Nat} {e : UNode K V}
    (hSi : S i) (he : m.nodes[i]? = some e) :
    (∀ p, e.prev = some p → p ≠ i ∧ e.next ≠ some p) ∧ (∀ q, e.next = some q → q ≠ i) := by
  obtain ⟨r, hr⟩ := w.rank
  constructor
  · intro p hp
    obtain ⟨h1, h2⟩ := w.prev i p e hSi he hp
    obtain ⟨np, hnp⟩ := w.get h1
    have h3 := hr p i np h1 hnp (h2 np hnp)
    refine ⟨fun h => ?_, fun h => ?_⟩
    · subst h; omega
    · have := hr i p e hSi he h
      omega
  · intro q hq h
    subst h
    have := hr q q e hSi he hq
    omega

theorem unlink_spec {hash : K → Nat} {m : UMap K V} (w : WF hash m) {i : Nat} {e : UNode K V}
    (he : m.nodes[i]? = some e) :
    ∃ m1, unlink m i = .ok m1 ∧ m1.nodes.length = m.nodes.length ∧ m1.buckets.length = m.buckets.length ∧
      (∀ j, m1.nodes[j]? = if j = i then some { e with prev := none, next := none }
        else (m.nodes[j]?).map (skipNode i e)) ∧
      (∀ b : Nat, m1.buckets[b]? = (m.buckets[b]?).map (skip i e.next)) := by
  have hi : i < m.nodes.length := (List.getElem?_eq_some_iff.1 he).1
  have hS : ∀ {j : Nat} {nd : UNode K V}, m.nodes[j]? = some nd → j < m.nodes.length := fun h =>
    (List.getElem?_eq_some_iff.1 h).1
  obtain ⟨f1, f2⟩ := rank_facts w hi he
  -- other nodes
  have key : ∀ j nd, j ≠ i → m.nodes[j]? = some nd →
      (nd.next = some i → e.prev = some j) ∧ (nd.prev = some i → e.next = some j) := by
    intro j nd _ hn
    exact ⟨fun h => ((w.next j i nd (hS hn) hn h).2 e he).1, fun h => (w.prev j i nd (hS hn) hn h).2 e he⟩
  have hbk : ∀ b : Nat, m.buckets[b]? = some (some i) → e.prev = none ∧ hash e.key % m.buckets.length = b :=
    fun b hb => (w.head b i hb).2 e he
  unfold unlink
  simp only [readAt_ok he, Res.bind_ok]
  cases hp : e.prev with
  | some p =>
    obtain ⟨g1, g2⟩ := w.prev i p e hi he hp
    obtain ⟨np, hnp⟩ := w.get g1
    have hnpx := g2 np hnp
    obtain ⟨hpi, hpn⟩ := f1 p hp
    have hpp : np.prev ≠ some i := fun h => hpn ((key p np hpi hnp).2 h)
    simp only [modifyAt_ok hnp, Res.bind_ok]
    have e1 : (m.nodes.set p { np with next := e.next })[i]? = some e := by
      rw [get_set hnp, if_neg (Ne.symm hpi), he]
    simp only [readAt_ok e1, Res.bind_ok]
    have hbs : ∀ b : Nat, m.buckets[b]? = (m.buckets[b]?).map (skip i e.next) := by
      intro b
      cases hb : m.buckets[b]? with
      | none => rfl
      | some o =>
        by_cases ho : o = some i
        · subst ho
          have := (hbk b hb).1
          rw [hp] at this
          simp at this
        · simp [skip, ho]
    cases hq : e.next with
    | some q =>
      obtain ⟨k1, k2⟩ := w.next i q e hi he hq
      obtain ⟨nq, hnq⟩ := w.get k1
      have hqp := (k2 nq hnq).1
      have hqi := f2 q hq
      have hpq : p ≠ q := by
        rintro rfl
        exact hpn hq
      have hqn : nq.next ≠ some i := by
        intro h
        have := (key q nq hqi hnq).1 h
        rw [hp] at this
        simp at this
        exact hpq this
      rw [hq] at e1
      have e2 : (m.nodes.set p { np with next := some q })[q]? = some nq := by
        rw [get_set hnp, if_neg (Ne.symm hpq), hnq]
      simp only [modifyAt_ok e2, Res.bind_ok]
      have e3 : ((m.nodes.set p { np with next := some q }).set q { nq with prev := some p })[i]? = some e := by
        rw [get_set e2, if_neg (Ne.symm hqi), e1]
      simp only [hp, modifyAt_ok e3, Res.bind_ok]
      refine ⟨_, rfl, by simp, rfl, ?_, by rw [← hq]; exact hbs⟩
      intro j
      rw [get_set e3]
      by_cases hji : j = i
      · simp [hji]
      · simp only [hji, if_false]
        rw [get_set e2]
        by_cases hjq : j = q
        · subst hjq
          simp [hnq, skipNode, skip, hqp, hqn, hp]
        · simp only [hjq, if_false]
          rw [get_set hnp]
          by_cases hjp : j = p
          · subst hjp
            simp [hnp, skipNode, skip, hnpx, hpp, hq]
          · simp only [hjp, if_false]
            cases hn : m.nodes[j]? with
            | none => rfl
            | some nd =>
              obtain ⟨x1, x2⟩ := key j nd hji hn
              have y1 : nd.next ≠ some i := by
                intro h
                have := x1 h
                rw [hp] at this
                simp at this
                exact hjp this.symm
              have y2 : nd.prev ≠ some i := by
                intro h
                have := x2 h
                rw [hq] at this
                simp at this
                exact hjq this.symm
              simp [skipNode, skip, y1, y2]
    | none =>
      rw [hq] at e1
      simp only [Res.bind_ok, modifyAt_ok e1]
      refine ⟨_, rfl, by simp, rfl, ?_, by rw [← hq]; exact hbs⟩
      intro j
      rw [get_set e1]
      by_cases hji : j = i
      · simp [hji]
      · simp only [hji, if_false]
        rw [get_set hnp]
        by_cases hjp : j = p
        · subst hjp
          simp [hnp, skipNode, skip, hnpx, hpp, hq]
        · simp only [hjp, if_false]
          cases hn : m.nodes[j]? with
          | none => rfl
          | some nd =>
            obtain ⟨x1, x2⟩ := key j nd hji hn
            have y1 : nd.next ≠ some i := by
              intro h
              have := x1 h
              rw [hp] at this
              simp at this
              exact hjp this.symm
            have y2 : nd.prev ≠ some i := by
              intro h
              have := x2 h
              rw [hq] at this
              simp at this
            simp [skipNode, skip, y1, y2]
  | none =>
    have hb := w.first i e hi he hp
    have hbe := w.bucket i e hi he
    have hlt : hash e.key % m.buckets.length < m.buckets.length := Nat.mod_lt _ w.nb
    simp only [hbe, setBucket, writeAt, hlt, if_true, Res.bind_ok]
    have hbs : ∀ b : Nat, (m.buckets.set (hash e.key % m.buckets.length) e.next)[b]? =
        (m.buckets[b]?).map (skip i e.next) := by
      intro b
      rw [get_set hb]
      by_cases hbb : b = hash e.key % m.buckets.length
      · subst hbb
        simp [hb, skip]
      · simp only [hbb, if_false]
        cases hb' : m.buckets[b]? with
        | none => rfl
        | some o =>
          by_cases ho : o = some i
          · subst ho
            exact absurd (hbk b hb').2.symm hbb
          · simp [skip, ho]
    cases hq : e.next with
    | some q =>
      obtain ⟨k1, k2⟩ := w.next i q e hi he hq
      obtain ⟨nq, hnq⟩ := w.get k1
      have hqp := (k2 nq hnq).1
      have hqi := f2 q hq
      have hqn : nq.next ≠ some i := by
        intro h
        have := (key q nq hqi hnq).1 h
        rw [hp] at this
        simp at this
      simp only [modifyAt_ok hnq, Res.bind_ok]
      have e3 : (m.nodes.set q { nq with prev := none })[i]? = some e := by
        rw [get_set hnq, if_neg (Ne.symm hqi), he]
      simp only [modifyAt_ok e3, Res.bind_ok]
      refine ⟨_, rfl, by simp, by simp, ?_, by rw [← hq]; exact hbs⟩
      intro j
      rw [get_set e3]
      by_cases hji : j = i
      · simp [hji, hbe]
      · simp only [hji, if_false]
        rw [get_set hnq]
        by_cases hjq : j = q
        · subst hjq
          simp [hnq, skipNode, skip, hqp, hqn, hp]
        · simp only [hjq, if_false]
          cases hn : m.nodes[j]? with
          | none => rfl
          | some nd =>
            obtain ⟨x1, x2⟩ := key j nd hji hn
            have y1 : nd.next ≠ some i := by
              intro h
              have := x1 h
              rw [hp] at this
              simp at this
            have y2 : nd.prev ≠ some i := by
              intro h
              have := x2 h
              rw [hq] at this
              simp at this
              exact hjq this.symm
            simp [skipNode, skip, y1, y2]
    | none =>
      simp only [Res.bind_ok, modifyAt_ok he]
      refine ⟨_, rfl, by simp, by simp, ?_, by rw [← hq]; exact hbs⟩
      intro j
      rw [get_set he]
      by_cases hji : j = i
      · simp [hji, hbe]
      · simp only [hji, if_false]
        cases hn : m.nodes[j]? with
        | none => rfl
        | some nd =>
          obtain ⟨x1, x2⟩ := key j nd hji hn
          have y1 : nd.next ≠ some i := by
            intro h
            have := x1 h
            rw [hp] at this
            simp at this
          have y2 : nd.prev ≠ some i := by
            intro h
            have := x2 h
            rw [hq] at this
            simp at this
          simp [skipNode, skip, y1, y2]

theorem skip_some {i x : Nat} {o y : Option Nat} (h : skip i o y = some x) :
    (y = some i ∧ o = some x) ∨ (y = some x ∧ x ≠ i) := by
  unfold skip at h
  split at h
  · exact .inl ⟨by assumption, h⟩
  · rename_i hn
    exact .inr ⟨h, by rintro rfl; exact hn h⟩

theorem skip_none {i : Nat} {o y : Option Nat} (h : skip i o y = none) : (y = some i ∧ o = none) ∨ y = none := by
  unfold skip at h
  split at h
  · exact .inl ⟨by assumption, h⟩
  · exact .inr h

/-- After unlinking, the other nodes are linked properly. -/
theorem unlink_wf {hash : K → Nat} {m m1 : UMap K V} (w : WF hash m) {i : Nat} {e : UNode K V}
    (he : m.nodes[i]? = some e) (hlen : m1.nodes.length = m.nodes.length) (hbl : m1.buckets.length = m.buckets.length)
    (hn : ∀ j, m1.nodes[j]? = if j = i then some { e with prev := none, next := none }
        else (m.nodes[j]?).map (skipNode i e))
    (hb : ∀ b : Nat, m1.buckets[b]? = (m.buckets[b]?).map (skip i e.next)) :
    WFs hash (fun j => j < m.nodes.length ∧ j ≠ i) m1 := by
  have hi : i < m.nodes.length := (List.getElem?_eq_some_iff.1 he).1
  obtain ⟨f1, f2⟩ := rank_facts w hi he
  have get : ∀ j nd, j ≠ i → m1.nodes[j]? = some nd → ∃ nd0, m.nodes[j]? = some nd0 ∧ nd = skipNode i e nd0 := by
    intro j nd hj h
    rw [hn, if_neg hj] at h
    cases h' : m.nodes[j]? with
    | none => rw [h'] at h; simp at h
    | some nd0 => rw [h'] at h; simp at h; exact ⟨nd0, rfl, h.symm⟩
  refine ⟨by rw [hbl]; exact w.nb, ?_, ?_, ?_, ?_, ?_, ?_, ?_⟩
  · intro j hj; rw [hlen]; exact hj.1
  · intro j nd hj h
    obtain ⟨nd0, h1, rfl⟩ := get j nd hj.2 h
    rw [hbl]
    exact w.bucket j nd0 hj.1 h1
  · intro b x h
    rw [hb] at h
    cases h' : m.buckets[b]? with
    | none => rw [h'] at h; simp at h
    | some o =>
      rw [h'] at h
      simp at h
      rcases skip_some h with ⟨rfl, hx⟩ | ⟨rfl, hx⟩
      · obtain ⟨g1, g2⟩ := w.next i x e hi he hx
        obtain ⟨k1, k2⟩ := w.head b i h'
        refine ⟨⟨g1, f2 x hx⟩, ?_⟩
        intro nd hnd
        obtain ⟨nd0, l1, rfl⟩ := get x nd (f2 x hx) hnd
        obtain ⟨l2, l3⟩ := g2 nd0 l1
        obtain ⟨l4, l5⟩ := k2 e he
        rw [hbl]
        refine ⟨by simp [skipNode, skip, l2, l4], ?_⟩
        simp only [skipNode]
        rw [l3, l5]
      · obtain ⟨k1, k2⟩ := w.head b x h'
        refine ⟨⟨k1, hx⟩, ?_⟩
        intro nd hnd
        obtain ⟨nd0, l1, rfl⟩ := get x nd hx hnd
        obtain ⟨l2, l3⟩ := k2 nd0 l1
        rw [hbl]
        exact ⟨by simp [skipNode, skip, l2], l3⟩
  · intro j x nd hj h hx
    obtain ⟨nd0, h1, rfl⟩ := get j nd hj.2 h
    rcases skip_some hx with ⟨g1, g2⟩ | ⟨g1, g2⟩
    · have hji := ((w.next j i nd0 hj.1 h1 g1).2 e he)
      obtain ⟨k1, k2⟩ := w.next i x e hi he g2
      refine ⟨⟨k1, f2 x g2⟩, ?_⟩
      intro nx hnx
      obtain ⟨nx0, l1, rfl⟩ := get x nx (f2 x g2) hnx
      obtain ⟨l2, l3⟩ := k2 nx0 l1
      rw [hbl]
      refine ⟨by simp [skipNode, skip, l2, hji.1], ?_⟩
      simp only [skipNode]
      rw [l3, hji.2]
    · obtain ⟨k1, k2⟩ := w.next j x nd0 hj.1 h1 g1
      refine ⟨⟨k1, g2⟩, ?_⟩
      intro nx hnx
      obtain ⟨nx0, l1, rfl⟩ := get x nx g2 hnx
      obtain ⟨l2, l3⟩ := k2 nx0 l1
      rw [hbl]
      refine ⟨by simp [skipNode, skip, l2, hj.2], l3⟩
  · intro j x nd hj h hx
    obtain ⟨nd0, h1, rfl⟩ := get j nd hj.2 h
    rcases skip_some hx with ⟨g1, g2⟩ | ⟨g1, g2⟩
    · have hji := (w.prev j i nd0 hj.1 h1 g1).2 e he
      obtain ⟨k1, k2⟩ := w.prev i x e hi he g2
      have hxi := (f1 x g2).1
      refine ⟨⟨k1, hxi⟩, ?_⟩
      intro nx hnx
      obtain ⟨nx0, l1, rfl⟩ := get x nx hxi hnx
      have l2 := k2 nx0 l1
      simp [skipNode, skip, l2, hji]
    · obtain ⟨k1, k2⟩ := w.prev j x nd0 hj.1 h1 g1
      refine ⟨⟨k1, g2⟩, ?_⟩
      intro nx hnx
      obtain ⟨nx0, l1, rfl⟩ := get x nx g2 hnx
      have l2 := k2 nx0 l1
      simp [skipNode, skip, l2, hj.2]
  · intro j nd hj h hx
    obtain ⟨nd0, h1, rfl⟩ := get j nd hj.2 h
    rw [hbl, hb]
    simp only [skipNode]
    rcases skip_none hx with ⟨g1, g2⟩ | g1
    · have hji := (w.prev j i nd0 hj.1 h1 g1).2 e he
      have hh := ((w.next i j e hi he hji).2 nd0 h1).2
      rw [hh, w.first i e hi he g2]
      simp [skip, hji]
    · rw [w.first j nd0 hj.1 h1 g1]
      simp [skip, hj.2]
  · obtain ⟨r, hr⟩ := w.rank
    refine ⟨r, ?_⟩
    intro j x nd hj h hx
    obtain ⟨nd0, h1, rfl⟩ := get j nd hj.2 h
    rcases skip_some hx with ⟨g1, g2⟩ | ⟨g1, g2⟩
    · exact Nat.lt_trans (hr j i nd0 hj.1 h1 g1) (hr i x e hi he g2)
    · exact hr j x nd0 hj.1 h1 g1

/-! ## Filling the hole -/

/-- Index `last` becomes `i`. -/
def ren (last i x : Nat) : Nat := if x = last then i else x

/-- A node after the last node has been moved. -/
def renNode (last i : Nat) (nd : UNode K V) : UNode K V :=
  { nd with next := nd.next.map (ren last i), prev := nd.prev.map (ren last i) }

/-- Where the node now at `j` was before. -/
def unren (last i j : Nat) : Nat := if j = i then last else j

theorem map_ren_id {last i : Nat} {o : Option Nat} (h : o ≠ some last) : o.map (ren last i) = o := by
  cases o with
  | none => rfl
  | some x =>
    have : x ≠ last := fun h' => h (by rw [h'])
    simp [ren, this]

theorem fillHole_spec {hash : K → Nat} {m : UMap K V} {n i : Nat} (hlen : m.nodes.length = n)
    (w : WFs hash (fun j => j < n ∧ j ≠ i) m) (hi : i < n - 1) {fixed : Bool}
    (hok : fixed = true ∨ ∀ nd, m.nodes[n - 1]? = some nd → nd.next = none) :
    ∃ m2, fillHole fixed m i = .ok m2 ∧ m2.nodes.length = n - 1 ∧ m2.buckets.length = m.buckets.length ∧
      (∀ j, j < n - 1 → m2.nodes[j]? = (m.nodes[unren (n - 1) i j]?).map (renNode (n - 1) i)) ∧
      (∀ b : Nat, m2.buckets[b]? = (m.buckets[b]?).map (Option.map (ren (n - 1) i))) := by
  have hSl : n - 1 < n ∧ n - 1 ≠ i := by omega
  obtain ⟨l, hl⟩ := w.get hSl
  obtain ⟨e, he⟩ : ∃ e, m.nodes[i]? = some e := ⟨m.nodes[i]'(by omega), by simp⟩
  obtain ⟨f1, f2⟩ := rank_facts w hSl hl
  have hS : ∀ {j : Nat} {nd : UNode K V}, m.nodes[j]? = some nd → j < n := fun h =>
    hlen ▸ (List.getElem?_eq_some_iff.1 h).1
  have key : ∀ j nd, j ≠ i → m.nodes[j]? = some nd →
      (nd.next = some (n - 1) → l.prev = some j) ∧ (nd.prev = some (n - 1) → l.next = some j) := by
    intro j nd hj hn
    exact ⟨fun h => ((w.next j _ nd ⟨hS hn, hj⟩ hn h).2 l hl).1, fun h => (w.prev j _ nd ⟨hS hn, hj⟩ hn h).2 l hl⟩
  have hbk : ∀ b : Nat, m.buckets[b]? = some (some (n - 1)) → l.prev = none ∧ hash l.key % m.buckets.length = b :=
    fun b hb => (w.head b _ hb).2 l hl
  have hll : l.next ≠ some (n - 1) ∧ l.prev ≠ some (n - 1) := by
    constructor
    · intro h; exact f2 _ h rfl
    · intro h; exact (f1 _ h).1 rfl
  have hrl : renNode (n - 1) i l = l := by
    unfold renNode
    rw [map_ren_id hll.1, map_ren_id hll.2]
  -- the generic end of the proof: swap and pop
  have fin : ∀ (nodes2 : List (UNode K V)), nodes2.length = n → nodes2[i]? = some e → nodes2[n - 1]? = some l →
      (∀ j, j < n - 1 → j ≠ i → nodes2[j]? = (m.nodes[j]?).map (renNode (n - 1) i)) →
      ∃ ns : List (UNode K V), (do
        let e ← readAt nodes2 i
        let l2 ← readAt nodes2 (n - 1)
        let nodes3 ← writeAt nodes2 i l2
        let nodes4 ← writeAt nodes3 (n - 1) e
        Res.ok nodes4.dropLast) = .ok ns ∧ ns.length = n - 1 ∧
        ∀ j, j < n - 1 → ns[j]? = (m.nodes[unren (n - 1) i j]?).map (renNode (n - 1) i) := by
    intro nodes2 h1 h2 h3 h4
    have hlt1 : i < nodes2.length := by omega
    have hlt2 : n - 1 < (nodes2.set i l).length := by simp; omega
    refine ⟨((nodes2.set i l).set (n - 1) e).dropLast, ?_, by simp [h1], ?_⟩
    · simp only [readAt_ok h2, readAt_ok h3, Res.bind_ok, writeAt, if_pos hlt1, if_pos hlt2]
    · intro j hj
      rw [List.getElem?_dropLast, if_pos (by simp; omega)]
      rw [List.getElem?_set_ne (by omega), get_set h2]
      unfold unren
      by_cases hji : j = i
      · simp only [hji, if_true, hl, Option.map_some, hrl]
      · simp only [hji, if_false]
        exact h4 j hj hji
  unfold fillHole
  rw [if_pos (by rw [hlen]; omega)]
  simp only [hlen, readAt_ok hl, Res.bind_ok]
  cases hp : l.prev with
  | some p =>
    obtain ⟨g1, g2⟩ := w.prev _ p l hSl hl hp
    obtain ⟨np, hnp⟩ := w.get g1
    have hnpx := g2 np hnp
    obtain ⟨hpl, hpn⟩ := f1 p hp
    have hpp : np.prev ≠ some (n - 1) := fun h => hpn ((key p np g1.2 hnp).2 h)
    simp only [modifyAt_ok hnp, Res.bind_ok]
    have e1 : (m.nodes.set p { np with next := some i })[n - 1]? = some l := by
      rw [get_set hnp, if_neg (Ne.symm hpl), hl]
    simp only [readAt_ok e1, Res.bind_ok]
    have hbs : ∀ b : Nat, m.buckets[b]? = (m.buckets[b]?).map (Option.map (ren (n - 1) i)) := by
      intro b
      cases hb : m.buckets[b]? with
      | none => rfl
      | some o =>
        rw [Option.map_some, map_ren_id]
        rintro rfl
        have := (hbk b hb).1
        rw [hp] at this
        simp at this
    have e0 : (m.nodes.set p { np with next := some i })[i]? = some e := by
      rw [get_set hnp, if_neg (Ne.symm g1.2), he]
    by_cases hx : fixed = true ∧ ∃ q, l.next = some q
    · obtain ⟨rfl, q, hq⟩ := hx
      obtain ⟨k1, k2⟩ := w.next _ q l hSl hl hq
      obtain ⟨nq, hnq⟩ := w.get k1
      have hqp := (k2 nq hnq).1
      have hql := f2 q hq
      have hpq : p ≠ q := by
        rintro rfl
        exact hpn hq
      have hqn : nq.next ≠ some (n - 1) := by
        intro h
        have := (key q nq k1.2 hnq).1 h
        rw [hp] at this
        simp at this
        exact hpq this
      have e2 : (m.nodes.set p { np with next := some i })[q]? = some nq := by
        rw [get_set hnp, if_neg (Ne.symm hpq), hnq]
      simp only [hq, relinkNext, modifyAt_ok e2, Res.bind_ok]
      have hj : ∀ j, ((m.nodes.set p { np with next := some i }).set q { nq with prev := some i })[j]? =
          if j = q then some { nq with prev := some i } else if j = p then some { np with next := some i }
            else m.nodes[j]? := by
        intro j
        rw [get_set e2, get_set hnp]
      obtain ⟨ns, h1, h2, h3⟩ := fin ((m.nodes.set p { np with next := some i }).set q { nq with prev := some i })
        (by simp [hlen]) (by rw [hj, if_neg (Ne.symm k1.2), if_neg (Ne.symm g1.2), he])
        (by rw [hj, if_neg (Ne.symm hql), if_neg (Ne.symm hpl), hl]) (by
          intro j hjn hji
          rw [hj]
          by_cases hjq : j = q
          · subst hjq
            simp only [if_true, hnq, Option.map_some, renNode]
            rw [map_ren_id hqn, hqp]
            simp [ren]
          · simp only [hjq, if_false]
            by_cases hjp : j = p
            · subst hjp
              simp only [if_true, hnp, Option.map_some, renNode]
              rw [map_ren_id hpp, hnpx]
              simp [ren]
            · simp only [hjp, if_false]
              cases hn : m.nodes[j]? with
              | none => rfl
              | some nd =>
                obtain ⟨x1, x2⟩ := key j nd hji hn
                rw [Option.map_some, renNode, map_ren_id (o := nd.next), map_ren_id (o := nd.prev)]
                · intro h
                  have := x2 h
                  rw [hq] at this
                  simp at this
                  exact hjq this.symm
                · intro h
                  have := x1 h
                  rw [hp] at this
                  simp at this
                  exact hjp this.symm)
      refine ⟨⟨m.buckets, ns⟩, ?_, h2, rfl, h3, hbs⟩
      obtain ⟨a1, b1, h1⟩ := Res.bind_eq_ok.1 h1
      obtain ⟨a2, b2, h1⟩ := Res.bind_eq_ok.1 h1
      obtain ⟨a3, b3, h1⟩ := Res.bind_eq_ok.1 h1
      obtain ⟨a4, b4, h1⟩ := Res.bind_eq_ok.1 h1
      simp only [b1, b2, b3, b4, Res.bind_ok]
      simp at h1
      rw [h1]
    · have hskip : relinkNext fixed (m.nodes.set p { np with next := some i }) l.next i = Res.ok (m.nodes.set p { np with next := some i }) := by
        unfold relinkNext
        split
        · rename_i q hq
          exact absurd ⟨rfl, q, hq⟩ hx
        · rfl
      have hnn : l.next = none := by
        rcases hok with h | h
        · cases hq : l.next with
          | none => rfl
          | some q => exact absurd ⟨h, q, hq⟩ hx
        · exact h l hl
      simp only [hskip, Res.bind_ok]
      obtain ⟨ns, h1, h2, h3⟩ := fin (m.nodes.set p { np with next := some i })
        (by simp [hlen]) e0 e1 (by
          intro j hjn hji
          rw [get_set hnp]
          by_cases hjp : j = p
          · subst hjp
            simp only [if_true, hnp, Option.map_some, renNode]
            rw [map_ren_id hpp, hnpx]
            simp [ren]
          · simp only [hjp, if_false]
            cases hn : m.nodes[j]? with
            | none => rfl
            | some nd =>
              obtain ⟨x1, x2⟩ := key j nd hji hn
              rw [Option.map_some, renNode, map_ren_id (o := nd.next), map_ren_id (o := nd.prev)]
              · intro h
                have := x2 h
                rw [hnn] at this
                simp at this
              · intro h
                have := x1 h
                rw [hp] at this
                simp at this
                exact hjp this.symm)
      refine ⟨⟨m.buckets, ns⟩, ?_, h2, rfl, h3, hbs⟩
      obtain ⟨a1, b1, h1⟩ := Res.bind_eq_ok.1 h1
      obtain ⟨a2, b2, h1⟩ := Res.bind_eq_ok.1 h1
      obtain ⟨a3, b3, h1⟩ := Res.bind_eq_ok.1 h1
      obtain ⟨a4, b4, h1⟩ := Res.bind_eq_ok.1 h1
      simp only [b1, b2, b3, b4, Res.bind_ok]
      simp at h1
      rw [h1]
  | none =>
    have hb := w.first _ l hSl hl hp
    have hbe := w.bucket _ l hSl hl
    have hlt : hash l.key % m.buckets.length < m.buckets.length := Nat.mod_lt _ w.nb
    simp only [hbe, setBucket, writeAt, hlt, if_true, Res.bind_ok]
    have hbs : ∀ b : Nat, (m.buckets.set (hash l.key % m.buckets.length) (some i))[b]? =
        (m.buckets[b]?).map (Option.map (ren (n - 1) i)) := by
      intro b
      rw [get_set hb]
      by_cases hbb : b = hash l.key % m.buckets.length
      · subst hbb
        simp [hb, ren]
      · simp only [hbb, if_false]
        cases hb' : m.buckets[b]? with
        | none => rfl
        | some o =>
          rw [Option.map_some, map_ren_id]
          rintro rfl
          exact absurd (hbk b hb').2.symm hbb
    by_cases hx : fixed = true ∧ ∃ q, l.next = some q
    · obtain ⟨rfl, q, hq⟩ := hx
      obtain ⟨k1, k2⟩ := w.next _ q l hSl hl hq
      obtain ⟨nq, hnq⟩ := w.get k1
      have hqp := (k2 nq hnq).1
      have hql := f2 q hq
      have hqn : nq.next ≠ some (n - 1) := by
        intro h
        have := (key q nq k1.2 hnq).1 h
        rw [hp] at this
        simp at this
      simp only [hq, relinkNext, modifyAt_ok hnq, Res.bind_ok]
      have hj : ∀ j, (m.nodes.set q { nq with prev := some i })[j]? =
          if j = q then some { nq with prev := some i } else m.nodes[j]? := by
        intro j
        rw [get_set hnq]
      obtain ⟨ns, h1, h2, h3⟩ := fin (m.nodes.set q { nq with prev := some i })
        (by simp [hlen]) (by rw [hj, if_neg (Ne.symm k1.2), he])
        (by rw [hj, if_neg (Ne.symm hql), hl]) (by
          intro j hjn hji
          rw [hj]
          by_cases hjq : j = q
          · subst hjq
            simp only [if_true, hnq, Option.map_some, renNode]
            rw [map_ren_id hqn, hqp]
            simp [ren]
          · simp only [hjq, if_false]
            cases hn : m.nodes[j]? with
            | none => rfl
            | some nd =>
              obtain ⟨x1, x2⟩ := key j nd hji hn
              rw [Option.map_some, renNode, map_ren_id (o := nd.next), map_ren_id (o := nd.prev)]
              · intro h
                have := x2 h
                rw [hq] at this
                simp at this
                exact hjq this.symm
              · intro h
                have := x1 h
                rw [hp] at this
                simp at this)
      refine ⟨⟨m.buckets.set (hash l.key % m.buckets.length) (some i), ns⟩, ?_, h2, by simp, h3, hbs⟩
      obtain ⟨a1, b1, h1⟩ := Res.bind_eq_ok.1 h1
      obtain ⟨a2, b2, h1⟩ := Res.bind_eq_ok.1 h1
      obtain ⟨a3, b3, h1⟩ := Res.bind_eq_ok.1 h1
      obtain ⟨a4, b4, h1⟩ := Res.bind_eq_ok.1 h1
      simp only [writeAt] at b3 b4
      simp only [b1, b2, b3, b4, Res.bind_ok]
      simp at h1
      rw [h1]
    · have hskip : relinkNext fixed m.nodes l.next i = Res.ok m.nodes := by
        unfold relinkNext
        split
        · rename_i q hq
          exact absurd ⟨rfl, q, hq⟩ hx
        · rfl
      have hnn : l.next = none := by
        rcases hok with h | h
        · cases hq : l.next with
          | none => rfl
          | some q => exact absurd ⟨h, q, hq⟩ hx
        · exact h l hl
      simp only [hskip, Res.bind_ok]
      obtain ⟨ns, h1, h2, h3⟩ := fin m.nodes hlen he hl (by
          intro j hjn hji
          cases hn : m.nodes[j]? with
          | none => rfl
          | some nd =>
            obtain ⟨x1, x2⟩ := key j nd hji hn
            rw [Option.map_some, renNode, map_ren_id (o := nd.next), map_ren_id (o := nd.prev)]
            · intro h
              have := x2 h
              rw [hnn] at this
              simp at this
            · intro h
              have := x1 h
              rw [hp] at this
              simp at this)
      refine ⟨⟨m.buckets.set (hash l.key % m.buckets.length) (some i), ns⟩, ?_, h2, by simp, h3, hbs⟩
      obtain ⟨a1, b1, h1⟩ := Res.bind_eq_ok.1 h1
      obtain ⟨a2, b2, h1⟩ := Res.bind_eq_ok.1 h1
      obtain ⟨a3, b3, h1⟩ := Res.bind_eq_ok.1 h1
      obtain ⟨a4, b4, h1⟩ := Res.bind_eq_ok.1 h1
      simp only [writeAt] at b3 b4
      simp only [b1, b2, b3, b4, Res.bind_ok]
      simp at h1
      rw [h1]

/-- Renaming keeps the links proper. -/
theorem fillHole_wf {hash : K → Nat} {m m2 : UMap K V} {n i : Nat}
    (w : WFs hash (fun j => j < n ∧ j ≠ i) m) (hi : i < n - 1) (hlen2 : m2.nodes.length = n - 1)
    (hbl : m2.buckets.length = m.buckets.length)
    (hn : ∀ j, j < n - 1 → m2.nodes[j]? = (m.nodes[unren (n - 1) i j]?).map (renNode (n - 1) i))
    (hb : ∀ b : Nat, m2.buckets[b]? = (m.buckets[b]?).map (Option.map (ren (n - 1) i))) :
    WF hash m2 := by
  have hu : ∀ j, j < n - 1 → unren (n - 1) i j < n ∧ unren (n - 1) i j ≠ i := by
    intro j hj
    unfold unren
    split <;> omega
  have hru : ∀ j, j < n - 1 → ren (n - 1) i (unren (n - 1) i j) = j := by
    intro j hj
    unfold ren unren
    by_cases h : j = i
    · simp [h]
    · simp only [h, if_false]
      rw [if_neg (by omega)]
  have hrl : ∀ x, x < n ∧ x ≠ i → ren (n - 1) i x < n - 1 ∧ unren (n - 1) i (ren (n - 1) i x) = x := by
    intro x hx
    unfold ren unren
    by_cases h : x = n - 1
    · simp only [h, if_true]; exact ⟨hi, trivial⟩
    · simp only [h, if_false, hx.2]; exact ⟨by omega, trivial⟩
  have get : ∀ j nd, j < n - 1 → m2.nodes[j]? = some nd →
      ∃ nd0, m.nodes[unren (n - 1) i j]? = some nd0 ∧ nd = renNode (n - 1) i nd0 := by
    intro j nd hj h
    rw [hn j hj] at h
    cases h' : m.nodes[unren (n - 1) i j]? with
    | none => rw [h'] at h; simp at h
    | some nd0 => rw [h'] at h; simp at h; exact ⟨nd0, rfl, h.symm⟩
  have mapr : ∀ {o : Option Nat} {x : Nat}, o.map (ren (n - 1) i) = some x → ∃ y, o = some y ∧ ren (n - 1) i y = x := by
    intro o x h
    cases o with
    | none => simp at h
    | some y => simp at h; exact ⟨y, rfl, h⟩
  refine ⟨by rw [hbl]; exact w.nb, fun j hj => hj, ?_, ?_, ?_, ?_, ?_, ?_⟩
  · intro j nd hj h
    rw [hlen2] at hj
    obtain ⟨nd0, h1, rfl⟩ := get j nd hj h
    rw [hbl]
    exact w.bucket _ nd0 (hu j hj) h1
  · intro b x h
    rw [hb] at h
    cases h' : m.buckets[b]? with
    | none => rw [h'] at h; simp at h
    | some o =>
      rw [h'] at h
      simp at h
      obtain ⟨y, rfl, rfl⟩ := h
      obtain ⟨k1, k2⟩ := w.head b y h'
      obtain ⟨r1, r2⟩ := hrl y k1
      refine ⟨by rw [hlen2]; exact r1, ?_⟩
      intro nd hnd
      obtain ⟨nd0, l1, rfl⟩ := get _ nd r1 hnd
      rw [r2] at l1
      obtain ⟨l2, l3⟩ := k2 nd0 l1
      rw [hbl]
      exact ⟨by simp [renNode, l2], l3⟩
  · intro j x nd hj h hx
    rw [hlen2] at hj
    obtain ⟨nd0, h1, rfl⟩ := get j nd hj h
    obtain ⟨y, hy, rfl⟩ := mapr hx
    obtain ⟨k1, k2⟩ := w.next _ y nd0 (hu j hj) h1 hy
    obtain ⟨r1, r2⟩ := hrl y k1
    refine ⟨by rw [hlen2]; exact r1, ?_⟩
    intro nx hnx
    obtain ⟨nx0, l1, rfl⟩ := get _ nx r1 hnx
    rw [r2] at l1
    obtain ⟨l2, l3⟩ := k2 nx0 l1
    rw [hbl]
    exact ⟨by simp [renNode, l2, hru j hj], l3⟩
  · intro j x nd hj h hx
    rw [hlen2] at hj
    obtain ⟨nd0, h1, rfl⟩ := get j nd hj h
    obtain ⟨y, hy, rfl⟩ := mapr hx
    obtain ⟨k1, k2⟩ := w.prev _ y nd0 (hu j hj) h1 hy
    obtain ⟨r1, r2⟩ := hrl y k1
    refine ⟨by rw [hlen2]; exact r1, ?_⟩
    intro nx hnx
    obtain ⟨nx0, l1, rfl⟩ := get _ nx r1 hnx
    rw [r2] at l1
    have l2 := k2 nx0 l1
    simp [renNode, l2, hru j hj]
  · intro j nd hj h hx
    rw [hlen2] at hj
    obtain ⟨nd0, h1, rfl⟩ := get j nd hj h
    have hp : nd0.prev = none := by
      simp only [renNode] at hx
      cases hpp : nd0.prev with
      | none => rfl
      | some y => rw [hpp] at hx; simp at hx
    rw [hbl, hb]
    simp only [renNode]
    rw [w.first _ nd0 (hu j hj) h1 hp]
    simp [hru j hj]
  · obtain ⟨r, hr⟩ := w.rank
    refine ⟨fun x => r (unren (n - 1) i x), ?_⟩
    intro j x nd hj h hx
    rw [hlen2] at hj
    obtain ⟨nd0, h1, rfl⟩ := get j nd hj h
    obtain ⟨y, hy, rfl⟩ := mapr hx
    obtain ⟨k1, k2⟩ := w.next _ y nd0 (hu j hj) h1 hy
    simp only [(hrl y k1).2]
    exact hr _ y nd0 (hu j hj) h1 hy

end UMap
end Coil
