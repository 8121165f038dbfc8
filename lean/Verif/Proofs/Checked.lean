import Verif.Model.Checked
import Verif.Proofs.Assert
import Verif.Proofs.UMapSim
import Verif.Proofs.UMapEntries
import Verif.Proofs.UMapLoad

/-!
# The map with assertions against the map without
-/

namespace Coil
open Spec

section
variable {α : Type} {l : List α} {i : Nat}

theorem stops_modify {f : α → α} : Stops (modifyC l i f) (modifyAt l i f) := Stops.check (.refl _)

theorem contained_modify {f : α → α} : Contained (modifyC l i f) := by
  unfold modifyC assertThat
  split
  · rename_i h
    simp [modifyAt, h]
    exact .ok
  · exact .stop

theorem lt_of_modifyAt {f : α → α} {l' : List α} (h : modifyAt l i f = .ok l') : i < l.length := by
  unfold modifyAt at h
  split at h
  · rename_i h'
    exact (List.getElem?_eq_some_iff.1 h').1
  · simp at h

theorem modifyC_of_ok {f : α → α} {l' : List α} (h : modifyAt l i f = .ok l') : modifyC l i f = .ok l' := by
  simp only [modifyC, assertThat_pos (lt_of_modifyAt h), Res.bind_ok, h]

end

namespace UMap

variable {K V : Type} [DecidableEq K] {hash : K → Nat} {m m' : UMap K V} {k : K}

/-! ## Assertions only stop -/

theorem stops_findLoop (nodes : List (UNode K V)) (k : K) : ∀ (fuel : Nat) (s : Option Nat),
    Stops (findLoopC nodes k fuel s) (findLoop nodes k fuel s) := by
  intro fuel
  induction fuel with
  | zero => intro s; cases s <;> exact .refl _
  | succ fuel ih =>
    intro s
    cases s with
    | none => exact .refl _
    | some i =>
      refine Stops.check (Stops.bind stops_read (fun nd => ?_))
      split
      · exact .refl _
      · exact ih _

theorem stops_findIndex : Stops (findIndexC hash m k) (findIndex hash m k) :=
  Stops.bind (.refl _) (fun _ => Stops.check (Stops.bind stops_read (fun _ => stops_findLoop _ _ _ _)))

theorem stops_find : Stops (findC hash m k) (find hash m k) := by
  refine Stops.bind stops_findIndex (fun o => ?_)
  cases o with
  | none => exact .refl _
  | some i => exact Stops.bind stops_read (fun _ => .refl _)

omit [DecidableEq K] in
theorem stops_insertLoop (new : Nat) : ∀ (fuel i : Nat) (nodes : List (UNode K V)),
    Stops (insertLoopC nodes new fuel i) (insertLoop nodes new fuel i) := by
  intro fuel
  induction fuel with
  | zero => intro i nodes; exact .refl _
  | succ fuel ih =>
    intro i nodes
    refine Stops.check (Stops.bind stops_read (fun nd => ?_))
    cases nd.next with
    | none => exact Stops.bind stops_modify (fun _ => stops_modify)
    | some j => exact ih _ _

omit [DecidableEq K] in
theorem stops_insertNode (new : Nat) : Stops (insertNodeC hash m new) (insertNode hash m new) := by
  refine Stops.check (Stops.bind stops_read (fun nd => Stops.bind (.refl _) (fun b => Stops.check (Stops.bind stops_modify
    (fun nodes1 => Stops.bind stops_read (fun first => ?_))))))
  cases first with
  | none => exact Stops.bind stops_write (fun _ => .refl _)
  | some f => exact Stops.bind (stops_insertLoop _ _ _ _) (fun _ => .refl _)

omit [DecidableEq K] in
theorem stops_rehashLoop : ∀ (count i : Nat) (m : UMap K V), Stops (rehashLoopC hash count i m) (rehashLoop hash count i m) := by
  intro count
  induction count with
  | zero => intro i m; exact .refl _
  | succ count ih => exact fun i m => Stops.bind (stops_insertNode _) (fun _ => ih _ _)

theorem stops_put (exceeds : Nat → Nat → Bool) (v : V) :
    Stops (insertOrAssignC hash exceeds m k v) (insertOrAssign hash exceeds m k v) := by
  refine Stops.bind stops_findIndex (fun o => ?_)
  cases o with
  | some i => exact Stops.bind stops_modify (fun _ => .refl _)
  | none =>
    have hg : Stops (growIfNeededC hash exceeds m) (growIfNeeded hash exceeds m) := by
      unfold growIfNeededC growIfNeeded
      split
      · exact stops_rehashLoop _ _ _
      · exact .refl _
    refine Stops.bind hg (fun m1 => ?_)
    rcases stops_insertNode (hash := hash) (m := ⟨m1.buckets, m1.nodes ++ [⟨k, v, none, none, none⟩]⟩) m1.nodes.length with h | h
    · rw [h]
      cases hi : insertNode hash ⟨m1.buckets, m1.nodes ++ [⟨k, v, none, none, none⟩]⟩ m1.nodes.length with
      | ok m2 => exact Stops.check (.refl _)
      | ub u => exact .refl _
      | diverge => exact .refl _
    · rw [h]
      exact .inr rfl

omit [DecidableEq K] in
theorem stops_setBucket {bs : List (Option Nat)} {b x : Option Nat} : Stops (setBucketC bs b x) (setBucket bs b x) := by
  cases b with
  | none => exact .inr rfl
  | some b => exact stops_write

/-- Reading a bucket for an assertion only. -/
theorem stops_bucket {β : Type} {bs : List (Option Nat)} {b : Option Nat} {f : Option Nat → Res β} {y : Res β}
    (h : ∀ o, Stops (f o) y) : Stops (bucketC bs b >>= f) y := by
  cases b with
  | none => exact .inr rfl
  | some b =>
    by_cases hb : b < bs.length
    · simp only [bucketC, readC, assertThat_pos hb, Res.bind_ok, readAt_of_lt hb]
      exact h _
    · simp only [bucketC, readC, assertThat, if_neg hb]
      exact .inr rfl

omit [DecidableEq K] in
theorem stops_unlink (i : Nat) : Stops (unlinkC m i) (unlink m i) := by
  refine Stops.check (Stops.bind stops_read (fun e => Stops.check ?_))
  cases e.prev with
  | some p =>
    refine stops_bucket (fun _ => Stops.check (Stops.check (Stops.bind stops_modify (fun _ => Stops.bind (.refl _) (fun m1 => ?_)))))
    refine Stops.bind stops_read (fun e1 => ?_)
    cases e1.next with
    | some q => exact Stops.check (Stops.bind stops_modify (fun _ => Stops.bind stops_modify (fun _ => .refl _)))
    | none => exact Stops.bind (.refl _) (fun _ => Stops.bind stops_modify (fun _ => .refl _))
  | none =>
    refine stops_bucket (fun _ => Stops.check (Stops.bind stops_setBucket (fun _ => Stops.bind (.refl _) (fun m1 => ?_))))
    refine Stops.bind stops_read (fun e1 => ?_)
    cases e1.next with
    | some q => exact Stops.check (Stops.bind stops_modify (fun _ => Stops.bind stops_modify (fun _ => .refl _)))
    | none => exact Stops.bind (.refl _) (fun _ => Stops.bind stops_modify (fun _ => .refl _))

omit [DecidableEq K] in
theorem stops_drop : Stops (dropC m) (.ok ⟨m.buckets, m.nodes.dropLast⟩) := by
  unfold dropC readC
  unfold assertThat
  split
  · rename_i h
    simp only [Res.bind_ok, readAt_of_lt h]
    split
    · simp only [Res.bind_ok]
      split
      · simp only [Res.bind_ok]
        split
        · exact .refl _
        · exact .inr rfl
      · exact .inr rfl
    · exact .inr rfl
  · exact .inr rfl

omit [DecidableEq K] in
theorem stops_relinkNext {fixed : Bool} {nodes : List (UNode K V)} {next : Option Nat} {i : Nat} :
    Stops (relinkNextC fixed nodes next i) (relinkNext fixed nodes next i) := by
  cases fixed <;> cases next <;> first | exact .refl _ | exact stops_modify

omit [DecidableEq K] in
theorem stops_fillHole {fixed : Bool} (i : Nat) : Stops (fillHoleC fixed m i) (fillHole fixed m i) := by
  refine Stops.check ?_
  unfold fillHole
  split
  · refine Stops.bind stops_read (fun l => ?_)
    cases l.prev with
    | some p =>
      exact Stops.check (Stops.bind stops_modify (fun _ => Stops.bind (.refl _) (fun m1 => Stops.bind stops_read (fun l1 =>
        Stops.bind stops_relinkNext (fun n2 => Stops.bind stops_read (fun e => Stops.bind stops_read (fun l2 =>
          Stops.bind stops_write (fun n3 => Stops.bind stops_write (fun n4 => stops_drop)))))))))
    | none =>
      exact Stops.check (Stops.bind stops_setBucket (fun _ => Stops.bind (.refl _) (fun m1 => Stops.bind stops_read (fun l1 =>
        Stops.bind stops_relinkNext (fun n2 => Stops.bind stops_read (fun e => Stops.bind stops_read (fun l2 =>
          Stops.bind stops_write (fun n3 => Stops.bind stops_write (fun n4 => stops_drop)))))))))
  · exact stops_drop

theorem stops_erase {fixed : Bool} : Stops (eraseC hash fixed m k) (eraseWith hash fixed m k) := by
  refine Stops.bind stops_findIndex (fun o => ?_)
  cases o with
  | none => exact .refl _
  | some i => exact Stops.bind (stops_unlink i) (fun _ => stops_fillHole i)

/-! ## Nothing out of bounds -/

omit [DecidableEq K] in
theorem contained_bucketOf (hB : 0 < m.buckets.length) : Contained (bucketOf hash m k) := by
  unfold bucketOf
  rw [if_neg (by omega)]
  exact .ok

theorem contained_findLoop (nodes : List (UNode K V)) (k : K) : ∀ (fuel : Nat) (s : Option Nat),
    Contained (findLoopC nodes k fuel s) := by
  intro fuel
  induction fuel with
  | zero =>
    intro s
    cases s
    · exact .ok
    · exact .diverge
  | succ fuel ih =>
    intro s
    cases s with
    | none => exact .ok
    | some i =>
      refine Contained.bind .check (fun _ _ => Contained.bind contained_read (fun nd _ => ?_))
      split
      · exact .ok
      · exact ih _

theorem contained_findIndex (hB : 0 < m.buckets.length) : Contained (findIndexC hash m k) :=
  Contained.bind (contained_bucketOf hB) (fun _ _ => Contained.bind .check (fun _ _ => Contained.bind contained_read
    (fun _ _ => contained_findLoop _ _ _ _)))

theorem contained_find (hB : 0 < m.buckets.length) : Contained (findC hash m k) := by
  refine Contained.bind (contained_findIndex hB) (fun o _ => ?_)
  cases o with
  | none => exact .ok
  | some i => exact Contained.bind contained_read (fun _ _ => .ok)

omit [DecidableEq K] in
theorem contained_insertLoop (new : Nat) : ∀ (fuel i : Nat) (nodes : List (UNode K V)), Contained (insertLoopC nodes new fuel i) := by
  intro fuel
  induction fuel with
  | zero => intro i nodes; exact .diverge
  | succ fuel ih =>
    intro i nodes
    refine Contained.bind .check (fun _ _ => Contained.bind contained_read (fun nd _ => ?_))
    cases nd.next with
    | none => exact Contained.bind contained_modify (fun _ _ => contained_modify)
    | some j => exact ih _ _

omit [DecidableEq K] in
theorem contained_insertNode (hB : 0 < m.buckets.length) (new : Nat) : Contained (insertNodeC hash m new) := by
  refine Contained.bind .check (fun _ _ => Contained.bind contained_read (fun nd _ => Contained.bind (contained_bucketOf hB) (fun b _ =>
    Contained.bind .check (fun _ _ => Contained.bind contained_modify (fun n1 _ => Contained.bind contained_read (fun first _ => ?_))))))
  cases first with
  | none => exact Contained.bind contained_write (fun _ _ => .ok)
  | some f => exact Contained.bind (contained_insertLoop _ _ _ _) (fun _ _ => .ok)

omit [DecidableEq K] in
theorem contained_rehashLoop : ∀ (count i : Nat) (m : UMap K V), 0 < m.buckets.length → Contained (rehashLoopC hash count i m) := by
  intro count
  induction count with
  | zero => intro i m _; exact .ok
  | succ count ih =>
    refine fun i m hB => Contained.bind (contained_insertNode hB _) (fun m1 h1 => ih _ _ ?_)
    rw [insertNode_buckets ((stops_insertNode i).of_ok h1)]
    exact hB

theorem contained_put {exceeds : Nat → Nat → Bool} (hex : ∀ b, 0 < b → exceeds 1 b = false) (hB : 0 < m.buckets.length) (v : V) : Contained (insertOrAssignC hash exceeds m k v) := by
  refine Contained.bind (contained_findIndex hB) (fun o _ => ?_)
  cases o with
  | some i => exact Contained.bind contained_modify (fun _ _ => .ok)
  | none =>
    have hpos : exceeds (m.nodes.length + 1) m.buckets.length = true → 0 < m.nodes.length := by
      intro he
      rcases Nat.eq_zero_or_pos m.nodes.length with h0 | h0
      · rw [h0, hex _ hB] at he
        simp at he
      · exact h0
    have hg : Contained (growIfNeededC hash exceeds m) ∧ ∀ m1, growIfNeededC hash exceeds m = .ok m1 → 0 < m1.buckets.length := by
      unfold growIfNeededC
      split
      · rename_i he
        have := hpos he
        refine ⟨contained_rehashLoop _ _ _ (by simp; omega), fun m1 h1 => ?_⟩
        rw [rehashLoop_buckets ((stops_rehashLoop _ _ _).of_ok h1)]
        simp
        omega
      · refine ⟨.ok, fun m1 h1 => ?_⟩
        cases h1
        exact hB
    exact Contained.bind hg.1 (fun m1 h1 => Contained.bind (contained_insertNode (by exact hg.2 m1 h1) _) (fun _ _ => Contained.bind .check (fun _ _ => .ok)))

omit [DecidableEq K] in
theorem contained_setBucket {bs : List (Option Nat)} {b x : Option Nat} : Contained (setBucketC bs b x) := by
  cases b with
  | none => exact .stop
  | some b => exact contained_write

omit [DecidableEq K] in
theorem contained_bucket {bs : List (Option Nat)} {b : Option Nat} : Contained (bucketC bs b) := by
  cases b with
  | none => exact .stop
  | some b => exact contained_read

omit [DecidableEq K] in
theorem contained_unlink (i : Nat) : Contained (unlinkC m i) := by
  refine Contained.bind .check (fun _ _ => Contained.bind contained_read (fun e _ => Contained.bind .check (fun _ _ => ?_)))
  cases e.prev with
  | some p =>
    refine Contained.bind contained_bucket (fun _ _ => Contained.bind .check (fun _ _ => Contained.bind .check (fun _ _ =>
      Contained.bind contained_modify (fun _ _ => Contained.bind .ok (fun m1 _ => Contained.bind contained_read (fun e1 _ => ?_))))))
    cases e1.next with
    | some q => exact Contained.bind .check (fun _ _ => Contained.bind contained_modify (fun _ _ => Contained.bind contained_modify (fun _ _ => .ok)))
    | none => exact Contained.bind .ok (fun _ _ => Contained.bind contained_modify (fun _ _ => .ok))
  | none =>
    refine Contained.bind contained_bucket (fun _ _ => Contained.bind .check (fun _ _ =>
      Contained.bind contained_setBucket (fun _ _ => Contained.bind .ok (fun m1 _ => Contained.bind contained_read (fun e1 _ => ?_)))))
    cases e1.next with
    | some q => exact Contained.bind .check (fun _ _ => Contained.bind contained_modify (fun _ _ => Contained.bind contained_modify (fun _ _ => .ok)))
    | none => exact Contained.bind .ok (fun _ _ => Contained.bind contained_modify (fun _ _ => .ok))

omit [DecidableEq K] in
theorem contained_drop : Contained (dropC m) :=
  Contained.bind contained_read (fun _ _ => Contained.bind .check (fun _ _ => Contained.bind .check (fun _ _ =>
    Contained.bind .check (fun _ _ => .ok))))

omit [DecidableEq K] in
theorem contained_relinkNext {fixed : Bool} {nodes : List (UNode K V)} {next : Option Nat} {i : Nat} :
    Contained (relinkNextC fixed nodes next i) := by
  cases fixed <;> cases next <;> first | exact .ok | exact contained_modify

omit [DecidableEq K] in
theorem contained_fillHole {fixed : Bool} (i : Nat) : Contained (fillHoleC fixed m i) := by
  refine Contained.bind .check (fun _ _ => ?_)
  split
  · have tail : ∀ m1 : UMap K V, Contained (do
        let l1 ← readC m1.nodes (m.nodes.length - 1)
        let nodes2 ← relinkNextC fixed m1.nodes l1.next i
        let e ← readC nodes2 i
        let l2 ← readC nodes2 (m.nodes.length - 1)
        let nodes3 ← writeC nodes2 i l2
        let nodes4 ← writeC nodes3 (m.nodes.length - 1) e
        dropC (⟨m1.buckets, nodes4⟩ : UMap K V)) := fun m1 =>
      Contained.bind contained_read (fun l1 _ => Contained.bind contained_relinkNext (fun n2 _ =>
        Contained.bind contained_read (fun e _ => Contained.bind contained_read (fun l2 _ => Contained.bind contained_write
          (fun n3 _ => Contained.bind contained_write (fun n4 _ => contained_drop))))))
    refine Contained.bind contained_read (fun l _ => ?_)
    cases l.prev with
    | some p => exact Contained.bind .check (fun _ _ => Contained.bind contained_modify (fun _ _ => Contained.bind .ok (fun m1 _ => tail m1)))
    | none => exact Contained.bind .check (fun _ _ => Contained.bind contained_setBucket (fun _ _ => Contained.bind .ok (fun m1 _ => tail m1)))
  · exact contained_drop

theorem contained_erase (hB : 0 < m.buckets.length) {fixed : Bool} : Contained (eraseC hash fixed m k) := by
  refine Contained.bind (contained_findIndex hB) (fun o _ => ?_)
  cases o with
  | none => exact .ok
  | some i => exact Contained.bind (contained_unlink i) (fun _ _ => contained_fillHole i)

/-! ## Assertions that hold -/

theorem findLoopC_of_ok {nodes : List (UNode K V)} : ∀ {fuel : Nat} {s o : Option Nat},
    findLoop nodes k fuel s = .ok o → findLoopC nodes k fuel s = .ok o := by
  intro fuel
  induction fuel with
  | zero =>
    intro s o h
    cases s
    · simpa [findLoop, findLoopC] using h
    · simp [findLoop] at h
  | succ fuel ih =>
    intro s o h
    cases s with
    | none => simpa [findLoop, findLoopC] using h
    | some i =>
      obtain ⟨nd, h1, h2⟩ := Res.bind_eq_ok.1 h
      simp only [findLoopC, assertThat_pos (lt_of_readAt h1), Res.bind_ok, readC_of_ok h1]
      split
      · rename_i hk
        rwa [if_pos hk] at h2
      · rename_i hk
        rw [if_neg hk] at h2
        exact ih h2

theorem findIndexC_of_ok {o : Option Nat} (h : findIndex hash m k = .ok o) : findIndexC hash m k = .ok o := by
  obtain ⟨b, h1, h⟩ := Res.bind_eq_ok.1 h
  obtain ⟨f, h2, h3⟩ := Res.bind_eq_ok.1 h
  simp only [findIndexC, h1, Res.bind_ok, assertThat_pos (lt_of_readAt h2), readC_of_ok h2, findLoopC_of_ok h3]

theorem findC_of_ok {o : Option V} (h : find hash m k = .ok o) : findC hash m k = .ok o := by
  obtain ⟨x, h1, h2⟩ := Res.bind_eq_ok.1 h
  simp only [findC, findIndexC_of_ok h1, Res.bind_ok]
  cases x with
  | none => exact h2
  | some i =>
    obtain ⟨nd, h3, h4⟩ := Res.bind_eq_ok.1 h2
    simp only [readC_of_ok h3, Res.bind_ok]
    exact h4

omit [DecidableEq K] in
theorem insertLoopC_of_ok {new : Nat} : ∀ {fuel i : Nat} {nodes l : List (UNode K V)},
    insertLoop nodes new fuel i = .ok l → insertLoopC nodes new fuel i = .ok l := by
  intro fuel
  induction fuel with
  | zero => intro i nodes l h; simp [insertLoop] at h
  | succ fuel ih =>
    intro i nodes l h
    obtain ⟨nd, h1, h2⟩ := Res.bind_eq_ok.1 h
    simp only [insertLoopC, assertThat_pos (lt_of_readAt h1), Res.bind_ok, readC_of_ok h1]
    cases hx : nd.next with
    | none =>
      rw [hx] at h2
      obtain ⟨n1, h3, h4⟩ := Res.bind_eq_ok.1 h2
      simp only [modifyC_of_ok h3, Res.bind_ok, modifyC_of_ok h4]
    | some j =>
      rw [hx] at h2
      exact ih h2

omit [DecidableEq K] in
theorem insertNodeC_of_ok {new : Nat} (h : insertNode hash m new = .ok m') : insertNodeC hash m new = .ok m' := by
  obtain ⟨nd, h1, h⟩ := Res.bind_eq_ok.1 h
  obtain ⟨b, h2, h⟩ := Res.bind_eq_ok.1 h
  obtain ⟨n1, h3, h⟩ := Res.bind_eq_ok.1 h
  obtain ⟨f, h4, h⟩ := Res.bind_eq_ok.1 h
  simp only [insertNodeC, assertThat_pos (lt_of_readAt h1), readC_of_ok h1, Res.bind_ok, h2, assertThat_pos (lt_of_readAt h4),
    modifyC_of_ok h3, readC_of_ok h4]
  cases f with
  | none =>
    obtain ⟨bs, h5, h6⟩ := Res.bind_eq_ok.1 h
    simp only [writeC_of_ok h5, Res.bind_ok]
    exact h6
  | some f =>
    obtain ⟨n2, h5, h6⟩ := Res.bind_eq_ok.1 h
    simp only [insertLoopC_of_ok h5, Res.bind_ok]
    exact h6

omit [DecidableEq K] in
theorem rehashLoopC_of_ok : ∀ {count i : Nat} {m : UMap K V}, rehashLoop hash count i m = .ok m' → rehashLoopC hash count i m = .ok m' := by
  intro count
  induction count with
  | zero => intro i m h; exact h
  | succ count ih =>
    intro i m h
    obtain ⟨m1, h1, h2⟩ := Res.bind_eq_ok.1 h
    simp only [rehashLoopC, insertNodeC_of_ok h1, Res.bind_ok]
    exact ih h2

omit [DecidableEq K] in
theorem createC_of_ok {n : Nat} (h : create hash n = .ok m') : createC hash n = .ok m' := rehashLoopC_of_ok h

theorem putC_of_ok {exceeds : Nat → Nat → Bool} {v : V} (h : insertOrAssign hash exceeds m k v = .ok m') :
    insertOrAssignC hash exceeds m k v = .ok m' := by
  obtain ⟨o, h1, h⟩ := Res.bind_eq_ok.1 h
  simp only [insertOrAssignC, findIndexC_of_ok h1, Res.bind_ok]
  cases o with
  | some i =>
    obtain ⟨n, h2, h3⟩ := Res.bind_eq_ok.1 h
    simp only [modifyC_of_ok h2, Res.bind_ok]
    exact h3
  | none =>
    obtain ⟨m1, h2, h3⟩ := Res.bind_eq_ok.1 h
    have hg : growIfNeededC hash exceeds m = .ok m1 := by
      unfold growIfNeeded at h2
      unfold growIfNeededC
      split
      · rename_i he
        rw [if_pos he] at h2
        exact rehashLoopC_of_ok h2
      · rename_i he
        rwa [if_neg he] at h2
    have hl : m1.nodes.length < m'.nodes.length := by
      rw [← entries_length m', insertNode_kv h3, entries_length]
      simp
    simp only [hg, Res.bind_ok, insertNodeC_of_ok h3, assertThat_pos hl]

/-- The head of the bucket of a node is the node itself if and only if it has no predecessor. -/
def HeadOk (m : UMap K V) (i : Nat) (e : UNode K V) : Prop :=
  ∃ b, e.bucket = some b ∧ ∃ h, m.buckets[b]? = some h ∧ (h = some i ↔ e.prev = none)

omit [DecidableEq K] in
theorem unlinkC_of_ok {i : Nat} (h : unlink m i = .ok m') (hh : ∀ e, m.nodes[i]? = some e → HeadOk m i e) :
    unlinkC m i = .ok m' := by
  obtain ⟨e, h1, h⟩ := Res.bind_eq_ok.1 h
  have he : m.nodes[i]? = some e := by
    unfold readAt at h1
    split at h1
    · rename_i a ha
      simp at h1
      rw [ha, h1]
    · simp at h1
  obtain ⟨b, hb1, x, hb2, hb3⟩ := hh e he
  have hbl : b < m.buckets.length := (List.getElem?_eq_some_iff.1 hb2).1
  have hbr : readC m.buckets b = .ok x := readC_of_ok (by simp [readAt, hb2])
  have hidx : IdxLt e.bucket m.buckets.length := by rw [hb1]; exact hbl
  simp only [unlinkC, assertThat_pos (lt_of_readAt h1), readC_of_ok h1, Res.bind_ok, assertThat_pos hidx]
  have tail : ∀ m1 : UMap K V, (do
      let e1 ← readAt m1.nodes i
      let nodes2 ← match e1.next with
        | some q => modifyAt m1.nodes q (fun n => { n with prev := e1.prev })
        | none => Res.ok m1.nodes
      let nodes3 ← modifyAt nodes2 i (fun n => { n with prev := none, next := none })
      Res.ok (⟨m1.buckets, nodes3⟩ : UMap K V)) = .ok m' → (do
      let e1 ← readC m1.nodes i
      let nodes2 ← match e1.next with
        | some q => do
          assertThat (q < m1.nodes.length)
          modifyC m1.nodes q (fun n => { n with prev := e1.prev })
        | none => Res.ok m1.nodes
      let nodes3 ← modifyC nodes2 i (fun n => { n with prev := none, next := none })
      Res.ok (⟨m1.buckets, nodes3⟩ : UMap K V)) = .ok m' := by
    intro m1 g
    obtain ⟨e1, g1, g⟩ := Res.bind_eq_ok.1 g
    simp only [readC_of_ok g1, Res.bind_ok]
    cases hx : e1.next with
    | none =>
      rw [hx] at g
      simp only [Res.bind_ok] at g ⊢
      obtain ⟨n3, g3, g4⟩ := Res.bind_eq_ok.1 g
      simp only [Res.bind_ok, modifyC_of_ok g3]
      exact g4
    | some q =>
      rw [hx] at g
      obtain ⟨n2, g2, g⟩ := Res.bind_eq_ok.1 g
      obtain ⟨n3, g3, g4⟩ := Res.bind_eq_ok.1 g
      simp only [assertThat_pos (lt_of_modifyAt g2), modifyC_of_ok g2, Res.bind_ok, modifyC_of_ok g3]
      exact g4
  cases hp : e.prev with
  | none =>
    rw [hp] at h
    have hx := hb3.2 hp
    obtain ⟨bs, h2, h⟩ := Res.bind_eq_ok.1 h
    rw [hb1] at h2
    simp only [hb1, bucketC, hbr, Res.bind_ok, assertThat_pos hx, setBucketC, writeC_of_ok h2]
    have t := tail _ h
    simp only [readC_of_ok h1, Res.bind_ok, hp] at t
    exact t
  | some p =>
    rw [hp] at h
    have hx : x ≠ some i := fun hx => by
      rw [hb3.1 hx] at hp
      simp at hp
    obtain ⟨n1, h2, h⟩ := Res.bind_eq_ok.1 h
    simp only [hb1, bucketC, hbr, Res.bind_ok, assertThat_pos hx, assertThat_pos (lt_of_modifyAt h2), modifyC_of_ok h2]
    exact tail _ h

omit [DecidableEq K] in
theorem unlink_clean {i : Nat} (h : unlink m i = .ok m') : ∃ n, m'.nodes[i]? = some n ∧ n.prev = none ∧ n.next = none := by
  have tail : ∀ m1 : UMap K V, (do
      let e1 ← readAt m1.nodes i
      let nodes2 ← match e1.next with
        | some q => modifyAt m1.nodes q (fun n => { n with prev := e1.prev })
        | none => Res.ok m1.nodes
      let nodes3 ← modifyAt nodes2 i (fun n => { n with prev := none, next := none })
      Res.ok (⟨m1.buckets, nodes3⟩ : UMap K V)) = .ok m' → ∃ n, m'.nodes[i]? = some n ∧ n.prev = none ∧ n.next = none := by
    intro m1 g
    obtain ⟨e1, g1, g⟩ := Res.bind_eq_ok.1 g
    have fin : ∀ n2 : List (UNode K V), (do
        let nodes3 ← modifyAt n2 i (fun n => { n with prev := none, next := none })
        Res.ok (⟨m1.buckets, nodes3⟩ : UMap K V)) = .ok m' → ∃ n, m'.nodes[i]? = some n ∧ n.prev = none ∧ n.next = none := by
      intro n2 g
      obtain ⟨n3, g3, g4⟩ := Res.bind_eq_ok.1 g
      simp only [Res.ok.injEq] at g4
      subst g4
      have hi := lt_of_modifyAt g3
      have := modifyAt_get g3 i
      simp [List.getElem?_eq_getElem hi] at this
      exact ⟨_, this, rfl, rfl⟩
    cases hx : e1.next with
    | none =>
      rw [hx] at g
      exact fin _ g
    | some q =>
      rw [hx] at g
      obtain ⟨n2, g2, g⟩ := Res.bind_eq_ok.1 g
      exact fin _ g
  obtain ⟨e, h1, h⟩ := Res.bind_eq_ok.1 h
  cases hp : e.prev with
  | none =>
    rw [hp] at h
    obtain ⟨bs, h2, h⟩ := Res.bind_eq_ok.1 h
    exact tail _ h
  | some p =>
    rw [hp] at h
    obtain ⟨n1, h2, h⟩ := Res.bind_eq_ok.1 h
    exact tail _ h

omit [DecidableEq K] in
theorem dropC_of {n : UNode K V} (hn : m.nodes[m.nodes.length - 1]? = some n) (h1 : n.prev = none) (h2 : n.next = none) :
    dropC m = .ok ⟨m.buckets, m.nodes.dropLast⟩ := by
  have hl := (List.getElem?_eq_some_iff.1 hn).1
  have h0 : m.nodes.length ≠ 0 := by omega
  simp only [dropC, readC_of_ok (readAt_ok hn), Res.bind_ok, assertThat_pos h1, assertThat_pos h2, assertThat_pos h0]

theorem writeAt_get {α : Type} {l l' : List α} {i : Nat} {a : α} (h : writeAt l i a = .ok l') : l' = l.set i a := by
  unfold writeAt at h
  split at h
  · simpa using h.symm
  · simp at h

omit [DecidableEq K] in
theorem fillHoleC_of_ok {fixed : Bool} {i : Nat} (h : fillHole fixed m i = .ok m')
    (hc : ∃ n, m.nodes[i]? = some n ∧ n.prev = none ∧ n.next = none)
    (hl : i ≠ m.nodes.length - 1 → ∀ l, m.nodes[m.nodes.length - 1]? = some l → l.prev ≠ some i ∧ l.next ≠ some i ∧
      l.prev ≠ some (m.nodes.length - 1)) :
    fillHoleC fixed m i = .ok m' := by
  obtain ⟨n, hn, hn1, hn2⟩ := hc
  have hi := (List.getElem?_eq_some_iff.1 hn).1
  have h0 : m.nodes.length ≠ 0 := by omega
  unfold fillHole at h
  simp only [fillHoleC, assertThat_pos h0, Res.bind_ok]
  by_cases hne : i ≠ m.nodes.length - 1
  · rw [if_pos hne] at h ⊢
    obtain ⟨l, h1, h⟩ := Res.bind_eq_ok.1 h
    have hll : m.nodes[m.nodes.length - 1]? = some l := by
      unfold readAt at h1
      split at h1
      · rename_i a ha
        simp at h1
        rw [ha, h1]
      · simp at h1
    obtain ⟨l1, l2, l3⟩ := hl hne l hll
    -- the part after the first write
    have tail : ∀ m1 : UMap K V, m1.nodes.length = m.nodes.length →
        (∃ n, m1.nodes[i]? = some n ∧ n.prev = none ∧ n.next = none) →
        (∀ l, m1.nodes[m.nodes.length - 1]? = some l → l.next ≠ some i) → (do
        let l1 ← readAt m1.nodes (m.nodes.length - 1)
        let nodes2 ← relinkNext fixed m1.nodes l1.next i
        let e ← readAt nodes2 i
        let l2 ← readAt nodes2 (m.nodes.length - 1)
        let nodes3 ← writeAt nodes2 i l2
        let nodes4 ← writeAt nodes3 (m.nodes.length - 1) e
        Res.ok (⟨m1.buckets, nodes4.dropLast⟩ : UMap K V)) = .ok m' → (do
        let l1 ← readC m1.nodes (m.nodes.length - 1)
        let nodes2 ← relinkNextC fixed m1.nodes l1.next i
        let e ← readC nodes2 i
        let l2 ← readC nodes2 (m.nodes.length - 1)
        let nodes3 ← writeC nodes2 i l2
        let nodes4 ← writeC nodes3 (m.nodes.length - 1) e
        dropC (⟨m1.buckets, nodes4⟩ : UMap K V)) = .ok m' := by
      intro m1 hlen ⟨n, g1, g2, g3⟩ gl g
      obtain ⟨x, k1, g⟩ := Res.bind_eq_ok.1 g
      obtain ⟨n2, k2, g⟩ := Res.bind_eq_ok.1 g
      obtain ⟨e, k3, g⟩ := Res.bind_eq_ok.1 g
      obtain ⟨y, k4, g⟩ := Res.bind_eq_ok.1 g
      obtain ⟨n3, k5, g⟩ := Res.bind_eq_ok.1 g
      obtain ⟨n4, k6, gfin⟩ := Res.bind_eq_ok.1 g
      have hxx : m1.nodes[m.nodes.length - 1]? = some x := by
        unfold readAt at k1
        split at k1
        · rename_i a ha
          simp at k1
          rw [ha, k1]
        · simp at k1
      have r2 : relinkNextC fixed m1.nodes x.next i = .ok n2 ∧ n2.length = m1.nodes.length ∧ n2[i]? = some n := by
        cases fixed with
        | false =>
          simp only [relinkNext, Res.ok.injEq] at k2
          subst k2
          exact ⟨rfl, rfl, g1⟩
        | true =>
          cases hx : x.next with
          | none =>
            rw [hx] at k2
            simp only [relinkNext, Res.ok.injEq] at k2
            subst k2
            exact ⟨rfl, rfl, g1⟩
          | some q =>
            rw [hx] at k2
            have hq : i ≠ q := fun h => gl x hxx (by rw [hx, h])
            refine ⟨modifyC_of_ok k2, ?_, ?_⟩
            · have := modifyAt_ok (List.getElem?_eq_getElem (lt_of_modifyAt k2)) (fun n : UNode K V => { n with prev := some i })
              rw [relinkNext, this] at k2
              simp only [Res.ok.injEq] at k2
              rw [← k2]
              simp
            · rw [modifyAt_get k2, if_neg hq, g1]
      obtain ⟨r2, r3, r4⟩ := r2
      rw [readAt_ok r4] at k3
      simp only [Res.ok.injEq] at k3
      subst k3
      have e3 := writeAt_get k5
      have e4 := writeAt_get k6
      have hn4 : n4[n4.length - 1]? = some n := by
        subst e4 e3
        simp only [List.length_set, r3, hlen]
        rw [List.getElem?_set]
        simp [r3, hlen]
        omega
      simp only [readC_of_ok k1, Res.bind_ok, r2, readC_of_ok (readAt_ok r4), readC_of_ok k4, writeC_of_ok k5, writeC_of_ok k6]
      rw [dropC_of (m := ⟨m1.buckets, n4⟩) hn4 g2 g3]
      exact gfin
    simp only [readC_of_ok h1, Res.bind_ok]
    cases hp : l.prev with
    | none =>
      rw [hp] at h
      obtain ⟨bs, h2, h⟩ := Res.bind_eq_ok.1 h
      have hb : IdxLt l.bucket m.buckets.length ∧ setBucketC m.buckets l.bucket (some i) = .ok bs := by
        cases hb : l.bucket with
        | none => rw [hb] at h2; simp [setBucket] at h2
        | some b =>
          rw [hb] at h2
          exact ⟨lt_of_writeAt h2, writeC_of_ok h2⟩
      simp only [assertThat_pos hb.1, hb.2, Res.bind_ok]
      have t := tail ⟨bs, m.nodes⟩ rfl ⟨n, hn, hn1, hn2⟩ (fun l' hl' => by
        rw [hll] at hl'
        cases hl'
        exact l2) h
      simpa only [readC_of_ok h1, Res.bind_ok] using t
    | some p =>
      rw [hp] at h
      obtain ⟨n1, h2, h⟩ := Res.bind_eq_ok.1 h
      have hpi : i ≠ p := fun h => l1 (by rw [hp, h])
      have hlen : n1.length = m.nodes.length := by
        have := modifyAt_ok (List.getElem?_eq_getElem (lt_of_modifyAt h2)) (fun n : UNode K V => { n with next := some i })
        rw [this] at h2
        simp only [Res.ok.injEq] at h2
        rw [← h2]
        simp
      simp only [assertThat_pos (lt_of_modifyAt h2), modifyC_of_ok h2, Res.bind_ok]
      have t := tail ⟨m.buckets, n1⟩ hlen ⟨n, by rw [modifyAt_get h2, if_neg hpi, hn], hn1, hn2⟩ ?_ h
      · exact t
      · intro l' hl'
        have hpl : m.nodes.length - 1 ≠ p := fun h => l3 (by rw [hp, h])
        simp only [modifyAt_get h2, if_neg hpl, hll] at hl'
        cases hl'
        exact l2
  · rw [if_neg hne] at h ⊢
    simp only [Decidable.not_not] at hne
    rw [hne] at hn
    rw [dropC_of hn hn1 hn2]
    exact h

theorem eraseC_of_ok {fixed : Bool} (h : eraseWith hash fixed m k = .ok m')
    (hh : ∀ i e, findIndex hash m k = .ok (some i) → m.nodes[i]? = some e → HeadOk m i e)
    (hl : ∀ i m1, findIndex hash m k = .ok (some i) → unlink m i = .ok m1 → i ≠ m1.nodes.length - 1 →
      ∀ l, m1.nodes[m1.nodes.length - 1]? = some l → l.prev ≠ some i ∧ l.next ≠ some i ∧ l.prev ≠ some (m1.nodes.length - 1)) :
    eraseC hash fixed m k = .ok m' := by
  obtain ⟨o, h1, h⟩ := Res.bind_eq_ok.1 h
  simp only [eraseC, findIndexC_of_ok h1, Res.bind_ok]
  cases o with
  | none => exact h
  | some i =>
    obtain ⟨m1, h2, h3⟩ := Res.bind_eq_ok.1 h
    simp only [unlinkC_of_ok h2 (fun e he => hh i e h1 he), Res.bind_ok]
    exact fillHoleC_of_ok h3 (unlink_clean h2) (hl i m1 h1 h2)

/-- The assertions of `erase` hold if no stale link is read. -/
theorem eraseC_rel (h : MRel (fun _ => False) m m') (w : WF hash m') (hok : RemovalOk hash m k) {r : UMap K V}
    (hr : eraseWith hash false m k = .ok r) : eraseC hash false m k = .ok r := by
  refine eraseC_of_ok hr ?_ ?_
  · intro i e hf he
    obtain ⟨e', he', r⟩ := h.nodes.some' he
    have hi := (List.getElem?_eq_some_iff.1 he').1
    have hb := w.bucket i e' hi he'
    have hp : e.prev = none ↔ e'.prev = none := by
      rcases r.prev with h | ⟨_, x, y, h1, h2, _⟩
      · rw [h]
      · simp [h1, h2]
    have hlt : hash e'.key % m'.buckets.length < m'.buckets.length := Nat.mod_lt _ w.nb
    refine ⟨_, by rw [r.bucket, hb], m'.buckets[hash e'.key % m'.buckets.length], by rw [h.buckets]; simp [hlt], ?_⟩
    rw [hp]
    constructor
    · intro hx
      exact ((w.head _ i (by rw [List.getElem?_eq_getElem hlt, hx])).2 e' he').1
    · intro hx
      have := w.first i e' hi he' hx
      rw [List.getElem?_eq_getElem hlt] at this
      exact Option.some.inj this
  · intro i m1 hf hu hne l hl
    rw [findIndex_rel h] at hf
    obtain ⟨o, ho, nd, h2, h3⟩ : ∃ o, o = some i ∧ ∃ nd, m'.nodes[i]? = some nd ∧ nd.key = k := by
      rcases findIndex_spec w k with ⟨i', nd, h1, h2, h3⟩ | ⟨h1, _⟩
      · rw [h1] at hf
        cases hf
        exact ⟨_, rfl, nd, h2, h3⟩
      · rw [h1] at hf
        simp at hf
    obtain ⟨nd0, h20, r0⟩ := h.nodes.some h2
    obtain ⟨k1, k2⟩ := hok i nd0 (by rw [findIndex_rel h, hf]) h20
    obtain ⟨m1', u1, u2, u3, u4, u5⟩ := unlink_spec w h2
    have w1 := unlink_wf w h2 u2 u3 u4 u5
    have hur := unlink_rel (h.right w) k1 (E' := fun j => LinkRight m j ∨ ∃ e, m'.nodes[i]? = some e ∧ e.next = some j) (fun j hj => hj)
    rw [u1, hu] at hur
    cases hur with
    | ok hr1 =>
      have hlen : m1.nodes.length = m'.nodes.length := by rw [hr1.nodes.len, u2]
      rw [hlen] at hne hl ⊢
      obtain ⟨l', hl', rl⟩ := hr1.nodes.some' hl
      have hi := (List.getElem?_eq_some_iff.1 h2).1
      have hS : m'.nodes.length - 1 < m'.nodes.length ∧ m'.nodes.length - 1 ≠ i := by omega
      have hex : LinkRight m (m'.nodes.length - 1) ∨ ∃ e, m'.nodes[i]? = some e ∧ e.next = some (m'.nodes.length - 1) := by
        rw [h.nodes.len] at k2
        rcases k2 with k2 | k2 | k2
        · exact absurd k2 hne
        · exact .inr ⟨nd, h2, by rw [← r0.next]; exact k2⟩
        · exact .inl k2
      have hpe := rl.prev_eq hex
      obtain ⟨f1, f2⟩ := rank_facts w1 hS hl'
      refine ⟨?_, ?_, ?_⟩
      · rw [hpe]
        intro hp
        exact (w1.prev _ i l' hS hl' hp).1.2 rfl
      · rw [rl.next]
        intro hx
        exact (w1.next _ i l' hS hl' hx).1.2 rfl
      · rw [hpe]
        exact fun hp => (f1 _ hp).1 rfl

/-- The assertions of the repaired `erase` hold. -/
theorem eraseC_repaired (w : WF hash m) {r : UMap K V} (hr : eraseWith hash true m k = .ok r) : eraseC hash true m k = .ok r := by
  refine eraseC_of_ok hr ?_ ?_
  · intro i e hf he
    have hi := (List.getElem?_eq_some_iff.1 he).1
    have hlt : hash e.key % m.buckets.length < m.buckets.length := Nat.mod_lt _ w.nb
    refine ⟨_, w.bucket i e hi he, m.buckets[hash e.key % m.buckets.length], by simp [hlt], ?_, ?_⟩
    · intro hx
      exact ((w.head _ i (by rw [List.getElem?_eq_getElem hlt, hx])).2 e he).1
    · intro hx
      have := w.first i e hi he hx
      rw [List.getElem?_eq_getElem hlt] at this
      exact Option.some.inj this
  · intro i m1 hf hu hne l hl
    obtain ⟨nd, h2⟩ : ∃ nd, m.nodes[i]? = some nd := by
      rcases findIndex_spec w k with ⟨i', nd, h1, h2, h3⟩ | ⟨h1, _⟩
      · rw [h1] at hf
        cases hf
        exact ⟨nd, h2⟩
      · rw [h1] at hf
        simp at hf
    obtain ⟨m1', u1, u2, u3, u4, u5⟩ := unlink_spec w h2
    have w1 := unlink_wf w h2 u2 u3 u4 u5
    rw [hu] at u1
    cases u1
    rw [u2] at hne hl ⊢
    have hi := (List.getElem?_eq_some_iff.1 h2).1
    have hS : m.nodes.length - 1 < m.nodes.length ∧ m.nodes.length - 1 ≠ i := by omega
    obtain ⟨f1, f2⟩ := rank_facts w1 hS hl
    exact ⟨fun hp => (w1.prev _ i l hS hl hp).1.2 rfl, fun hx => (w1.next _ i l hS hl hx).1.2 rfl, fun hp => (f1 _ hp).1 rfl⟩

/-! ## Histories -/

/-- An operation on the map with assertions. -/
def applyOpC (fixed : Bool) (hash : K → Nat) (exceeds : Nat → Nat → Bool) (m : UMap K V) : DictOp K V → Res (UMap K V)
  | .put k v => insertOrAssignC hash exceeds m k v
  | .erase k => eraseC hash fixed m k
  | .clear => .ok (clear m)

/-- A history on the map with assertions. -/
def runOpsC (fixed : Bool) (hash : K → Nat) (exceeds : Nat → Nat → Bool) : UMap K V → List (DictOp K V) → Res (UMap K V)
  | m, [] => .ok m
  | m, op :: ops => do
    let m' ← applyOpC fixed hash exceeds m op
    runOpsC fixed hash exceeds m' ops

theorem stops_apply {fixed : Bool} {exceeds : Nat → Nat → Bool} (op : DictOp K V) :
    Stops (applyOpC fixed hash exceeds m op) (applyOp fixed hash exceeds m op) := by
  cases op with
  | put k v => exact stops_put exceeds v
  | erase k => exact stops_erase
  | clear => exact .refl _

theorem stops_run {fixed : Bool} {exceeds : Nat → Nat → Bool} (ops : List (DictOp K V)) : ∀ m : UMap K V,
    Stops (runOpsC fixed hash exceeds m ops) (runOps fixed hash exceeds m ops) := by
  induction ops with
  | nil => exact fun m => .refl _
  | cons op ops ih => exact fun m => Stops.bind (stops_apply op) (fun m' => ih m')

theorem apply_buckets_pos {fixed : Bool} {exceeds : Nat → Nat → Bool} (hex : ∀ b, 0 < b → exceeds 1 b = false)
    (hB : 0 < m.buckets.length) {op : DictOp K V} (h : applyOp fixed hash exceeds m op = .ok m') : 0 < m'.buckets.length := by
  cases op with
  | put k v =>
    rcases put_size h with ⟨_, a⟩ | ⟨_, ⟨_, a⟩ | ⟨he, a⟩⟩
    · omega
    · omega
    · rcases Nat.eq_zero_or_pos m.nodes.length with h0 | h0
      · rw [h0, hex _ hB] at he
        simp at he
      · omega
  | erase k => rw [(erase_size h).1]; exact hB
  | clear =>
    cases h
    simpa [clear] using hB

theorem run_buckets_pos {fixed : Bool} {exceeds : Nat → Nat → Bool} (hex : ∀ b, 0 < b → exceeds 1 b = false) (ops : List (DictOp K V)) :
    ∀ m : UMap K V, 0 < m.buckets.length → runOps fixed hash exceeds m ops = .ok m' → 0 < m'.buckets.length := by
  induction ops with
  | nil => intro m hB h; cases h; exact hB
  | cons op ops ih =>
    intro m hB h
    obtain ⟨m1, h1, h2⟩ := Res.bind_eq_ok.1 h
    exact ih m1 (apply_buckets_pos hex hB h1) h2

theorem contained_run {fixed : Bool} {exceeds : Nat → Nat → Bool} (hex : ∀ b, 0 < b → exceeds 1 b = false) (ops : List (DictOp K V)) :
    ∀ m : UMap K V, 0 < m.buckets.length → Contained (runOpsC fixed hash exceeds m ops) := by
  induction ops with
  | nil => exact fun m _ => .ok
  | cons op ops ih =>
    refine fun m hB => Contained.bind ?_ (fun m' h' => ih m' (apply_buckets_pos hex hB ((stops_apply op).of_ok h')))
    cases op with
    | put k v => exact contained_put hex hB v
    | erase k => exact contained_erase hB
    | clear => exact .ok

theorem runC_rel {exceeds : Nat → Nat → Bool} (hex : ∀ b, 0 < b → exceeds 1 b = false) {ph : Phase}
    (h : MRel (fun _ => False) m m') (g : Good hash ph m') {d : K → Option V} (hd : Lists m'.entries d) (ops : List (DictOp K V))
    (hok : LinksOk hash exceeds m ops) : runOpsC false hash exceeds m ops = runOps false hash exceeds m ops := by
  induction ops generalizing m m' ph d with
  | nil => rfl
  | cons op ops ih =>
    obtain ⟨m1', s1, s2, s3⟩ := step_spec hex (fixed := true) g hd.1 op (.inl rfl)
    have hr : RRel (MRel (fun _ => False)) (applyOp false hash exceeds m op) (applyOp true hash exceeds m' op) := by
      cases op with
      | put k v => exact insertOrAssign_rel h k v
      | erase k => exact erase_rel h g.wf (hok.1 k rfl)
      | clear =>
        refine .ok ⟨by simp [clear, h.buckets], ⟨rfl, ?_⟩⟩
        intro j a b ha
        simp [clear] at ha
    rw [s1] at hr
    obtain ⟨m1, t1, t2⟩ := hr.of_ok
    have hc : applyOpC false hash exceeds m op = .ok m1 := by
      cases op with
      | put k v => exact putC_of_ok t1
      | erase k => exact eraseC_rel h g.wf (hok.1 k rfl) t1
      | clear => exact t1
    simp only [runOpsC, runOps, hc, t1, Res.bind_ok]
    exact ih t2 s2 (d := dictStep d op) (by rw [s3]; exact lists_step hd op) (hok.2 m1 t1)

theorem runC_repaired {exceeds : Nat → Nat → Bool} (hex : ∀ b, 0 < b → exceeds 1 b = false) {ph : Phase}
    (g : Good hash ph m) {d : K → Option V} (hd : Lists m.entries d) (ops : List (DictOp K V)) :
    runOpsC true hash exceeds m ops = runOps true hash exceeds m ops := by
  induction ops generalizing m ph d with
  | nil => rfl
  | cons op ops ih =>
    obtain ⟨m1, s1, s2, s3⟩ := step_spec hex (fixed := true) g hd.1 op (.inl rfl)
    have hc : applyOpC true hash exceeds m op = .ok m1 := by
      cases op with
      | put k v => exact putC_of_ok s1
      | erase k => exact eraseC_repaired g.wf s1
      | clear => exact s1
    simp only [runOpsC, runOps, hc, s1, Res.bind_ok]
    exact ih s2 (d := dictStep d op) (by rw [s3]; exact lists_step hd op)

end UMap
end Coil
