import Verif.Proofs.IndependentMaps

/-!
# The values do not matter

The operations of the hash map look at keys and links only: replacing all values by others commutes with every operation.
-/

namespace Coil
open Spec

/-- A node with another value. -/
def UNode.recast {K V V' : Type} (f : V → V') (n : UNode K V) : UNode K V' := ⟨n.key, f n.value, n.bucket, n.prev, n.next⟩

namespace UMap

section Plain
variable {K V V' : Type} {f : V → V'} {hash : K → Nat}

/-- A map with other values. -/
def recast (f : V → V') (m : UMap K V) : UMap K V' := ⟨m.buckets, m.nodes.map (UNode.recast f)⟩

/-- Another type of results. -/
def on {α β : Type} (f : α → β) (r : Res α) : Res β := r >>= fun x => .ok (f x)

@[simp] theorem on_ok {α β : Type} (f : α → β) (x : α) : on f (.ok x) = .ok (f x) := rfl
@[simp] theorem on_ub {α β : Type} (f : α → β) (u : UB) : on f (.ub u) = .ub u := rfl
@[simp] theorem on_diverge {α β : Type} (f : α → β) : on f .diverge = .diverge := rfl

theorem on_bind {α β γ δ : Type} {f : β → δ} {g : α → γ} {r : Res α} {k : α → Res β} {k' : γ → Res δ}
    (h : ∀ x, r = .ok x → on f (k x) = k' (g x)) : on f (r >>= k) = (on g r >>= k') := by
  cases r with
  | ok x => exact h x rfl
  | ub u => rfl
  | diverge => rfl

theorem on_same {α β δ : Type} {f : β → δ} {r : Res α} {k : α → Res β} {k' : α → Res δ} (h : ∀ x, r = .ok x → on f (k x) = k' x) :
    on f (r >>= k) = (r >>= k') := by
  cases r with
  | ok x => exact h x rfl
  | ub u => rfl
  | diverge => rfl

theorem read_recast (l : List (UNode K V)) (i : Nat) : readAt (l.map (UNode.recast f)) i = on (UNode.recast f) (readAt l i) := by
  unfold readAt
  rw [List.getElem?_map]
  cases l[i]? <;> rfl

theorem modify_recast (l : List (UNode K V)) (i : Nat) {p : UNode K V → UNode K V} {q : UNode K V' → UNode K V'}
    (h : ∀ n, (p n).recast f = q (n.recast f)) :
    modifyAt (l.map (UNode.recast f)) i q = on (List.map (UNode.recast f)) (modifyAt l i p) := by
  unfold modifyAt
  rw [List.getElem?_map]
  cases l[i]? with
  | none => rfl
  | some a => simp [List.map_set, h]

theorem write_recast (l : List (UNode K V)) (i : Nat) (a : UNode K V) :
    writeAt (l.map (UNode.recast f)) i (a.recast f) = on (List.map (UNode.recast f)) (writeAt l i a) := by
  unfold writeAt
  rw [List.length_map]
  split <;> simp [List.map_set]

theorem bucketOf_recast (m : UMap K V) (k : K) : bucketOf hash (m.recast f) k = bucketOf hash m k := rfl

end Plain

variable {K V V' : Type} [DecidableEq K] {f : V → V'} {hash : K → Nat}

theorem findLoop_recast (l : List (UNode K V)) (k : K) (fuel : Nat) (i : Option Nat) :
    findLoop (l.map (UNode.recast f)) k fuel i = findLoop l k fuel i := by
  induction fuel generalizing i with
  | zero => cases i <;> rfl
  | succ fuel ih =>
    cases i with
    | none => rfl
    | some i =>
      simp only [findLoop, read_recast]
      cases readAt l i with
      | ok nd =>
        simp only [on_ok, Res.bind_ok, ih]
        rfl
      | ub u => rfl
      | diverge => rfl

theorem findIndex_recast (m : UMap K V) (k : K) : findIndex hash (m.recast f) k = findIndex hash m k := by
  simp only [findIndex, bucketOf_recast]
  simp only [recast, findLoop_recast, List.length_map]

theorem find_recast (m : UMap K V) (k : K) : find hash (m.recast f) k = on (Option.map f) (find hash m k) := by
  simp only [find, findIndex_recast]
  symm
  refine on_same fun o _ => ?_
  cases o with
  | none => rfl
  | some i =>
    simp only [recast, read_recast]
    exact on_bind fun nd _ => rfl

omit [DecidableEq K] in
theorem insertLoop_recast (l : List (UNode K V)) (new fuel i : Nat) :
    insertLoop (l.map (UNode.recast f)) new fuel i = on (List.map (UNode.recast f)) (insertLoop l new fuel i) := by
  induction fuel generalizing i with
  | zero => rfl
  | succ fuel ih =>
    simp only [insertLoop, read_recast]
    symm
    refine on_bind fun nd _ => ?_
    cases h : nd.next with
    | none =>
      simp only [UNode.recast, h]
      rw [modify_recast l i (p := fun n => { n with next := some new }) (fun _ => rfl)]
      refine on_bind fun l1 _ => ?_
      rw [modify_recast l1 new (p := fun n => { n with prev := some i }) (fun _ => rfl)]
    | some j =>
      simp only [UNode.recast, h]
      exact (ih j).symm

omit [DecidableEq K] in
theorem insertNode_recast (m : UMap K V) (new : Nat) : insertNode hash (m.recast f) new = on (recast f) (insertNode hash m new) := by
  simp only [insertNode, recast, read_recast]
  symm
  refine on_bind fun nd _ => ?_
  refine on_same (r := bucketOf hash m nd.key) fun b _ => ?_
  rw [modify_recast m.nodes new (p := fun n => { n with bucket := some b, next := none, prev := none }) (fun _ => rfl)]
  refine on_bind fun l1 _ => ?_
  refine on_same fun first _ => ?_
  cases first with
  | none => exact on_same fun bs _ => rfl
  | some i =>
    simp only [insertLoop_recast, List.length_map]
    exact on_bind fun l2 _ => rfl

omit [DecidableEq K] in
theorem rehashLoop_recast (count i : Nat) (m : UMap K V) :
    rehashLoop hash count i (m.recast f) = on (recast f) (rehashLoop hash count i m) := by
  induction count generalizing i m with
  | zero => rfl
  | succ count ih =>
    simp only [rehashLoop, insertNode_recast]
    symm
    exact on_bind fun m' _ => (ih (i + 1) m').symm

omit [DecidableEq K] in
theorem rehash_recast (m : UMap K V) (n : Nat) : rehash hash (m.recast f) n = on (recast f) (rehash hash m n) := by
  have := rehashLoop_recast (f := f) (hash := hash) m.nodes.length 0 ⟨List.replicate n none, m.nodes⟩
  simpa [rehash, recast] using this

omit [DecidableEq K] in
theorem create_recast (n : Nat) : create hash n = on (recast f) (create hash n) := rehash_recast (f := f) ⟨[], []⟩ n

omit [DecidableEq K] in
theorem grow_recast (exceeds : Nat → Nat → Bool) (m : UMap K V) :
    growIfNeeded hash exceeds (m.recast f) = on (recast f) (growIfNeeded hash exceeds m) := by
  have e1 : (m.recast f).nodes.length = m.nodes.length := by simp [recast]
  have e2 : (m.recast f).buckets = m.buckets := rfl
  unfold growIfNeeded
  rw [e1, e2]
  split
  · exact rehash_recast m _
  · rfl

theorem put_recast (exceeds : Nat → Nat → Bool) (m : UMap K V) (k : K) (v : V) :
    insertOrAssign hash exceeds (m.recast f) k (f v) = on (recast f) (insertOrAssign hash exceeds m k v) := by
  simp only [insertOrAssign, findIndex_recast]
  symm
  refine on_same fun o _ => ?_
  cases o with
  | some i =>
    simp only [recast]
    rw [modify_recast m.nodes i (p := fun n => { n with value := v }) (fun _ => rfl)]
    exact on_bind fun l _ => rfl
  | none =>
    simp only [grow_recast]
    refine on_bind fun m1 _ => ?_
    have := insertNode_recast (f := f) (hash := hash) ⟨m1.buckets, m1.nodes ++ [⟨k, v, none, none, none⟩]⟩ m1.nodes.length
    rw [← this]
    simp [recast, UNode.recast]

/-- The second half of unlinking. -/
def unlinkRest (m1 : UMap K V) (i : Nat) : Res (UMap K V) := do
  let e1 ← readAt m1.nodes i
  let nodes2 ← match e1.next with
    | some q => modifyAt m1.nodes q (fun n => { n with prev := e1.prev })
    | none => Res.ok m1.nodes
  let nodes3 ← modifyAt nodes2 i (fun n => { n with prev := none, next := none })
  .ok ⟨m1.buckets, nodes3⟩

omit [DecidableEq K] in
theorem unlinkRest_recast (m : UMap K V) (i : Nat) : unlinkRest (m.recast f) i = on (recast f) (unlinkRest m i) := by
  simp only [unlinkRest, recast, read_recast]
  symm
  refine on_bind fun e _ => ?_
  cases h : e.next with
  | none =>
    simp only [UNode.recast, h, Res.bind_ok]
    rw [modify_recast m.nodes i (p := fun n => { n with prev := none, next := none }) (fun _ => rfl)]
    exact on_bind fun l3 _ => rfl
  | some q =>
    simp only [UNode.recast, h]
    rw [modify_recast m.nodes q (p := fun n => { n with prev := e.prev }) (fun _ => rfl)]
    refine on_bind fun l2 _ => ?_
    rw [modify_recast l2 i (p := fun n => { n with prev := none, next := none }) (fun _ => rfl)]
    exact on_bind fun l3 _ => rfl

omit [DecidableEq K] in
theorem unlink_rest (m : UMap K V) (i : Nat) : unlink m i = (do
    let e ← readAt m.nodes i
    match e.prev with
    | some p => do
      let nodes ← modifyAt m.nodes p (fun n => { n with next := e.next })
      unlinkRest ⟨m.buckets, nodes⟩ i
    | none => do
      let bs ← setBucket m.buckets e.bucket e.next
      unlinkRest ⟨bs, m.nodes⟩ i) := by
  unfold unlink unlinkRest
  cases readAt m.nodes i with
  | ok e =>
    simp only [Res.bind_ok]
    cases e.prev <;> rfl
  | ub u => rfl
  | diverge => rfl

omit [DecidableEq K] in
theorem unlink_recast (m : UMap K V) (i : Nat) : unlink (m.recast f) i = on (recast f) (unlink m i) := by
  simp only [unlink_rest]
  simp only [recast, read_recast]
  symm
  refine on_bind fun e _ => ?_
  cases h : e.prev with
  | some p =>
    simp only [UNode.recast, h]
    rw [modify_recast m.nodes p (p := fun n => { n with next := e.next }) (fun _ => rfl)]
    exact on_bind fun l _ => (unlinkRest_recast ⟨m.buckets, l⟩ i).symm
  | none =>
    simp only [UNode.recast, h]
    exact on_same fun bs _ => (unlinkRest_recast ⟨bs, m.nodes⟩ i).symm

omit [DecidableEq K] in
theorem relink_recast (fixed : Bool) (l : List (UNode K V)) (next : Option Nat) (i : Nat) :
    relinkNext fixed (l.map (UNode.recast f)) next i = on (List.map (UNode.recast f)) (relinkNext fixed l next i) := by
  cases fixed <;> cases next <;> simp only [relinkNext, on_ok]
  exact modify_recast l _ (p := fun n => { n with prev := some i }) (fun _ => rfl)

/-- The second half of filling the hole. -/
def fillRest (fixed : Bool) (m1 : UMap K V) (i last : Nat) : Res (UMap K V) := do
  let l1 ← readAt m1.nodes last
  let nodes2 ← relinkNext fixed m1.nodes l1.next i
  let e ← readAt nodes2 i
  let l2 ← readAt nodes2 last
  let nodes3 ← writeAt nodes2 i l2
  let nodes4 ← writeAt nodes3 last e
  .ok ⟨m1.buckets, nodes4.dropLast⟩

omit [DecidableEq K] in
theorem fillRest_recast (fixed : Bool) (m : UMap K V) (i last : Nat) :
    fillRest fixed (m.recast f) i last = on (recast f) (fillRest fixed m i last) := by
  simp only [fillRest, recast, read_recast]
  symm
  refine on_bind fun l1 _ => ?_
  simp only [show (l1.recast f).next = l1.next from rfl, relink_recast]
  refine on_bind fun n2 _ => ?_
  simp only [read_recast]
  refine on_bind fun e _ => ?_
  refine on_bind fun l2 _ => ?_
  simp only [write_recast]
  refine on_bind fun n3 _ => ?_
  simp only [write_recast]
  exact on_bind fun n4 _ => by simp [recast]

omit [DecidableEq K] in
theorem fillHole_rest (fixed : Bool) (m : UMap K V) (i : Nat) : fillHole fixed m i =
    if i ≠ m.nodes.length - 1 then do
      let l ← readAt m.nodes (m.nodes.length - 1)
      match l.prev with
      | some p => do
        let nodes ← modifyAt m.nodes p (fun n => { n with next := some i })
        fillRest fixed ⟨m.buckets, nodes⟩ i (m.nodes.length - 1)
      | none => do
        let bs ← setBucket m.buckets l.bucket (some i)
        fillRest fixed ⟨bs, m.nodes⟩ i (m.nodes.length - 1)
    else .ok ⟨m.buckets, m.nodes.dropLast⟩ := by
  unfold fillHole fillRest
  by_cases hi : i ≠ m.nodes.length - 1
  · rw [if_pos hi, if_pos hi]
    cases h : readAt m.nodes (m.nodes.length - 1) with
    | ok l =>
      simp only [h, Res.bind_ok]
      cases l.prev <;> rfl
    | ub u => simp only [h]; rfl
    | diverge => simp only [h]; rfl
  · rw [if_neg hi, if_neg hi]

omit [DecidableEq K] in
theorem fillHole_recast (fixed : Bool) (m : UMap K V) (i : Nat) : fillHole fixed (m.recast f) i = on (recast f) (fillHole fixed m i) := by
  simp only [fillHole_rest]
  simp only [recast, List.length_map, read_recast]
  split
  · symm
    refine on_bind fun l _ => ?_
    cases h : l.prev with
    | some p =>
      simp only [UNode.recast, h]
      rw [modify_recast m.nodes p (p := fun n => { n with next := some i }) (fun _ => rfl)]
      exact on_bind fun ns _ => (fillRest_recast fixed ⟨m.buckets, ns⟩ i _).symm
    | none =>
      simp only [UNode.recast, h]
      exact on_same fun bs _ => (fillRest_recast fixed ⟨bs, m.nodes⟩ i _).symm
  · simp [recast]

theorem erase_recast (fixed : Bool) (m : UMap K V) (k : K) : eraseWith hash fixed (m.recast f) k = on (recast f) (eraseWith hash fixed m k) := by
  simp only [eraseWith, findIndex_recast]
  symm
  refine on_same fun o _ => ?_
  cases o with
  | none => rfl
  | some i =>
    simp only [unlink_recast]
    exact on_bind fun m1 _ => (fillHole_recast fixed m1 i).symm

omit [DecidableEq K] in
theorem clear_recast (m : UMap K V) : clear (m.recast f) = (clear m).recast f := by simp [clear, recast]

/-- An operation with other values. -/
def recastOp (f : V → V') : DictOp K V → DictOp K V'
  | .put k v => .put k (f v)
  | .erase k => .erase k
  | .clear => .clear

theorem applyOp_recast (fixed : Bool) (exceeds : Nat → Nat → Bool) (m : UMap K V) (op : DictOp K V) :
    applyOp fixed hash exceeds (m.recast f) (recastOp f op) = on (recast f) (applyOp fixed hash exceeds m op) := by
  cases op with
  | put k v => exact put_recast exceeds m k v
  | erase k => exact erase_recast fixed m k
  | clear => simp [applyOp, recastOp, clear_recast]

theorem runOps_recast (fixed : Bool) (exceeds : Nat → Nat → Bool) (ops : List (DictOp K V)) (m : UMap K V) :
    runOps fixed hash exceeds (m.recast f) (ops.map (recastOp f)) = on (recast f) (runOps fixed hash exceeds m ops) := by
  induction ops generalizing m with
  | nil => rfl
  | cons op ops ih =>
    simp only [List.map_cons, runOps, applyOp_recast]
    symm
    exact on_bind fun m' _ => (ih m').symm

theorem mapAfter_recast (fixed : Bool) (exceeds : Nat → Nat → Bool) (n : Nat) (ops : List (DictOp K V)) :
    mapAfter fixed hash exceeds n (ops.map (recastOp f)) = on (recast f) (mapAfter fixed hash exceeds n ops) := by
  unfold mapAfter
  rw [create_recast (f := f)]
  symm
  exact on_bind fun m _ => (runOps_recast fixed exceeds ops m).symm

end UMap
end Coil
