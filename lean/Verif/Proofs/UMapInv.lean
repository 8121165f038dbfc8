import Verif.Model.UMap

/-!
# The chain invariant of `UnorderedMap` and what look-ups do under it
-/

namespace Coil
namespace UMap

variable {K V : Type}

/-- The indices in `S` are linked properly: the head of each bucket, the links in both directions, no cycles. -/
structure WFs (hash : K → Nat) (S : Nat → Prop) (m : UMap K V) : Prop where
  nb : 0 < m.buckets.length
  lt : ∀ i, S i → i < m.nodes.length
  bucket : ∀ i nd, S i → m.nodes[i]? = some nd → nd.bucket = some (hash nd.key % m.buckets.length)
  head : ∀ b i, m.buckets[b]? = some (some i) → S i ∧
    ∀ nd, m.nodes[i]? = some nd → nd.prev = none ∧ hash nd.key % m.buckets.length = b
  next : ∀ i j nd, S i → m.nodes[i]? = some nd → nd.next = some j → S j ∧
    ∀ nj, m.nodes[j]? = some nj → nj.prev = some i ∧
      hash nj.key % m.buckets.length = hash nd.key % m.buckets.length
  prev : ∀ i j nd, S i → m.nodes[i]? = some nd → nd.prev = some j → S j ∧
    ∀ nj, m.nodes[j]? = some nj → nj.next = some i
  first : ∀ i nd, S i → m.nodes[i]? = some nd → nd.prev = none →
    m.buckets[hash nd.key % m.buckets.length]? = some (some i)
  rank : ∃ r : Nat → Nat, ∀ i j nd, S i → m.nodes[i]? = some nd → nd.next = some j → r i < r j

/-- All nodes are linked properly. -/
abbrev WF (hash : K → Nat) (m : UMap K V) : Prop := WFs hash (· < m.nodes.length) m

/-- No key occurs twice. -/
def KeysNodup (m : UMap K V) : Prop :=
  ∀ (i j : Nat) (ni nj : UNode K V), m.nodes[i]? = some ni → m.nodes[j]? = some nj → ni.key = nj.key → i = j

/-! ## Walks -/

theorem countP_lt {α : Type} {p q : α → Bool} {l : List α} {a : α} (h : ∀ x ∈ l, q x = true → p x = true)
    (ha : a ∈ l) (hp : p a = true) (hq : q a = false) : l.countP q < l.countP p := by
  induction l with
  | nil => simp at ha
  | cons b l ih =>
    have hmono : l.countP q ≤ l.countP p := List.countP_mono_left (fun x hx => h x (by simp [hx]))
    rcases List.mem_cons.1 ha with rfl | ha
    · simp [hp, hq]
      omega
    · have := ih (fun x hx => h x (by simp [hx])) ha
      simp only [List.countP_cons]
      have hb := h b (by simp)
      cases hq' : q b
      · simp; omega
      · simp [hb hq']; omega

/-- How many nodes are not before `i`. -/
def ahead (r : Nat → Nat) (n i : Nat) : Nat := (List.range n).countP (fun x => decide (r i ≤ r x))

theorem ahead_lt {r : Nat → Nat} {n i j : Nat} (hi : i < n) (h : r i < r j) : ahead r n j < ahead r n i := by
  refine countP_lt (a := i) ?_ (by simpa using hi) (by simp) (by simpa using h)
  intro x _ hx
  simp at hx ⊢
  omega

theorem ahead_le (r : Nat → Nat) (n i : Nat) : ahead r n i ≤ n := by
  have := List.countP_le_length (p := fun x => decide (r i ≤ r x)) (l := List.range n)
  simpa [ahead] using this

theorem ahead_pos {r : Nat → Nat} {n i : Nat} (hi : i < n) : 0 < ahead r n i :=
  List.countP_pos_iff.2 ⟨i, by simpa using hi, by simp⟩

/-- Following `next` links. -/
inductive Reach (nodes : List (UNode K V)) : Nat → Nat → Prop
  | refl (i : Nat) : Reach nodes i i
  | step {i j l : Nat} {nd : UNode K V} : nodes[i]? = some nd → nd.next = some j → Reach nodes j l → Reach nodes i l

theorem Reach.snoc {nodes : List (UNode K V)} {i j l : Nat} {nd : UNode K V} (h : Reach nodes i j)
    (h1 : nodes[j]? = some nd) (h2 : nd.next = some l) : Reach nodes i l := by
  induction h with
  | refl i => exact .step h1 h2 (.refl _)
  | step g1 g2 _ ih => exact .step g1 g2 (ih h1)

theorem WFs.get {hash : K → Nat} {S : Nat → Prop} {m : UMap K V} (w : WFs hash S m) {i : Nat} (h : S i) :
    ∃ nd, m.nodes[i]? = some nd := ⟨m.nodes[i]'(w.lt i h), by simp [w.lt i h]⟩

/-- Every node can be reached from the head of its bucket. -/
theorem WFs.reach {hash : K → Nat} {S : Nat → Prop} {m : UMap K V} (w : WFs hash S m) {i : Nat} {nd : UNode K V}
    (hi : S i) (hn : m.nodes[i]? = some nd) :
    ∃ f, m.buckets[hash nd.key % m.buckets.length]? = some (some f) ∧ Reach m.nodes f i := by
  obtain ⟨r, hr⟩ := w.rank
  induction hk : r i using Nat.strongRecOn generalizing i nd with
  | _ k ih =>
    cases hp : nd.prev with
    | none => exact ⟨i, w.first i nd hi hn hp, .refl i⟩
    | some j =>
      obtain ⟨hj, hj2⟩ := w.prev i j nd hi hn hp
      obtain ⟨nj, hnj⟩ := w.get hj
      have hnext := hj2 nj hnj
      obtain ⟨_, h4⟩ := w.next j i nj hj hnj hnext
      have hb := (h4 nd hn).2
      obtain ⟨f, hf, hreach⟩ := ih (r j) (by rw [← hk]; exact hr j i nj hj hnj hnext) hj hnj rfl
      exact ⟨f, by rw [hb]; exact hf, hreach.snoc hnj hnext⟩

variable [DecidableEq K]

theorem findLoop_sound {nodes : List (UNode K V)} {k : K} {fuel : Nat} {s : Option Nat} {i : Nat}
    (h : findLoop nodes k fuel s = .ok (some i)) : ∃ nd, nodes[i]? = some nd ∧ nd.key = k := by
  induction fuel generalizing s with
  | zero => cases s <;> simp [findLoop] at h
  | succ fuel ih =>
    cases s with
    | none => simp [findLoop] at h
    | some j =>
      simp only [findLoop] at h
      obtain ⟨nd, h1, h2⟩ := Res.bind_eq_ok.1 h
      split at h2
      · rename_i hk
        simp at h2
        subst h2
        refine ⟨nd, ?_, hk⟩
        unfold readAt at h1
        split at h1 <;> simp at h1
        subst h1
        assumption
      · exact ih h2

theorem findLoop_total {hash : K → Nat} {S : Nat → Prop} {m : UMap K V} (w : WFs hash S m) {k : K}
    {r : Nat → Nat} (hr : ∀ i j nd, S i → m.nodes[i]? = some nd → nd.next = some j → r i < r j)
    {fuel : Nat} {i : Nat} (hi : S i) (hf : ahead r m.nodes.length i ≤ fuel) :
    ∃ o, findLoop m.nodes k fuel (some i) = .ok o ∧
      (o = none → ∀ j nj, Reach m.nodes i j → m.nodes[j]? = some nj → nj.key ≠ k) := by
  induction fuel generalizing i with
  | zero => exact absurd (ahead_pos (r := r) (w.lt i hi)) (by omega)
  | succ fuel ih =>
    obtain ⟨nd, hn⟩ := w.get hi
    have hread : readAt m.nodes i = .ok nd := by simp [readAt, hn]
    simp only [findLoop, hread, Res.bind_ok]
    split
    · exact ⟨_, rfl, by simp⟩
    · rename_i hk
      cases hx : nd.next with
      | none =>
        refine ⟨none, by cases fuel <;> rfl, ?_⟩
        intro _ j nj hreach hnj
        cases hreach with
        | refl =>
          rw [hn] at hnj
          simp at hnj
          exact hnj ▸ hk
        | step h1 h2 _ =>
          rw [hn] at h1
          simp at h1
          subst h1
          rw [hx] at h2
          simp at h2
      | some j =>
        obtain ⟨hj, _⟩ := w.next i j nd hi hn hx
        have hlt := ahead_lt (w.lt i hi) (hr i j nd hi hn hx)
        obtain ⟨o, ho, ho2⟩ := ih hj (by omega)
        refine ⟨o, ho, ?_⟩
        intro hnone l nl hreach hnl
        cases hreach with
        | refl =>
          rw [hn] at hnl
          simp at hnl
          exact hnl ▸ hk
        | step h1 h2 h3 =>
          rw [hn] at h1
          simp at h1
          subst h1
          rw [hx] at h2
          simp at h2
          subst h2
          exact ho2 hnone l nl h3 hnl

/-- Look-ups terminate, stay in bounds and are right. -/
theorem findIndex_spec {hash : K → Nat} {m : UMap K V} (w : WF hash m) (k : K) :
    (∃ i nd, findIndex hash m k = .ok (some i) ∧ m.nodes[i]? = some nd ∧ nd.key = k) ∨
    (findIndex hash m k = .ok none ∧ ∀ (i : Nat) (nd : UNode K V), m.nodes[i]? = some nd → nd.key ≠ k) := by
  have hB := w.nb
  have hb : bucketOf hash m k = .ok (hash k % m.buckets.length) := by
    unfold bucketOf
    rw [if_neg (by omega)]
  have hlt : hash k % m.buckets.length < m.buckets.length := Nat.mod_lt _ hB
  unfold findIndex
  simp only [hb, Res.bind_ok, readAt_of_lt hlt]
  cases hf : m.buckets[hash k % m.buckets.length] with
  | none =>
    refine .inr ⟨rfl, ?_⟩
    intro i nd hn hk
    have hi : i < m.nodes.length := (List.getElem?_eq_some_iff.1 hn).1
    obtain ⟨f, hf', _⟩ := w.reach hi hn
    rw [hk] at hf'
    rw [List.getElem?_eq_getElem hlt, hf] at hf'
    simp at hf'
  | some f =>
    have hf' : m.buckets[hash k % m.buckets.length]? = some (some f) := by
      rw [List.getElem?_eq_getElem hlt, hf]
    obtain ⟨hS, _⟩ := w.head _ _ hf'
    obtain ⟨r, hr⟩ := w.rank
    obtain ⟨o, ho, hnone⟩ := findLoop_total w (k := k) hr hS
      (fuel := m.nodes.length + 1) (by have := ahead_le r m.nodes.length f; omega)
    cases o with
    | none =>
      refine .inr ⟨ho, ?_⟩
      intro i nd hn hk
      have hi : i < m.nodes.length := (List.getElem?_eq_some_iff.1 hn).1
      obtain ⟨f', hf'', hreach⟩ := w.reach hi hn
      rw [hk, hf'] at hf''
      simp at hf''
      subst hf''
      exact hnone rfl i nd hreach hn hk
    | some i =>
      obtain ⟨nd, h1, h2⟩ := findLoop_sound ho
      exact .inl ⟨i, nd, ho, h1, h2⟩

end UMap
end Coil
