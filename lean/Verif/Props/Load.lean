import Verif.Proofs.UMapLoad
import Verif.Props.UMap

/-!
# The load factor (C60)
-/

namespace Coil
open Spec UMap

variable {K V : Type} [DecidableEq K]

/-- What the comparison `1.0f * n / b > maxLoadFactor` has to satisfy: fewer entries do not exceed if more do not, one entry never does,
and `n + 1` entries in `2 n` buckets do not. -/
structure Sensible (exceeds : Nat → Nat → Bool) : Prop where
  mono : ∀ n n' b, n' ≤ n → exceeds n b = false → exceeds n' b = false
  one : ∀ b, 0 < b → exceeds 1 b = false
  double : ∀ n, 0 < n → exceeds (n + 1) (n * 2) = false

/-- The exact comparison with a maximal load factor `p / q`. -/
def overRatio (p q n b : Nat) : Bool := decide (p * b < n * q)

theorem sensible_ratio {p q : Nat} (h : q ≤ p) : Sensible (overRatio p q) := by
  refine ⟨?_, ?_, ?_⟩
  · intro n n' b hn he
    simp only [overRatio, decide_eq_false_iff_not, Nat.not_lt] at he ⊢
    exact Nat.le_trans (Nat.mul_le_mul_right q hn) he
  · intro b hb
    simp only [overRatio, decide_eq_false_iff_not, Nat.not_lt, Nat.one_mul]
    exact Nat.le_trans h (Nat.le_mul_of_pos_right p hb)
  · intro n hn
    simp only [overRatio, decide_eq_false_iff_not, Nat.not_lt]
    calc (n + 1) * q ≤ (n * 2) * p := Nat.mul_le_mul (by omega) h
      _ = p * (n * 2) := Nat.mul_comm _ _

theorem load_run {fixed : Bool} {hash : K → Nat} {exceeds : Nat → Nat → Bool} (hs : Sensible exceeds) {m m' : UMap K V}
    (ops : List (DictOp K V)) (hb : 0 < m.buckets.length) (hl : exceeds m.nodes.length m.buckets.length = false)
    (h : runOps fixed hash exceeds m ops = .ok m') :
    0 < m'.buckets.length ∧ exceeds m'.nodes.length m'.buckets.length = false := by
  induction ops generalizing m with
  | nil => cases h; exact ⟨hb, hl⟩
  | cons op ops ih =>
    obtain ⟨m1, h1, h2⟩ := Res.bind_eq_ok.1 h
    suffices h3 : 0 < m1.buckets.length ∧ exceeds m1.nodes.length m1.buckets.length = false from ih h3.1 h3.2 h2
    cases op with
    | put k v =>
      rcases put_size h1 with ⟨a1, a2⟩ | ⟨a1, ⟨a2, a3⟩ | ⟨a2, a3⟩⟩
      · rw [a1, a2]; exact ⟨hb, hl⟩
      · rw [a1, a3]; exact ⟨hb, a2⟩
      · rw [a1, a3]
        rcases Nat.eq_zero_or_pos m.nodes.length with h0 | h0
        · rw [h0, hs.one _ hb] at a2
          simp at a2
        · exact ⟨by omega, hs.double _ h0⟩
    | erase k =>
      obtain ⟨a1, a2⟩ := erase_size h1
      rw [a1]
      exact ⟨hb, hs.mono _ _ _ a2 hl⟩
    | clear =>
      cases h1
      simp only [clear, List.length_map, List.length_nil]
      exact ⟨hb, hs.mono _ _ _ (Nat.zero_le _) (hs.one _ hb)⟩

/-- **C60.** After every history that is not cut short by undefined behaviour, of the map as it is or repaired, there is a bucket and the
entries do not exceed the load factor. -/
theorem C60_load_partial {fixed : Bool} {hash : K → Nat} {exceeds : Nat → Nat → Bool} (hs : Sensible exceeds) {buckets : Nat}
    (hb : 0 < buckets) (ops : List (DictOp K V)) {m : UMap K V} (h : mapAfter fixed hash exceeds buckets ops = .ok m) :
    0 < m.buckets.length ∧ exceeds m.size m.buckets.length = false := by
  obtain ⟨m0, h1, h2⟩ := Res.bind_eq_ok.1 h
  have hm0 : m0 = ⟨List.replicate buckets none, []⟩ := by
    simp only [create, rehash, List.length_nil, rehashLoop] at h1
    cases h1
    rfl
  subst hm0
  exact load_run hs ops (by simpa using hb) (by simpa using hs.mono _ _ _ (Nat.zero_le 1) (hs.one buckets hb)) h2

/-- **C60**, for a maximal load factor `p / q` that is at least 1: on average a bucket has at most `p / q` entries. -/
theorem C60_load_ratio_partial {fixed : Bool} {hash : K → Nat} {p q : Nat} (hpq : q ≤ p) {buckets : Nat}
    (hb : 0 < buckets) (ops : List (DictOp K V)) {m : UMap K V} (h : mapAfter fixed hash (overRatio p q) buckets ops = .ok m) :
    m.size * q ≤ p * m.buckets.length := by
  have := (C60_load_partial (sensible_ratio hpq) hb ops h).2
  simpa [overRatio] using this

/-- **C60, negation for load factors below 1.** If one entry exceeds the load factor, the first insertion resizes to no buckets and
divides by zero. -/
theorem C60_small_false {hash : K → Nat} {exceeds : Nat → Nat → Bool} {buckets : Nat} (hb : 0 < buckets)
    (he : exceeds 1 buckets = true) (fixed : Bool) (k : K) (v : V) (ops : List (DictOp K V)) :
    mapAfter fixed hash exceeds buckets (.put k v :: ops) = .ub .divByZero := by
  have hlt : hash k % buckets < buckets := Nat.mod_lt _ hb
  have hr : readAt (List.replicate buckets (none : Option Nat)) (hash k % buckets) = .ok none := by
    simp [readAt, hlt]
  have hne : buckets ≠ 0 := by omega
  simp only [mapAfter, create, rehash, rehashLoop, List.length_nil, Res.bind_ok, runOps, applyOp, insertOrAssign, findIndex, bucketOf,
    List.length_replicate, hne, if_false, hr, findLoop, growIfNeeded, Nat.zero_add, he, if_true, insertNode]
  rfl

/-- Load factor one half: two entries fit in 4 buckets ... -/
example : overRatio 1 2 2 4 = false := by decide
/-- ... but 1 bucket is not enough for the first. -/
example : overRatio 1 2 1 1 = true := by decide

/-- Growth of the default map. -/
example : (mapAfter false (djb2 true) (overRatio 1 1) 1 ([.put (lit "a") 1, .put (lit "b") 2, .put (lit "c") 3] : List (DictOp Bytes Nat)) >>=
    fun m => Res.ok (m.size, m.buckets.length)) = .ok (3, 4) := by decide +kernel

end Coil
