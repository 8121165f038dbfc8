import Verif.Proofs.UMapRefine
import Verif.Proofs.UMapLoop

/-!
# Properties of the hash map (C24, C25)

`create hash n` followed by `runOps false` is the map as it is in the code; `runOps true` is the map with the one
missing line of `erase` added. `exceeds` is the load-factor comparison; all that is used of it is that one entry
never exceeds the load factor of a non-empty bucket array (maximal load factor at least 1).
-/

namespace Coil
open Spec UMap

variable {K V : Type} [DecidableEq K]

/-- A history on a new map. -/
def mapAfter (fixed : Bool) (hash : K → Nat) (exceeds : Nat → Nat → Bool) (buckets : Nat)
    (ops : List (DictOp K V)) : Res (UMap K V) := do
  let m ← create hash buckets
  runOps fixed hash exceeds m ops

/-- The default load factor 1.0 (UnorderedMap.h 118), for the examples. -/
def overOne (n b : Nat) : Bool := decide (b < n)

/-- The map of `Bindings` (Bindings.h 61) with numbers for commands, for the examples. -/
abbrev demoMap (fixed : Bool) (ops : List (DictOp Bytes Nat)) : Res (UMap Bytes Nat) :=
  mapAfter fixed (djb2 true) overOne 1 ops

/-- The map behaves like the dictionary of the history: look-ups, entries (each exactly once) and size. -/
def BehavesLike (hash : K → Nat) (m : UMap K V) (ops : List (DictOp K V)) : Prop :=
  (∀ k, find hash m k = .ok (dictAfter ops k)) ∧ Lists m.entries (dictAfter ops) ∧ m.size = m.entries.length

theorem mapAfter_spec {hash : K → Nat} {exceeds : Nat → Nat → Bool} (hex : ∀ b, 0 < b → exceeds 1 b = false)
    {buckets : Nat} (hb : 0 < buckets) {fixed : Bool} (ops : List (DictOp K V))
    (hok : fixed = true ∨ SafeFrom .calm [] ops) :
    ∃ m, mapAfter fixed hash exceeds buckets ops = .ok m ∧ WF hash m ∧ BehavesLike hash m ops ∧
      m.entries = orderAfter ops := by
  obtain ⟨m0, h1, h2, h3⟩ := create_spec (V := V) hash hb
  obtain ⟨m, ph, g1, g2, g3, g4⟩ := run_spec hex (fixed := fixed) h2 (d := fun _ => none)
    (by rw [h3]; exact lists_nil) ops (by rw [h3]; exact hok)
  refine ⟨m, ?_, g2.wf, ⟨fun k => find_spec g2.wf g4 k, g4, ?_⟩, ?_⟩
  · simp only [mapAfter, h1, Res.bind_ok, g1]
  · rw [entries_length]
    rfl
  · rw [g3, h3]
    rfl

/-! ## C24 -/

/-- **C24 (repaired code).** With the missing update of `prev` added to `erase`, every history behaves like a
dictionary, for every hash function. -/
theorem C24_dictionary_repaired_partial {hash : K → Nat} {exceeds : Nat → Nat → Bool}
    (hex : ∀ b, 0 < b → exceeds 1 b = false) {buckets : Nat} (hb : 0 < buckets) (ops : List (DictOp K V)) :
    ∃ m, mapAfter true hash exceeds buckets ops = .ok m ∧ BehavesLike hash m ops := by
  obtain ⟨m, h1, _, h2, _⟩ := mapAfter_spec hex hb (fixed := true) ops (.inl rfl)
  exact ⟨m, h1, h2⟩

/-- **C24 (code as it is).** Every history in which a new key is inserted or the map is cleared between any two
removals behaves like a dictionary. Missing for the full claim: the other histories, for which it is false. -/
theorem C24_dictionary_partial {hash : K → Nat} {exceeds : Nat → Nat → Bool}
    (hex : ∀ b, 0 < b → exceeds 1 b = false) {buckets : Nat} (hb : 0 < buckets) (ops : List (DictOp K V))
    (hs : Spaced false (fun _ => none) ops) :
    ∃ m, mapAfter false hash exceeds buckets ops = .ok m ∧ BehavesLike hash m ops := by
  obtain ⟨m, h1, _, h2, _⟩ := mapAfter_spec hex hb (fixed := false) (hash := hash) ops
    (.inr (safe_of_spaced lists_nil (by simp) ops hs))
  exact ⟨m, h1, h2⟩

/-- **C24 (code as it is), sharper.** It suffices that each removal of a present key is of the last entry in
iteration order or happens in a calm or armed state; and the iteration order is known. -/
theorem C24_dictionary_order_partial {hash : K → Nat} {exceeds : Nat → Nat → Bool}
    (hex : ∀ b, 0 < b → exceeds 1 b = false) {buckets : Nat} (hb : 0 < buckets) (ops : List (DictOp K V))
    (hs : SafeFrom .calm [] ops) :
    ∃ m, mapAfter false hash exceeds buckets ops = .ok m ∧ BehavesLike hash m ops ∧ m.entries = orderAfter ops := by
  obtain ⟨m, h1, _, h2, h3⟩ := mapAfter_spec hex hb (fixed := false) (hash := hash) ops (.inr hs)
  exact ⟨m, h1, h2, h3⟩

/-- A history without removals. -/
def NoErase (ops : List (DictOp K V)) : Prop := ∀ k, DictOp.erase k ∉ ops

/-- **C24 (code as it is).** Histories without removals behave like a dictionary. -/
theorem C24_dictionary_no_erase_partial {hash : K → Nat} {exceeds : Nat → Nat → Bool}
    (hex : ∀ b, 0 < b → exceeds 1 b = false) {buckets : Nat} (hb : 0 < buckets) (ops : List (DictOp K V))
    (hs : NoErase ops) : ∃ m, mapAfter false hash exceeds buckets ops = .ok m ∧ BehavesLike hash m ops := by
  refine C24_dictionary_partial hex hb ops ?_
  suffices h : ∀ (d : K → Option V), Spaced false d ops from h _
  induction ops with
  | nil => intro d; trivial
  | cons op ops ih =>
    intro d
    have hs' : NoErase ops := fun k hk => hs k (List.mem_cons_of_mem _ hk)
    cases op with
    | put k v => exact ih hs' _
    | erase k => exact absurd (List.mem_cons_self ..) (hs k)
    | clear => exact ih hs' _

/-- **C24 is false of the code.** Commands `a`, `d`, `h`, `l` are added, `d` and `a` removed, `p` and `a` added and
`l` removed, all without undefined behaviour: then `p` is not found although it was added and never removed. -/
theorem C24_dictionary_false :
    ∃ m, demoMap false [.put (lit "a") 1, .put (lit "d") 2, .put (lit "h") 3, .put (lit "l") 4,
        .erase (lit "d"), .erase (lit "a"), .put (lit "p") 5, .put (lit "a") 6, .erase (lit "l")] = .ok m ∧
      find (djb2 true) m (lit "p") = .ok none ∧
      dictAfter [.put (lit "a") 1, .put (lit "d") 2, .put (lit "h") 3, .put (lit "l") 4,
        .erase (lit "d"), .erase (lit "a"), .put (lit "p") 5, .put (lit "a") 6, .erase (lit "l")] (lit "p")
        = some 5 := by
  refine ⟨_, by rfl, ?_, ?_⟩ <;> decide +kernel

/-- The same history on the repaired map finds `p`. -/
example : (demoMap true [.put (lit "a") 1, .put (lit "d") 2, .put (lit "h") 3, .put (lit "l") 4,
    .erase (lit "d"), .erase (lit "a"), .put (lit "p") 5, .put (lit "a") 6, .erase (lit "l")] >>=
    fun m => find (djb2 true) m (lit "p")) = .ok (some 5) := by decide +kernel

/-- A spaced history with collisions and growth. -/
example : Spaced false (fun _ : Bytes => (none : Option Nat)) [.put (lit "c") 1, .put (lit "g") 2, .put (lit "k") 3,
    .erase (lit "c"), .put (lit "o") 4, .erase (lit "g"), .clear, .put (lit "c") 5, .erase (lit "c")] := by
  refine ⟨by decide, by decide, by decide, trivial⟩

example : (demoMap false [.put (lit "c") 1, .put (lit "g") 2, .put (lit "k") 3,
    .erase (lit "c"), .put (lit "o") 4, .erase (lit "g")] >>= fun m => .ok m.entries) =
    .ok [(lit "k", 3), (lit "o", 4)] := by decide +kernel

/-! ## C25 -/

/-- **C25 (repaired code).** After every history, every look-up and every removal terminates and stays in bounds. -/
theorem C25_safe_repaired_partial {hash : K → Nat} {exceeds : Nat → Nat → Bool}
    (hex : ∀ b, 0 < b → exceeds 1 b = false) {buckets : Nat} (hb : 0 < buckets) (ops : List (DictOp K V)) (k : K) :
    ∃ m, mapAfter true hash exceeds buckets ops = .ok m ∧ (find hash m k).IsOk ∧ (eraseWith hash true m k).IsOk := by
  obtain ⟨m, h1, _, h2, _⟩ := mapAfter_spec hex hb (fixed := true) (hash := hash) ops (.inl rfl)
  obtain ⟨m', h1', _⟩ := mapAfter_spec hex hb (fixed := true) (hash := hash) (ops ++ [.erase k]) (.inl rfl)
  refine ⟨m, h1, by rw [h2.1 k]; trivial, ?_⟩
  have run_append : ∀ (m : UMap K V) (a b : List (DictOp K V)),
      runOps true hash exceeds m (a ++ b) = (runOps true hash exceeds m a >>= fun m' => runOps true hash exceeds m' b) := by
    intro m a b
    induction a generalizing m with
    | nil => rfl
    | cons op a ih =>
      simp only [List.cons_append, runOps]
      cases h : applyOp true hash exceeds m op with
      | ok m1 => simp only [Res.bind_ok]; exact ih m1
      | ub w => rfl
      | diverge => rfl
  simp only [mapAfter] at h1 h1'
  obtain ⟨m0, a1, a2⟩ := Res.bind_eq_ok.1 h1
  obtain ⟨m0', b1, b2⟩ := Res.bind_eq_ok.1 h1'
  rw [a1] at b1
  cases b1
  rw [run_append, a2] at b2
  simp only [Res.bind_ok, runOps, applyOp] at b2
  cases he : eraseWith hash true m k with
  | ok _ => trivial
  | ub w => rw [he] at b2; simp at b2
  | diverge => rw [he] at b2; simp at b2

/-- **C25 (code as it is).** After every history in which a new key is inserted or the map is cleared between any two
removals, every look-up terminates and stays in bounds (and so did every operation of the history). Missing: the other histories, for which it is false. -/
theorem C25_safe_partial {hash : K → Nat} {exceeds : Nat → Nat → Bool}
    (hex : ∀ b, 0 < b → exceeds 1 b = false) {buckets : Nat} (hb : 0 < buckets) (ops : List (DictOp K V))
    (hs : Spaced false (fun _ => none) ops) (k : K) :
    ∃ m, mapAfter false hash exceeds buckets ops = .ok m ∧ (find hash m k).IsOk := by
  obtain ⟨m, h1, h2⟩ := C24_dictionary_partial hex hb ops hs
  exact ⟨m, h1, by rw [h2.1 k]; trivial⟩

/-- **C25.** A look-up that is cut off by the step bound of the model would never end: the bound is no
restriction. -/
theorem C25_fuel_is_no_restriction {m : UMap K V} {k : K} {first : Option Nat}
    (h : findLoop m.nodes k (m.nodes.length + 1) first = .diverge) :
    ∀ steps, findLoop m.nodes k steps first = .diverge := findLoop_never h

/-- **C25 is false of the code: endless loop.** Commands `d`, `c`, `g`, `k` are added, `c` and `d` removed, `c` added
again and `k` removed. Looking up the unknown name `o` then never ends. -/
theorem C25_endless_lookup :
    ∃ m, demoMap false [.put (lit "d") 1, .put (lit "c") 2, .put (lit "g") 3, .put (lit "k") 4,
        .erase (lit "c"), .erase (lit "d"), .put (lit "c") 5, .erase (lit "k")] = .ok m ∧
      find (djb2 true) m (lit "o") = .diverge := by
  refine ⟨_, by rfl, ?_⟩
  decide +kernel

/-- **C25 is false of the code: out of bounds.** Commands `a`, `e`, `i`, `m` are added, then `a`, `e`, `m` removed: the
last removal writes outside the vector of nodes. -/
theorem C25_out_of_bounds :
    demoMap false [.put (lit "a") 1, .put (lit "e") 2, .put (lit "i") 3, .put (lit "m") 4,
      .erase (lit "a"), .erase (lit "e"), .erase (lit "m")] = .ub .oobWrite := by decide +kernel

/-- With the repair nothing of this happens. -/
example : (demoMap true [.put (lit "a") 1, .put (lit "e") 2, .put (lit "i") 3, .put (lit "m") 4,
      .erase (lit "a"), .erase (lit "e"), .erase (lit "m")] >>= fun m => .ok m.entries) = .ok [(lit "i", 3)] := by
  decide +kernel

/-- The load-factor condition of the default map. -/
example : ∀ b, 0 < b → overOne 1 b = false := by
  intro b hb
  simp [overOne]
  omega

end Coil
