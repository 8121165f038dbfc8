import Verif.Proofs.Checked
import Verif.Props.Links

/-!
# The map in a build with assertions (C71)
-/

namespace Coil
open Spec UMap

variable {K V : Type} [DecidableEq K]

/-- A history on a new map in a build with assertions. -/
def mapAfterC (fixed : Bool) (hash : K → Nat) (exceeds : Nat → Nat → Bool) (buckets : Nat) (ops : List (DictOp K V)) : Res (UMap K V) := do
  let m ← createC hash buckets
  runOpsC fixed hash exceeds m ops

/-- **C71.** Assertions change nothing but that they may stop the program: a history with assertions ends as it does without, or at a
failed assertion. -/
theorem C71_transparent (fixed : Bool) (hash : K → Nat) (exceeds : Nat → Nat → Bool) (buckets : Nat) (ops : List (DictOp K V)) :
    Stops (mapAfterC fixed hash exceeds buckets ops) (mapAfter fixed hash exceeds buckets ops) :=
  Stops.bind (stops_rehashLoop _ _ _) (fun m => stops_run ops m)

/-- **C71.** The same for a look-up in any map. -/
theorem C71_find_transparent (hash : K → Nat) (m : UMap K V) (k : K) : Stops (findC hash m k) (UMap.find hash m k) :=
  stops_find

/-- **C71.** With assertions the map as it is has no undefined behaviour, whatever the history: it ends properly, stops at a failed
assertion, or does not end. -/
theorem C71_contained {fixed : Bool} {hash : K → Nat} {exceeds : Nat → Nat → Bool} (hex : ∀ b, 0 < b → exceeds 1 b = false)
    {buckets : Nat} (hb : 0 < buckets) (ops : List (DictOp K V)) : Contained (mapAfterC fixed hash exceeds buckets ops) := by
  refine Contained.bind ?_ (fun m h => contained_run hex ops m ?_)
  · exact contained_rehashLoop _ _ _ (by simpa using hb)
  · rw [rehashLoop_buckets ((stops_rehashLoop _ _ _).of_ok h)]
    simpa using hb

/-- **C71.** So does a look-up after any history. -/
theorem C71_find_contained {fixed : Bool} {hash : K → Nat} {exceeds : Nat → Nat → Bool} (hex : ∀ b, 0 < b → exceeds 1 b = false)
    {buckets : Nat} (hb : 0 < buckets) (ops : List (DictOp K V)) {m : UMap K V} (h : mapAfterC fixed hash exceeds buckets ops = .ok m)
    (k : K) : Contained (findC hash m k) := by
  have h' := (C71_transparent fixed hash exceeds buckets ops).of_ok h
  obtain ⟨m0, h1, h2⟩ := Res.bind_eq_ok.1 h'
  refine contained_find (run_buckets_pos hex ops m0 ?_ h2)
  rw [rehashLoop_buckets h1]
  simpa using hb

/-- **C71 (repaired map).** In the repaired map no assertion ever fails: the history ends properly, and as it does without assertions. -/
theorem C71_hold_repaired {hash : K → Nat} {exceeds : Nat → Nat → Bool} (hex : ∀ b, 0 < b → exceeds 1 b = false) {buckets : Nat}
    (hb : 0 < buckets) (ops : List (DictOp K V)) :
    ∃ m, mapAfterC true hash exceeds buckets ops = .ok m ∧ mapAfter true hash exceeds buckets ops = .ok m ∧
      ∀ k, findC hash m k = .ok (dictAfter ops k) := by
  obtain ⟨m0, h1, h2, h3⟩ := create_spec (V := V) hash hb
  obtain ⟨m, g1, _, g2, _⟩ := mapAfter_spec hex hb (fixed := true) (hash := hash) ops (.inl rfl)
  have hr := runC_repaired hex h2 (d := fun _ => none) (by rw [h3]; exact lists_nil) ops
  refine ⟨m, ?_, g1, fun k => findC_of_ok (g2.1 k)⟩
  simp only [mapAfter, h1, Res.bind_ok] at g1
  simp only [mapAfterC, createC_of_ok h1, Res.bind_ok, hr, g1]

/-- **C71 (code as it is).** No assertion fails in a history none of whose removals reads a stale link. Missing for the full claim: the
other histories, see `C71_stops_false`. -/
theorem C71_hold_partial {hash : K → Nat} {exceeds : Nat → Nat → Bool} (hex : ∀ b, 0 < b → exceeds 1 b = false) {buckets : Nat}
    (hb : 0 < buckets) (ops : List (DictOp K V)) (hl : LinksOkFrom hash exceeds buckets ops) :
    ∃ m, mapAfterC false hash exceeds buckets ops = .ok m ∧ mapAfter false hash exceeds buckets ops = .ok m ∧
      ∀ k, findC hash m k = .ok (dictAfter ops k) := by
  obtain ⟨m0, h1, h2, h3⟩ := create_spec (V := V) hash hb
  obtain ⟨m, g1, g2, _⟩ := C24_links_partial hex hb ops hl
  have hr := runC_rel hex (mrel_refl m0) h2 (d := fun _ => none) (by rw [h3]; exact lists_nil) ops (hl m0 h1)
  refine ⟨m, ?_, g1, fun k => findC_of_ok (g2.1 k)⟩
  simp only [mapAfter, h1, Res.bind_ok] at g1
  simp only [mapAfterC, createC_of_ok h1, Res.bind_ok, hr, g1]

/-- Histories on the map of commands as it is, with one bucket at first and assertions. -/
def demoMapC (ops : List (DictOp Bytes Nat)) : Res (UMap Bytes Nat) := mapAfterC false (djb2 true) overOne 1 ops

/-- **C71 is false of the code.** A history of legal calls fails an assertion: four names are added and three of them removed. -/
theorem C71_stops_false :
    demoMapC [.put (lit "a") 1, .put (lit "e") 2, .put (lit "i") 3, .put (lit "m") 4,
      .erase (lit "a"), .erase (lit "e"), .erase (lit "m")] = .ub .assertion := by decide +kernel

/-- **C71.** Nor do the assertions find every damage: the history of `C24_dictionary_false` passes all of them, and then `p` is missing. -/
theorem C71_undetected_false :
    ∃ m, demoMapC [.put (lit "a") 1, .put (lit "d") 2, .put (lit "h") 3, .put (lit "l") 4,
        .erase (lit "d"), .erase (lit "a"), .put (lit "p") 5, .put (lit "a") 6, .erase (lit "l")] = .ok m ∧
      findC (djb2 true) m (lit "p") = .ok none ∧
      dictAfter [.put (lit "a") 1, .put (lit "d") 2, .put (lit "h") 3, .put (lit "l") 4,
        .erase (lit "d"), .erase (lit "a"), .put (lit "p") 5, .put (lit "a") 6, .erase (lit "l")] (lit "p") = some 5 := by
  refine ⟨_, by rfl, ?_, ?_⟩ <;> decide +kernel

/-- **C71.** And the endless look-up of `C25_endless_lookup` stays endless. -/
theorem C71_endless_false :
    ∃ m, demoMapC [.put (lit "d") 1, .put (lit "c") 2, .put (lit "g") 3, .put (lit "k") 4,
        .erase (lit "c"), .erase (lit "d"), .put (lit "c") 5, .erase (lit "k")] = .ok m ∧
      findC (djb2 true) m (lit "o") = .diverge := by
  refine ⟨_, by rfl, ?_⟩ <;> decide +kernel

/-- A history with growth, collisions and a removal that passes all assertions. -/
example : (demoMapC [.put (lit "a") 1, .put (lit "d") 2, .put (lit "h") 3, .erase (lit "d"), .put (lit "a") 7] >>=
    fun m => findC (djb2 true) m (lit "a")) = .ok (some 7) := by decide +kernel

/-- What stops here is a write out of bounds without assertions. -/
example : mapAfter false (djb2 true) overOne 1 [.put (lit "a") 1, .put (lit "e") 2, .put (lit "i") 3, .put (lit "m") 4,
      .erase (lit "a"), .erase (lit "e"), .erase (lit "m")] = .ub .oobWrite := by decide +kernel

end Coil
